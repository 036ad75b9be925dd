import Verif.Props.Returns
import Verif.Props.AppReachExample
import Verif.Props.ForeverExample

/-!
# An infinite execution of everything, concretely: C144
-/

namespace Neutron.Props

open Neutron.World Neutron.App Neutron.Sys EndToEndExample AppExample Session Trace ConfirmedExample Frame Proto

variable {T : Type}

theorem exec_snoc {cfg : World.Cfg T} {x : App.Act} : ∀ (as : List App.Act) (a : App.State T),
    App.exec cfg a (as ++ [x]) = (App.exec cfg a as).bind fun a' => App.step cfg a' x := by
  intro as
  induction as with
  | nil =>
    intro a
    simp only [List.nil_append, App.exec]
    cases h : App.step cfg a x <;> simp [h]
  | cons y as ih =>
    intro a
    simp only [List.cons_append, App.exec]
    cases App.step cfg a y with
    | none => rfl
    | some a' => exact ih a'

theorem exec_take {cfg : World.Cfg T} {as : List App.Act} : ∀ {a e : App.State T}, App.exec cfg a as = some e → ∀ n,
    ∃ t, App.exec cfg a (as.take n) = some t := by
  induction as with
  | nil => intro a e _ n; exact ⟨a, by simp [App.exec]⟩
  | cons y as ih =>
    intro a e h n
    cases n with
    | zero => exact ⟨a, rfl⟩
    | succ n =>
      simp only [App.exec] at h
      simp only [List.take_succ_cons, App.exec]
      cases hy : App.step cfg a y with
      | none => rw [hy] at h; cases h
      | some a' => rw [hy] at h; exact ih h n

/-- A byte arrives. -/
def trickles (b : BrokerAddress) (a : App.State T) : App.State T :=
  ⟨{ a.world with rx := fun x => if x = b then (a.world.rx b).step (.arrive (.data [0])) else a.world.rx x }, a.jobs⟩

theorem trickles_step {cfg : World.Cfg T} {a : App.State T} {b : BrokerAddress} (h : b ∈ a.world.sys.addrs) :
    App.step cfg a (.world (.arrive b (.data [0]))) = some (trickles b a) := by
  simp only [App.step, possible, App.free, if_true, App.induced, worldSteps, World.step, h, jobsAfter, trickles]

/-- `n` bytes arrive. -/
def trickle (b : BrokerAddress) (e : App.State T) : Nat → App.State T
  | 0 => e
  | n + 1 => trickles b (trickle b e n)

theorem trickle_same (b : BrokerAddress) (e : App.State T) (n : Nat) :
    (trickle b e n).world.sys = e.world.sys ∧ (trickle b e n).jobs = e.jobs ∧ (trickle b e n).world.app = e.world.app := by
  induction n with
  | zero => exact ⟨rfl, rfl, rfl⟩
  | succ n ih => exact ih

/-- The finite execution `as`, and then bytes arrive forever. -/
theorem app_stutter {cfg : World.Cfg T} {as : List App.Act} {e : App.State T} {b : BrokerAddress} (he : App.exec cfg (App.init cfg) as = some e)
    (hb : b ∈ e.world.sys.addrs)
    (ho : ∀ n x t, as[n]? = some (.world (.sys x)) → App.exec cfg (App.init cfg) (as.take n) = some t → FirstReady t.world.sys x) :
    ∃ (σ : Nat → App.State T) (acts : Nat → App.Act), App.Forever cfg σ acts ∧ (∀ n, n ≤ as.length → App.exec cfg (App.init cfg) (as.take n) = some (σ n)) ∧
      (∀ n, as.length ≤ n → (σ n).world.sys = e.world.sys ∧ (σ n).jobs = e.jobs ∧ (σ n).world.app = e.world.app) ∧
      ∀ n, acts n = as[n]?.getD (.world (.arrive b (.data [0]))) := by
  have hσ : ∀ n, App.exec cfg (App.init cfg) (as.take n) = some ((App.exec cfg (App.init cfg) (as.take n)).getD e) := by
    intro n
    obtain ⟨t, ht⟩ := exec_take he n
    rw [ht]; rfl
  have hlate : ∀ n, as.length ≤ n → as.take n = as := fun n hn => List.take_of_length_le hn
  have hstep : ∀ n (hn : n < as.length), App.step cfg ((App.exec cfg (App.init cfg) (as.take n)).getD e) as[n] =
      some ((App.exec cfg (App.init cfg) (as.take (n + 1))).getD e) := by
    intro n hn
    obtain ⟨t, ht⟩ := exec_take he n
    obtain ⟨u, hu⟩ := exec_take he (n + 1)
    have hu' := hu
    rw [show as.take (n + 1) = as.take n ++ [as[n]] by simp, exec_snoc, ht] at hu'
    rw [ht, hu]
    exact hu'
  refine ⟨fun n => if n < as.length then (App.exec cfg (App.init cfg) (as.take n)).getD e else trickle b e (n - as.length),
    fun n => as[n]?.getD (.world (.arrive b (.data [0]))), ⟨?_, ?_, ?_⟩, ?_, ?_, fun _ => rfl⟩
  · by_cases h0 : 0 < as.length
    · simp only [h0, if_true, List.take_zero, App.exec, Option.getD_some]
    · have : as = [] := List.length_eq_zero_iff.mp (by omega)
      subst this
      cases he
      rfl
  · intro n
    by_cases hn : n < as.length
    · have hs := hstep n hn
      simp only [hn, if_true, List.getElem?_eq_getElem hn, Option.getD_some]
      by_cases hn1 : n + 1 < as.length
      · simp only [hn1, if_true]
        exact hs
      · simp only [hn1, if_false, show n + 1 - as.length = 0 by omega, trickle]
        rw [hs, hlate (n + 1) (by omega), he]
        rfl
    · simp only [hn, if_false, show ¬ n + 1 < as.length by omega, List.getElem?_eq_none (by omega : as.length ≤ n), Option.getD_none,
        show n + 1 - as.length = (n - as.length) + 1 by omega, trickle]
      exact trickles_step (by rw [(trickle_same b e _).1]; exact hb)
  · intro n x hx
    by_cases hn : n < as.length
    · simp only [hn, if_true]
      refine ho n x _ ?_ (hσ n)
      simp only [List.getElem?_eq_getElem hn, Option.getD_some] at hx ⊢
      rw [hx]
    · rw [List.getElem?_eq_none (by omega)] at hx
      cases hx
  · intro n hn
    by_cases hn' : n < as.length
    · simp only [hn', if_true]; exact hσ n
    · simp only [hn', if_false]
      rw [hlate n (by omega), he, show n - as.length = 0 by omega]
      rfl
  · intro n hn
    simp only [show ¬ n < as.length by omega, if_false]
    exact trickle_same b e _

theorem sysSteps_path {cfg : Sys.Cfg} : ∀ {as : List Sys.Act} {s s' : Sys.State}, sysSteps cfg s as = some s' → Continues cfg s as s' := by
  intro as
  induction as with
  | nil => intro s s' h; cases h; exact .nil trivial
  | cons a as ih =>
    intro s s' h
    simp only [sysSteps] at h
    cases hs : Sys.step cfg s a with
    | none => rw [hs] at h; cases h
    | some t =>
      rw [hs] at h
      exact continues_append (as := [a]) (.snoc (as := []) (.nil trivial) hs trivial) (ih h)

theorem exec_path {cfg : World.Cfg T} {as : List App.Act} : ∀ {a e : App.State T}, App.exec cfg a as = some e →
    ∃ l, Continues cfg.sys a.world.sys l e.world.sys := by
  induction as with
  | nil => intro a e h; cases h; exact ⟨[], .nil trivial⟩
  | cons x as ih =>
    intro a e h
    simp only [App.exec] at h
    cases hs : App.step cfg a x with
    | none => rw [hs] at h; cases h
    | some t =>
      rw [hs] at h
      obtain ⟨l, hl⟩ := ih h
      exact ⟨_, continues_append (sysSteps_path (app_does hs)) hl⟩

/-- Nothing is written but by the tasks of the connections. -/
theorem no_writes {cfg : World.Cfg T} {a a' : App.State T} {x : App.Act} (hs : App.step cfg a x = some a')
    (hx : ∀ b now io, x ≠ .world (.write b now io)) (b : BrokerAddress) (w : Write) : .connCmd b w ∉ App.does cfg a x := by
  intro h
  cases x with
  | world y =>
    cases y with
    | arrive | hold | serve => cases h
    | poll b ans =>
      obtain ⟨y, _, hy⟩ := List.mem_map.mp h
      cases hy
    | write b now io => exact hx b now io rfl
    | sys y =>
      simp only [App.does, World.does, List.mem_singleton] at h
      subst h
      obtain ⟨_, hw, _⟩ := step_some hs
      simp [App.induced, worldSteps, World.step, World.free] at hw
    | app y =>
      simp only [App.does, World.does, World.induced] at h
      repeat' split at h
      all_goals simp at h
  | start c => cases h
  | run k =>
    simp only [App.does] at h
    split at h
    · rename_i j hj
      cases ha : j.acts a.world.sys with
      | none => rw [ha] at h; cases h
      | some as =>
        rw [ha, Option.getD_some] at h
        unfold Job.acts at ha
        repeat' split at ha
        all_goals (cases ha; first | (simp at h; done) | (split at h <;> simp at h; done) | skip)
    · cases h
  | drop k =>
    simp only [App.does] at h
    split at h
    · unfold Job.dropActs at h
      repeat' split at h
      all_goals simp at h
    · cases h

theorem path_quiet {cfg : Sys.Cfg} {s s' : Sys.State} {as : List Sys.Act} (hr : Reachable cfg s) (hp : Continues cfg s as s') (b : BrokerAddress)
    (hn : ∀ w, .connCmd b w ∉ as) : (s'.conns b).written = (s.conns b).written := by
  induction hp with
  | nil => rfl
  | snoc hp' hs _ ih =>
    rename_i s1 s2 as a _
    rw [(processed_step (continues_reachable hr hp') hs b fun w he => hn w (by rw [he]; simp)).2, ih fun w hw => hn w (by simp [hw])]

theorem path_dead {cfg : Sys.Cfg} {s s' : Sys.State} {as : List Sys.Act} (hr : Reachable cfg s) (hp : Continues cfg s as s') {b : BrokerAddress}
    (hd : (s.conns b).alive = false) : (s'.conns b).alive = false := by
  induction hp with
  | nil => exact hd
  | snoc hp' hs _ ih => exact World.dead_step (continues_reachable hr hp') hs ih

theorem path_clients {cfg : Sys.Cfg} {s s' : Sys.State} {as : List Sys.Act} (hp : Continues cfg s as s') : s.nClients ≤ s'.nClients := by
  induction hp with
  | nil => exact Nat.le_refl _
  | snoc _ hs _ ih => exact Nat.le_trans ih (Sys.nClients_mono hs)

namespace ReturnsExample

/-- A producer is made; then it sends a message.  Everything is written, and the broker answers everything. -/
abbrev whole : List App.Act := made1 ++ (write ++ (AppExample.hear connectedC ++ (part2 ++ (write ++ (AppExample.hear (found 1) ++ (part3 ++ (write ++
    (AppExample.hear (producerSuccessC 1) ++ (made7 ++ (sends ++ (write ++ (AppExample.hear receipt1 ++ confirmed))))))))))))

theorem heard3 : App.exec wcfg p2 (AppExample.hear connectedC) = some p3 := hear_exec frame_connected (by decide) rfl rfl false rfl rfl rfl
theorem heard6 : App.exec wcfg p5 (AppExample.hear (found 1)) = some p6 :=
  hear_exec (frame_found 1 (by decide) (by decide +kernel)) (by decide) rfl rfl true rfl rfl rfl
theorem heard9 : App.exec wcfg p8 (AppExample.hear (producerSuccessC 1)) = some p9 := hear_exec frame_producer (by decide) rfl rfl true rfl rfl rfl
theorem heard13 : App.exec wcfg p12 (AppExample.hear receipt1) = some p13 := hear_exec frame_receipt (by decide) rfl rfl true rfl rfl rfl

theorem whole_exec : App.exec wcfg (App.init wcfg) whole = some p14 :=
  exec_trans psent1 (exec_trans psent2 (exec_trans heard3 (exec_trans psent4 (exec_trans psent5 (exec_trans heard6 (exec_trans psent7
    (exec_trans psent8 (exec_trans heard9 (exec_trans psent10 (exec_trans psent11 (exec_trans psent12 (exec_trans heard13 psent14))))))))))))

set_option maxRecDepth 20000 in
theorem end_state : (p14.world.sys.mode, p14.world.sys.vec, p14.world.sys.regQueue, p14.world.sys.addrs, (p14.world.sys.conns b0).alive,
    (p14.world.sys.clients 0).queue, (p14.world.sys.clients 0).phase, (p14.world.sys.conns b0).queue, (p14.world.sys.conns b0).outbox.length,
    p14.world.sys.nClients) = (.idle, [0], [], [b0], true, [], .ready, [], 0, 1) := rfl

set_option maxRecDepth 20000 in
theorem end_jobs : p14.jobs.map (fun j => j.acts p14.world.sys) = [none, none] := rfl

theorem end_vec : p14.world.sys.vec = [0] := by
  have h := end_state
  simp only [Prod.mk.injEq] at h
  exact h.2.1

theorem end_addrs : p14.world.sys.addrs = [b0] := by
  have h := end_state
  simp only [Prod.mk.injEq] at h
  exact h.2.2.2.1

def arrives (v : MessageCommand) : List App.Act := [.world (.arrive b0 (.data (bytes v)))]

theorem hear_does {a : App.State UInt8} {v : MessageCommand} (h : Framed.IsFrame (v, bytes v)) (ha : b0 ∈ a.world.sys.addrs) (r : Bool)
    (hf : (a.world.rx b0).framed = { buf := [], readable := r }) (hs : (a.world.rx b0).socket = []) :
    App.exec wcfg a (arrives v) = some (AppExample.after a (arrives v)) ∧
    App.does wcfg (AppExample.after a (arrives v)) (.world (.poll b0 none)) = [.connRead b0 (.command v none)] := by
  constructor
  · simp only [arrives, AppExample.after, App.exec, App.step, possible, App.free, if_true, App.induced, worldSteps, World.step, ha, jobsAfter,
      Option.getD_some]
  · have hrx : (AppExample.after a (arrives v)).world.rx b0 = (a.world.rx b0).step (.arrive (.data (bytes v))) := by
      simp only [arrives, AppExample.after, App.exec, App.step, possible, App.free, if_true, App.induced, worldSteps, World.step, ha, jobsAfter,
        Option.getD_some]
    simp only [App.does, World.does, hrx, Framed.ReadSide.step, hf, hs, List.nil_append, poll_frame h r]
    rfl

theorem write_does {a : App.State UInt8} {c : Sys.ConnCmd} {q : List Sys.ConnCmd} {v : MessageCommand} (ht : c.out.toCommand 0 = .ok v)
    (hv : c.out.Valid) (hs : size v.parts.1 v.parts.2 < 4294967296) (hq : (a.world.sys.conns b0).queue = c :: q) :
    App.does wcfg a (.world (.write b0 0 .ok)) = [.connCmd b0 .ok] := by
  have henc : (c.out.toCommand 0).bind (Codec.encode true) = .ok (bytes v) := by
    obtain ⟨item, h1, h2, h3⟩ := toCommand_ok 0 c.out hv
    rw [ht] at h1
    cases h1
    rw [ht]
    exact Codec.encode_layout _ _ _ _ (parts_sendable _ h2 h3 hs).serialises (parts_sendable _ h2 h3 hs).fits
  simp only [App.does, World.does, hq, Tx.send, wcfg, henc]

set_option maxRecDepth 20000 in
theorem does9 : App.does wcfg p1 (.world (.write b0 0 .ok)) = [.connCmd b0 .ok] :=
  write_does (c := ⟨connectOut, some 0, some (0, ⟨.connect ⟨none, none, none⟩, some 0⟩)⟩) (q := []) rfl trivial (by decide +kernel) rfl
set_option maxRecDepth 20000 in
theorem does17 : App.does wcfg p4 (.world (.write b0 0 .ok)) = [.connCmd b0 .ok] :=
  write_does (c := ⟨lookup0, none, some (0, ⟨lookup0, some 1⟩)⟩) (q := []) rfl trivial (by decide +kernel) rfl
set_option maxRecDepth 20000 in
theorem does25 : App.does wcfg p7 (.world (.write b0 0 .ok)) = [.connCmd b0 .ok] :=
  write_does (c := ⟨registration0, none, some (0, ⟨registration0, some 2⟩)⟩) (q := []) rfl trivial (by decide +kernel) rfl
set_option maxRecDepth 20000 in
theorem does35 : App.does wcfg p11 (.world (.write b0 0 .ok)) = [.connCmd b0 .ok] :=
  write_does (c := ⟨.send sent1, none, some (0, ⟨.send sent1, some 3⟩)⟩) (q := []) (v := command1) command1_to trivial (by decide +kernel) rfl

set_option maxRecDepth 20000 in
theorem wrote_out : ((p1.world.sys.conns b0).written.map (·.out), (p2.world.sys.conns b0).written.map (·.out), (p4.world.sys.conns b0).written.map (·.out),
    (p5.world.sys.conns b0).written.map (·.out), (p7.world.sys.conns b0).written.map (·.out), (p8.world.sys.conns b0).written.map (·.out),
    (p11.world.sys.conns b0).written.map (·.out), (p12.world.sys.conns b0).written.map (·.out)) =
  ([], [connectOut], [connectOut], [connectOut, lookup0], [connectOut, lookup0], [connectOut, lookup0, registration0],
    [connectOut, lookup0, registration0], [connectOut, lookup0, registration0, .send sent1]) := rfl

def isWrite : App.Act → Bool
  | .world (.write _ _ _) => true
  | _ => false

def isDrop : App.Act → Bool
  | .drop _ => true
  | _ => false

theorem whole_writes : whole.map isWrite = (List.range 41).map (fun n => decide (n = 9 ∨ n = 17 ∨ n = 25 ∨ n = 35)) := rfl

theorem whole_drops : whole.map isDrop = (List.range 41).map fun _ => false := rfl

theorem whole_length : whole.length = 41 := rfl

theorem not_write {n : Nat} (h : isWrite (whole[n]?.getD (.world (.arrive b0 (.data [0])))) = true) : n = 9 ∨ n = 17 ∨ n = 25 ∨ n = 35 := by
  by_cases hn : n < 41
  · have h1 : (whole.map isWrite)[n]? = some (isWrite (whole[n]?.getD (.world (.arrive b0 (.data [0]))))) := by
      rw [List.getElem?_map, List.getElem?_eq_getElem (show n < whole.length from hn)]; rfl
    rw [whole_writes, h] at h1
    simp only [List.getElem?_map, List.getElem?_range hn, Option.map_some, Option.some.injEq, decide_eq_true_eq] at h1
    exact h1
  · rw [List.getElem?_eq_none (show whole.length ≤ n by rw [whole_length]; omega)] at h
    cases h

theorem not_drop (n : Nat) : isDrop (whole[n]?.getD (.world (.arrive b0 (.data [0])))) = false := by
  by_cases hn : n < 41
  · have h1 : (whole.map isDrop)[n]? = some (isDrop (whole[n]?.getD (.world (.arrive b0 (.data [0]))))) := by
      rw [List.getElem?_map, List.getElem?_eq_getElem (show n < whole.length from hn)]; rfl
    rw [whole_drops] at h1
    simp only [List.getElem?_map, List.getElem?_range hn, Option.map_some, Option.some.injEq] at h1
    exact h1.symm
  · rw [List.getElem?_eq_none (show whole.length ≤ n by rw [whole_length]; omega)]
    rfl

theorem whole_ordered (n : Nat) (x : Sys.Act) (t : App.State UInt8) (hx : whole[n]? = some (.world (.sys x)))
    (ht : App.exec wcfg (App.init wcfg) (whole.take n) = some t) : FirstReady t.world.sys x := by
  cases x with
  | engOut i auth net =>
    have hn : n < whole.length := (List.getElem?_eq_some_iff.mp hx).1
    obtain ⟨u, hu⟩ := exec_take whole_exec (n + 1)
    have hu' := hu
    rw [show whole.take (n + 1) = whole.take n ++ [whole[n]] by simp, exec_snoc, ht, (List.getElem?_eq_some_iff.mp hx).2] at hu'
    have hi : i ∈ t.world.sys.vec := by
      have := app_does hu'
      simp only [App.does, World.does, sysSteps] at this
      split at this
      · rename_i hs
        simp only [Sys.step, Sys.engOut] at hs
        split at hs
        · rename_i hc; exact hc.2.1
        · cases hs
      · cases this
    have he := whole_exec
    rw [← List.take_append_drop n whole, AppExample.exec_append, ht, Option.bind_some] at he
    obtain ⟨l, hl⟩ := exec_path he
    obtain ⟨d, _, hv, _⟩ := path_regs hl
    rw [end_vec] at hv
    cases hvec : t.world.sys.vec with
    | nil => rw [hvec] at hi; cases hi
    | cons a r =>
      rw [hvec] at hv hi
      simp only [List.cons_append, List.cons.injEq] at hv
      have hr : r = [] := (List.append_eq_nil_iff.mp hv.2.symm).1
      subst hr
      rw [List.mem_singleton] at hi
      subst hi
      exact ⟨[], [], hvec, by intro j hj; cases hj⟩
  | _ => trivial

theorem late (as bs : List App.Act) {t : App.State UInt8} {σ : Nat → App.State UInt8} (he : App.exec wcfg (App.init wcfg) as = some t)
    (hw : whole = as ++ bs) (hσ : ∀ n, n ≤ whole.length → App.exec wcfg (App.init wcfg) (whole.take n) = some (σ n)) : σ as.length = t := by
  have := hσ as.length (by rw [hw]; simp)
  rw [hw, List.take_left, he] at this
  exact (Option.some.inj this).symm

/-- An infinite execution that meets all the hypotheses. -/
theorem whole_run : ∃ (σ : Nat → App.State UInt8) (acts : Nat → App.Act), App.Forever wcfg σ acts ∧
    (∀ n, n ≤ 41 → App.exec wcfg (App.init wcfg) (whole.take n) = some (σ n)) ∧
    DoTheirPart wcfg.sys (sysOf σ) (roundsOf wcfg σ acts) ∧ (∀ n, (sysOf σ n).nClients ≤ 2 ^ 64) ∧
    Fair wcfg.sys (sysOf σ) (roundsOf wcfg σ acts) Act.servesSomeone ∧
    (∀ i, GetsTurns (sysOf σ) i ∧ Fair wcfg.sys (sysOf σ) (roundsOf wcfg σ acts) (Act.servesClient i)) ∧
    (∀ m k, acts m ≠ .drop k) ∧ (∀ k, FairTo wcfg σ acts k) ∧ (∀ i, FallsSilent (roundsOf wcfg σ acts) i) ∧
    ∀ n, 41 ≤ n → sysOf σ n = p14.world.sys := by
  obtain ⟨σ, acts, hF, hσ, hσN, hacts⟩ := app_stutter (b := b0) whole_exec (by rw [end_addrs]; simp) whole_ordered
  have hS := app_forever hF
  rw [whole_length] at hσN
  have hes := end_state
  simp only [Prod.mk.injEq] at hes
  obtain ⟨e1, e2, e3, e4, e5, e6, e7, e8, e9, e10⟩ := hes
  have e9 := List.length_eq_zero_iff.mp e9
  have hlate : ∀ n, 41 ≤ n → sysOf σ n = p14.world.sys := fun n hn => (hσN n hn).1
  have hround : ∀ n, 41 ≤ n → roundsOf wcfg σ acts n = [] := by
    intro n hn
    unfold roundsOf
    rw [hacts, List.getElem?_eq_none (by rw [whole_length]; exact hn)]
    rfl
  have hfair : ∀ p : Sys.Act → Bool, ¬ Enabled wcfg.sys p14.world.sys p → Fair wcfg.sys (sysOf σ) (roundsOf wcfg σ acts) p := fun p hp =>
    fair_of_never 41 fun n hn => by rw [hlate n hn]; exact hp
  have hnotC : ∀ j, ¬ Enabled wcfg.sys p14.world.sys (Act.servesClient j) := by
    rintro j ⟨a, t, hp, _, hst⟩
    cases a with
    | engOut k auth net =>
      simp only [Sys.step, Sys.engOut] at hst
      split at hst
      · rename_i hc
        rw [e2] at hc
        have hk : k = 0 := by simpa using hc.2.1
        subst hk
        rw [e6] at hst
        simp [e7] at hst
      · cases hst
    | _ => cases hp
  have hnotS : ¬ Enabled wcfg.sys p14.world.sys Act.servesSomeone := by
    rintro ⟨a, t, hp, ho, hst⟩
    cases a with
    | engOut k auth net => exact hnotC k ⟨_, t, by simp [Act.servesClient], ho, hst⟩
    | _ => cases hp
  have hnotG : ¬ Enabled wcfg.sys p14.world.sys Act.servesRegs := by
    rintro ⟨a, t, hp, ho, hst⟩
    cases a with
    | engReg =>
      simp only [Sys.step, Sys.engReg, e3] at hst
      split at hst <;> cases hst
    | _ => cases hp
  have hnotW : ∀ b, ¬ Enabled wcfg.sys p14.world.sys (Act.servesWrites b) := by
    rintro j ⟨a, t, hp, _, hst⟩
    cases a with
    | connCmd b w =>
      simp only [Sys.step, Sys.connCmd] at hst
      split at hst
      · rename_i hc
        rw [e4] at hc
        have hb : b = b0 := by simpa using hc.2
        subst hb
        rw [e8] at hst
        simp [e1] at hst
      · cases hst
    | _ => cases hp
  have hnotR : ∀ b, ¬ Enabled wcfg.sys p14.world.sys (Act.servesReads b) := by
    rintro j ⟨a, t, hp, _, hst⟩
    cases a with
    | engIn b =>
      simp only [Sys.step, Sys.engIn] at hst
      split at hst
      · rename_i hc
        rw [e4] at hc
        have hb : b = b0 := by simpa using hc.2.1
        subst hb
        rw [e9] at hst
        simp [e5] at hst
      · cases hst
    | _ => cases hp
  have hlate41 : ∀ n, sysOf σ (n + 41) = p14.world.sys := fun n => hlate _ (by omega)
  have hr14 : Reachable wcfg.sys p14.world.sys := by rw [← hlate41 0]; exact forever_reachable hS _
  have halive : ∀ b, (p14.world.sys.conns b).alive = true := by
    intro b
    by_cases hb : b ∈ p14.world.sys.addrs
    · rw [e4] at hb
      have hb : b = b0 := by simpa using hb
      rw [hb]; exact e5
    · rw [(conn hr14).unused b hb]; rfl
  have alive : ∀ b n, ((sysOf σ n).conns b).alive = true := by
    intro b n
    cases hal : ((sysOf σ n).conns b).alive with
    | true => rfl
    | false =>
      have := path_dead (forever_reachable hS n) (continues_to hS (by omega : n ≤ n + 41)) hal
      rw [hlate41, halive] at this
      cases this
  -- the four times something is written
  have x1 := exec_trans psent1 psent2
  have x2 := exec_trans x1 heard3
  have x3 := exec_trans x2 psent4
  have x4 := exec_trans x3 psent5
  have x5 := exec_trans x4 heard6
  have x6 := exec_trans x5 psent7
  have x7 := exec_trans x6 psent8
  have x8 := exec_trans x7 heard9
  have x9 := exec_trans x8 psent10
  have x10 := exec_trans x9 psent11
  have x11 := exec_trans x10 psent12
  have s9 : σ 9 = p1 := late made1 (whole.drop 9) psent1 rfl hσ
  have s10 : σ 10 = p2 := late _ (whole.drop 10) x1 rfl hσ
  have s17 : σ 17 = p4 := late _ (whole.drop 17) x3 rfl hσ
  have s18 : σ 18 = p5 := late _ (whole.drop 18) x4 rfl hσ
  have s25 : σ 25 = p7 := late _ (whole.drop 25) x6 rfl hσ
  have s26 : σ 26 = p8 := late _ (whole.drop 26) x7 rfl hσ
  have s35 : σ 35 = p11 := late _ (whole.drop 35) x10 rfl hσ
  have s36 : σ 36 = p12 := late _ (whole.drop 36) x11 rfl hσ
  have d1 := hear_does (a := p2) frame_connected (by decide) false rfl rfl
  have d2 := hear_does (a := p5) (frame_found 1 (by decide) (by decide +kernel)) (by decide) true rfl rfl
  have d3 := hear_does (a := p8) frame_producer (by decide) true rfl rfl
  have d4 := hear_does (a := p12) frame_receipt (by decide) true rfl rfl
  have s11 : σ 11 = _ := late _ (whole.drop 11) (exec_trans x1 d1.1) rfl hσ
  have s19 : σ 19 = _ := late _ (whole.drop 19) (exec_trans x4 d2.1) rfl hσ
  have s27 : σ 27 = _ := late _ (whole.drop 27) (exec_trans x7 d3.1) rfl hσ
  have s37 : σ 37 = _ := late _ (whole.drop 37) (exec_trans x11 d4.1) rfl hσ
  have r11 : roundsOf wcfg σ acts 11 = [.connRead b0 (.command connectedC none)] := by
    unfold roundsOf; rw [hacts, s11]; exact d1.2
  have r19 : roundsOf wcfg σ acts 19 = [.connRead b0 (.command (found 1) none)] := by
    unfold roundsOf; rw [hacts, s19]; exact d2.2
  have r27 : roundsOf wcfg σ acts 27 = [.connRead b0 (.command (producerSuccessC 1) none)] := by
    unfold roundsOf; rw [hacts, s27]; exact d3.2
  have r37 : roundsOf wcfg σ acts 37 = [.connRead b0 (.command receipt1 none)] := by
    unfold roundsOf; rw [hacts, s37]; exact d4.2
  have w9 : roundsOf wcfg σ acts 9 = [.connCmd b0 .ok] := by unfold roundsOf; rw [hacts, s9]; exact does9
  have w17 : roundsOf wcfg σ acts 17 = [.connCmd b0 .ok] := by unfold roundsOf; rw [hacts, s17]; exact does17
  have w25 : roundsOf wcfg σ acts 25 = [.connCmd b0 .ok] := by unfold roundsOf; rw [hacts, s25]; exact does25
  have w35 : roundsOf wcfg σ acts 35 = [.connCmd b0 .ok] := by unfold roundsOf; rw [hacts, s35]; exact does35
  have hwrites : ∀ n b w, .connCmd b w ∈ roundsOf wcfg σ acts n → (b = b0 ∧ w = .ok) ∧ (n = 9 ∨ n = 17 ∨ n = 25 ∨ n = 35) := by
    intro n b w hm
    have hn : n = 9 ∨ n = 17 ∨ n = 25 ∨ n = 35 := by
      refine Classical.byContradiction fun hno => ?_
      refine no_writes (hF.steps n) ?_ b w hm
      intro b now io he
      refine hno (not_write ?_)
      rw [← hacts, he]
      rfl
    refine ⟨?_, hn⟩
    have : .connCmd b w ∈ [Sys.Act.connCmd b0 .ok] := by
      rcases hn with rfl | rfl | rfl | rfl
      · rwa [w9] at hm
      · rwa [w17] at hm
      · rwa [w25] at hm
      · rwa [w35] at hm
    rw [List.mem_singleton] at this
    cases this
    exact ⟨rfl, rfl⟩
  have hwo := wrote_out
  simp only [Prod.mk.injEq] at hwo
  obtain ⟨o1, o2, o4, o5, o7, o8, o11, o12⟩ := hwo
  have delta : ∀ {l d l' : List Sys.ConnCmd} {ks : List Outbound} {k : Outbound} {c : Sys.ConnCmd}, l.map (·.out) = ks → l'.map (·.out) = ks ++ [k] →
      l' = l ++ d → c ∈ d → c.out = k := by
    intro l d l' ks k c h1 h2 h3 h4
    rw [h3, List.map_append, h1, List.append_cancel_left_eq] at h2
    have := List.mem_map_of_mem (f := (·.out)) h4
    rw [h2, List.mem_singleton] at this
    exact this
  have hanswers : ∀ b, BrokerAnswers (sysOf σ) (roundsOf wcfg σ acts) b := by
    intro b n d c hw hcd hx
    by_cases ha : ∀ w, .connCmd b w ∉ roundsOf wcfg σ acts n
    · rw [path_quiet (forever_reachable hS n) (inOrder_continues (hS.rounds n)) b ha] at hw
      have : d = [] := by simpa using hw
      subst this
      cases hcd
    · simp only [Classical.not_forall, Classical.not_not] at ha
      obtain ⟨w, ha⟩ := ha
      obtain ⟨⟨rfl, rfl⟩, hn⟩ := hwrites n b w ha
      unfold sysOf at hw
      rcases hn with rfl | rfl | rfl | rfl
      · rw [show (9 : Nat) + 1 = 10 from rfl, s9, s10] at hw
        refine ⟨11, _, _, _, by omega, by rw [r11]; exact List.mem_singleton.mpr rfl, rfl, ?_⟩
        rw [delta o1 o2 hw hcd]; trivial
      · rw [show (17 : Nat) + 1 = 18 from rfl, s17, s18] at hw
        refine ⟨19, _, _, _, by omega, by rw [r19]; exact List.mem_singleton.mpr rfl, rfl, ?_⟩
        rw [delta o4 o5 hw hcd]; trivial
      · rw [show (25 : Nat) + 1 = 26 from rfl, s25, s26] at hw
        refine ⟨27, _, _, _, by omega, by rw [r27]; exact List.mem_singleton.mpr rfl, rfl, ?_⟩
        rw [delta o7 o8 hw hcd]; trivial
      · rw [show (35 : Nat) + 1 = 36 from rfl, s35, s36] at hw
        refine ⟨37, _, _, _, by omega, by rw [r37]; exact List.mem_singleton.mpr rfl, rfl, ?_⟩
        rw [delta o11 o12 hw hcd]; rfl
  refine ⟨σ, acts, hF, by rw [← whole_length]; exact hσ, ⟨fun n => ⟨n + 41, by omega, by show (sysOf σ (n + 41)).mode = _; rw [hlate41]; exact e1⟩, hfair _ hnotG, fun b => hfair _ (hnotW b),
    fun b => hfair _ (hnotR b), fun b => ⟨alive b, fun n w hm => (hwrites n b w hm).1.2⟩, hanswers⟩, fun n => ?_, hfair _ hnotS,
    fun i => ⟨fun n => ⟨n + 41, by omega, by rw [hlate41]; exact e1, ?_⟩, hfair _ (hnotC i)⟩, ?_, ?_, ?_, hlate⟩
  · have := path_clients (continues_to hS (by omega : n ≤ n + 41))
    rw [hlate41, e10] at this
    exact Nat.le_trans this (by decide)
  · intro before after hv j hj
    rw [hlate41, e2] at hv
    exfalso
    have := congrArg List.length hv
    simp at this
    have hb : before = [] := List.length_eq_zero_iff.mp (by omega)
    rw [hb] at hj
    cases hj
  · intro m k he
    have := not_drop m
    rw [← hacts, he] at this
    cases this
  · intro k hag
    obtain ⟨m, hm, a, hs⟩ := hag 41
    exfalso
    have hp := (step_some hs).1
    simp only [App.possible, (hσN m hm).1, (hσN m hm).2.1] at hp
    cases hj : p14.jobs[k]? with
    | none => rw [hj] at hp; cases hp
    | some j =>
      have : j.acts p14.world.sys = none := by
        have hmem : j.acts p14.world.sys ∈ p14.jobs.map (fun j => j.acts p14.world.sys) :=
          List.mem_map_of_mem (f := fun j : Job => j.acts p14.world.sys) (List.mem_of_getElem? hj)
        rw [end_jobs] at hmem
        simpa using hmem
      rw [hj] at hp
      simp [this] at hp
  · intro i
    exact ⟨41, fun m hm a ha => by rw [hround m hm] at ha; cases ha⟩

set_option maxRecDepth 20000 in
/-- The `send` is called. -/
theorem send_called {σ : Nat → App.State UInt8} (h2 : ∀ n, n ≤ 41 → App.exec wcfg (App.init wcfg) (whole.take n) = some (σ n)) :
    (σ 32).jobs[1]?.map (fun j => (j.live, j.ended, j.made)) = some (true, none, .call 0 (Session.send some [104])) := by
  have hx := exec_trans (exec_trans (exec_trans (exec_trans (exec_trans (exec_trans (exec_trans (exec_trans (exec_trans psent1 psent2) heard3) psent4)
    psent5) heard6) psent7) psent8) heard9) psent10
  have hy : App.exec wcfg p10 [.start (.call 0 (Session.send some [104]))] =
    some (AppExample.after p10 [.start (.call 0 (Session.send some [104]))]) := rfl
  have hz : σ 32 = _ := late _ (whole.drop 32) (exec_trans hx hy) rfl (by rw [whole_length]; exact h2)
  rw [hz]
  rfl

set_option maxRecDepth 20000 in
/-- The hypotheses of `C144_returns` and `C144_returns_in_turn` are met: a producer's `connect` has just been called, and later a `send`;
both return. -/
example : ∃ (σ : Nat → App.State UInt8) (acts : Nat → App.Act) (j0 j1 : Job), App.Forever wcfg σ acts ∧
    DoTheirPart wcfg.sys (sysOf σ) (roundsOf wcfg σ acts) ∧ (∀ n, (sysOf σ n).nClients ≤ 2 ^ 64) ∧
    Fair wcfg.sys (sysOf σ) (roundsOf wcfg σ acts) Act.servesSomeone ∧
    (∀ i, GetsTurns (sysOf σ) i ∧ Fair wcfg.sys (sysOf σ) (roundsOf wcfg σ acts) (Act.servesClient i)) ∧
    (∀ m k, acts m ≠ .drop k) ∧ (∀ k, FairTo wcfg σ acts k) ∧ (∀ i, FallsSilent (roundsOf wcfg σ acts) i) ∧
    ((σ 2).jobs[0]? = some j0 ∧ j0.live = true ∧ j0.ended = none ∧ j0.made = .producer sender) ∧
    ((σ 32).jobs[1]? = some j1 ∧ j1.live = true ∧ j1.ended = none ∧ j1.made = .call 0 (Session.send some [104])) ∧
    Returns σ 0 2 ∧ Returns σ 1 32 := by
  obtain ⟨σ, acts, h1, h2, h3, h4, h5, h6, h7, h8, h9, _⟩ := whole_run
  have hj0 : (σ 2).jobs[0]?.map (fun j => (j.live, j.ended, j.made)) = some (true, none, .producer sender) := by
    have : (App.exec wcfg (App.init wcfg) (whole.take 2)).bind (fun a => a.jobs[0]?.map (fun j => (j.live, j.ended, j.made))) =
      some (true, none, .producer sender) := rfl
    rw [h2 2 (by omega)] at this
    exact this
  have hj1 := send_called h2
  obtain ⟨j0, k0, k1⟩ := Option.map_eq_some_iff.mp hj0
  obtain ⟨j1, l0, l1⟩ := Option.map_eq_some_iff.mp hj1
  simp only [Prod.mk.injEq] at k1 l1
  refine ⟨σ, acts, j0, j1, h1, h3, h4, h5, h6, h7, h8, h9, ⟨k0, k1⟩, ⟨l0, l1⟩, ?_, ?_⟩
  · exact C144_returns h1 h3 h4 h5 k0 k1.1 (fun m => h7 m 0) (h8 0) (by intro i p hm; rw [k1.2.2] at hm; cases hm) fun _ i' _ _ => h9 i'
  · refine C144_returns_in_turn h1 h3 h4 l0 l1.1 (fun m => h7 m 1) (h8 1) ?_ fun i _ => h6 i
    intro i p hm
    rw [l1.2.2] at hm
    cases hm
    exact (C144_library some _ [] [] []).1

end ReturnsExample

end Neutron.Props
