import Verif.Props.ReceiveForeverAll
import Verif.Props.ReceiveForeverExample
import Verif.Props.ReturnsExample

/-!
# An infinite execution of everything with a `consume`, concretely: C145
-/

namespace Neutron.Props.ReceiveAllExample

open Neutron Neutron.World Neutron.App Neutron.Sys EndToEndExample AppExample Session Trace ConfirmedExample Frame Proto

/-- `consume` is called, and waits. -/
abbrev waits : List App.Act := .world (.app (.spawn .consume)) :: (Consumer.go 0 2).map fun x => .world (.app x)
/-- The engine passes on what was read; the call gets it and gives it to the plugin, and waits again. -/
abbrev takes : List App.Act := .world (.sys (.engIn b0)) :: ((Consumer.go 0 5 ++ [Consumer.Act.offer 0 (.ok ())] ++ Consumer.go 0 3).map fun x => .world (.app x))

def c1 : App.State UInt8 := AppExample.after a7 waits
def c2 : App.State UInt8 := heard c1 m1
def c3 : App.State UInt8 := AppExample.after c2 takes

theorem go1 : App.exec wcfg a7 waits = some c1 := rfl
set_option maxRecDepth 20000 in
theorem go2 : App.exec wcfg c1 (AppExample.hear m1) = some c2 := hear_exec frame1 (by decide) rfl rfl true rfl rfl rfl
set_option maxRecDepth 20000 in
theorem go3 : App.exec wcfg c2 takes = some c3 := rfl

abbrev all : List App.Act := making ++ (waits ++ (AppExample.hear m1 ++ takes))

theorem all_exec : App.exec wcfg (App.init wcfg) all = some c3 := exec_trans making_exec (exec_trans go1 (exec_trans go2 go3))

theorem lengths : making.length = 32 ∧ all.length = 47 := ⟨rfl, rfl⟩

set_option maxRecDepth 20000 in
theorem end_state : (c3.world.sys.mode, c3.world.sys.vec, c3.world.sys.addrs, (c3.world.sys.conns b0).alive, (c3.world.sys.conns b0).outbox.length,
    c3.world.app.tasks.map (·.job), c3.world.app.inbox.length, c3.world.app.isOpen) = (.idle, [0], [b0], true, 0, [.consume], 0, true) := rfl

/-- If there is only one client, the engine always serves the first that is ready. -/
theorem only_client {as : List App.Act} {e : App.State UInt8} {i : Nat} (he : App.exec wcfg (App.init wcfg) as = some e) (hv : e.world.sys.vec = [i])
    (n : Nat) (x : Sys.Act) (t : App.State UInt8) (hx : as[n]? = some (.world (.sys x)))
    (ht : App.exec wcfg (App.init wcfg) (as.take n) = some t) : FirstReady t.world.sys x := by
  cases x with
  | engOut j auth net =>
    have hn : n < as.length := (List.getElem?_eq_some_iff.mp hx).1
    obtain ⟨u, hu⟩ := exec_take he (n + 1)
    have hu' := hu
    rw [show as.take (n + 1) = as.take n ++ [as[n]] by simp, exec_snoc, ht, (List.getElem?_eq_some_iff.mp hx).2] at hu'
    have hi : j ∈ t.world.sys.vec := by
      have := app_does hu'
      simp only [App.does, World.does, sysSteps] at this
      split at this
      · rename_i hs
        simp only [Sys.step, Sys.engOut] at hs
        split at hs
        · rename_i hc; exact hc.2.1
        · cases hs
      · cases this
    rw [← List.take_append_drop n as, AppExample.exec_append, ht, Option.bind_some] at he
    obtain ⟨l, hl⟩ := exec_path he
    obtain ⟨d, _, hv', _⟩ := path_regs hl
    rw [hv] at hv'
    cases hvec : t.world.sys.vec with
    | nil => rw [hvec] at hi; cases hi
    | cons a r =>
      rw [hvec] at hv' hi
      simp only [List.cons_append, List.cons.injEq] at hv'
      have hr : r = [] := (List.append_eq_nil_iff.mp hv'.2.symm).1
      subst hr
      rw [List.mem_singleton] at hi
      subst hi
      exact ⟨[], [], hvec, by intro j hj; cases hj⟩
  | _ => trivial

theorem reaches {as bs cs : List App.Act} {t : App.State UInt8} {σ : Nat → App.State UInt8} (he : App.exec wcfg (App.init wcfg) as = some t)
    (hw : cs = as ++ bs) (hσ : ∀ n, n ≤ cs.length → App.exec wcfg (App.init wcfg) (cs.take n) = some (σ n)) : σ as.length = t := by
  have := hσ as.length (by rw [hw]; simp)
  rw [hw, List.take_left, he] at this
  exact (Option.some.inj this).symm

/-- The consumer is on the connection, and a call is there. -/
def fine (a : App.State UInt8) : Bool := att a.world && decide (a.world.app.tasks.length = 1)

theorem spawned : App.exec wcfg a7 (waits.take 1) = some (AppExample.after a7 (waits.take 1)) := rfl

def comes : List App.Act := [.world (.arrive b0 (.data (bytes m1)))]

theorem comes_exec : App.exec wcfg (App.init wcfg) (making ++ (waits ++ comes)) = some (AppExample.after c1 comes) :=
  exec_trans making_exec (exec_trans go1 rfl)

theorem heard_exec : App.exec wcfg (App.init wcfg) (making ++ (waits ++ AppExample.hear m1)) = some c2 :=
  exec_trans making_exec (exec_trans go1 go2)

/-- `fine` after each of these actions. -/
def fineAll (a : App.State UInt8) : List App.Act → Bool
  | [] => fine a
  | x :: xs => fine a && match App.step wcfg a x with
    | some a' => fineAll a' xs
    | none => false

theorem fine_at {as : List App.Act} : ∀ {a : App.State UInt8} (k : Nat), fineAll a as = true → ∃ t, App.exec wcfg a (as.take k) = some t ∧ fine t = true := by
  induction as with
  | nil => intro a k h; exact ⟨a, by simp [App.exec], h⟩
  | cons x as ih =>
    intro a k h
    simp only [fineAll, Bool.and_eq_true] at h
    cases k with
    | zero => exact ⟨a, rfl, h.1⟩
    | succ k =>
      cases hs : App.step wcfg a x with
      | none => rw [hs] at h; exact absurd h.2 (by simp)
      | some a' =>
        rw [hs] at h
        obtain ⟨t, h1, h2⟩ := ih k h.2
        exact ⟨t, by simp only [List.take_succ_cons, App.exec, hs]; exact h1, h2⟩

theorem fine1 : fineAll (AppExample.after a7 (waits.take 1)) (waits.drop 1) = true := rfl
set_option maxRecDepth 20000 in
theorem fine2 : fine (AppExample.after c1 comes) = true := rfl
set_option maxRecDepth 20000 in
theorem fine3 : fineAll c2 takes = true := rfl

def x1 : Message := match Inbound.ofCommand m1 with
  | .ok (.message x) => x
  | _ => .single 0 (Consumer.msgId 0) []

theorem m1_is : Inbound.ofCommand m1 = .ok (.message x1) := rfl
set_option maxRecDepth 20000 in
theorem c2_underway : received c2.world.sys wcfg.me ++ underway c2.world.sys wcfg.me b0 = [x1] := rfl

/-- From the call on, everything is fine. -/
theorem fine_all {n : Nat} (h1 : 33 ≤ n) (h2 : n ≤ 47) : ∃ t, App.exec wcfg (App.init wcfg) (all.take n) = some t ∧ fine t = true := by
  have hl : making.length = 32 := lengths.1
  by_cases ha : n ≤ 35
  · obtain ⟨t, k1, k2⟩ := fine_at (n - 33) fine1
    refine ⟨t, ?_, k2⟩
    have he := exec_trans making_exec (exec_trans spawned k1)
    have : all.take n = making ++ (waits.take 1 ++ (waits.drop 1).take (n - 33)) := by
      rcases (show n = 33 ∨ n = 34 ∨ n = 35 by omega) with rfl | rfl | rfl <;> rfl
    rw [this]; exact he
  · by_cases hb : n = 36
    · subst hb
      exact ⟨_, comes_exec, fine2⟩
    · obtain ⟨t, k1, k2⟩ := fine_at (n - 37) fine3
      refine ⟨t, ?_, k2⟩
      have he := exec_trans heard_exec k1
      have : all.take n = making ++ (waits ++ AppExample.hear m1) ++ takes.take (n - 37) := by
        rw [show all = (making ++ (waits ++ AppExample.hear m1)) ++ takes by simp [all], List.take_append, List.take_of_length_le (by
          show 32 + 5 ≤ n; omega)]
        rfl
      rw [this]; exact he

theorem m1_message : ∃ x, Inbound.ofCommand m1 = .ok (.message x) ∧ x.consumerId = UInt64.ofNat wcfg.me ∧
    ∃ id, Consumer.yields wcfg.app.decode x = [.ok ⟨104, id⟩] := ⟨_, rfl, rfl, _, rfl⟩

set_option maxRecDepth 20000 in
theorem alive_end : c3.world.app.alive 0 := ⟨_, rfl, by intro h; cases h⟩

set_option maxRecDepth 20000 in
theorem no_runs (i : Nat) : Consumer.step wcfg.app c3.world.app (.run i) = none := by
  cases i with
  | zero => rfl
  | succ i => rfl

set_option maxRecDepth 20000 in
theorem no_offers (i : Nat) (t : Consumer.Task UInt8) (x : Consumer.Received UInt8) (k : Nat) (ht : c3.world.app.tasks[i]? = some t) :
    t.stage ≠ .offering x k := by
  intro hs
  cases i with
  | zero => cases ht; cases hs
  | succ i => cases ht

def calls : App.Act → Bool
  | .world (.app (.spawn (.batch _))) => false
  | _ => true

theorem all_calls : all.map calls = List.replicate 47 true := rfl

/-- The hypotheses of `C145_socket_to_application`, `C145_each_message` and `C145_socket_to_plugins` are met: a consumer has been made;
`consume` is called; the bytes of a message arrive, are read and handed to the call, which gives the message to the plugin and waits. -/
example : ∃ (σ : Nat → App.State UInt8) (acts : Nat → App.Act) (id : MessageId), App.Forever wcfg σ acts ∧ KeepsLooping (sysOf σ) ∧
    App.Attended wcfg σ acts ∧ NoBatches acts ∧ (∀ m, 33 ≤ m → Attached wcfg.me b0 (sysOf σ m)) ∧
    Fair wcfg.sys (sysOf σ) (roundsOf wcfg σ acts) (Act.servesReads b0) ∧ (∀ m, 33 ≤ m → (σ m).world.app.alive 0) ∧
    (∀ n, (σ n).world.app.tasks.map (·.job) <+: [.consume]) ∧ acts 36 = .world (.poll b0 none) ∧
    (Framed.pollNext ((σ 36).world.rx b0).framed ((σ 36).world.rx b0).socket).1 = .item m1 ∧
    (∃ m, 36 ≤ m ∧ .ok ⟨104, id⟩ ∈ (σ m).world.app.handedOut) ∧ ∃ m, 37 ≤ m ∧ (0, 0, ⟨104, id⟩, .ok ()) ∈ (σ m).world.app.offers := by
  have hes := end_state
  simp only [Prod.mk.injEq] at hes
  obtain ⟨e1, e2, e3, e4, e5, e6, e7, e8⟩ := hes
  have e5 := List.length_eq_zero_iff.mp e5
  have e7 := List.length_eq_zero_iff.mp e7
  obtain ⟨σ, acts, hF, hσ, hσN, hacts⟩ := app_stutter (b := b0) all_exec (by rw [e3]; simp) (only_client all_exec e2)
  rw [lengths.2] at hσ hσN
  have hlate : ∀ n, 47 ≤ n → sysOf σ n = c3.world.sys := fun n hn => (hσN n hn).1
  have hlateA : ∀ n, 47 ≤ n → (σ n).world.app = c3.world.app := fun n hn => (hσN n hn).2.2
  have hk : KeepsLooping (sysOf σ) := fun n => ⟨n + 47, by omega, by show (sysOf σ (n + 47)).mode = _; rw [hlate _ (by omega)]; exact e1⟩
  have hfine : ∀ n, 33 ≤ n → n ≤ 47 → fine (σ n) = true := by
    intro n h1 h2
    obtain ⟨t, k1, k2⟩ := fine_all h1 h2
    rw [hσ n h2] at k1
    cases k1; exact k2
  have hfine : ∀ n, 33 ≤ n → fine (σ n) = true := by
    intro n h1
    rcases Nat.lt_or_ge n 47 with h2 | h2
    · exact hfine n h1 (by omega)
    · have hw := hfine 47 (by omega) (by omega)
      unfold fine att at hw ⊢
      have a1 := (hσN n h2).1
      have a2 := (hσN 47 (by omega)).1
      rw [hlateA _ (by omega), a2] at hw
      rw [hlateA n h2, a1]
      exact hw
  have hstop := never_stopped hF hk
  have hcf := consumer_forever hF hstop
  have hal : ∀ m, 33 ≤ m → (σ m).world.app.alive 0 := by
    intro m hm
    refine alive_back hcf (show m ≤ m + 47 by omega) ?_ ?_
    · have := hfine m hm
      unfold fine at this
      simp only [Bool.and_eq_true, decide_eq_true_eq] at this
      show 0 < (σ m).world.app.tasks.length
      omega
    · show (σ (m + 47)).world.app.alive 0
      rw [hlateA _ (by omega)]
      exact alive_end
  have hatt : ∀ m, 33 ≤ m → Attached wcfg.me b0 (sysOf σ m) := by
    intro m hm
    have := hfine m hm
    unfold fine at this
    simp only [Bool.and_eq_true, decide_eq_true_eq] at this
    exact att_iff this.1
  have hfr : Fair wcfg.sys (sysOf σ) (roundsOf wcfg σ acts) (Act.servesReads b0) := by
    refine fair_of_never 47 fun n hn => ?_
    rw [hlate n hn]
    rintro ⟨a, t, hp, _, hst⟩
    cases a with
    | engIn b =>
      simp only [Sys.step, Sys.engIn] at hst
      split at hst
      · rename_i hc
        rw [e3] at hc
        have hb : b = b0 := by simpa using hc.2.1
        subst hb
        rw [e5] at hst
        simp [e4] at hst
      · cases hst
    | _ => cases hp
  have hA : App.Attended wcfg σ acts := by
    refine ⟨fun i hag => ?_, fun i hag => ?_⟩
    · obtain ⟨m, hm, a, hs⟩ := hag 47
      exfalso
      obtain ⟨_, hw, _⟩ := step_some hs
      simp only [App.induced, worldSteps] at hw
      cases hws : World.step wcfg (σ m).world (.app (.run i)) with
      | none => rw [hws] at hw; cases hw
      | some w' =>
        simp only [World.step] at hws
        rw [hlateA m hm] at hws
        rw [no_runs i] at hws
        simp at hws
    · obtain ⟨m, hm, t, x, k, ht, hst, _⟩ := hag 47
      rw [hlateA m hm] at ht
      exact absurd hst (no_offers i t x k ht)
  have hb : NoBatches acts := by
    intro n k he
    have : calls (acts n) = true := by
      rw [hacts]
      cases hx : all[n]? with
      | none => rfl
      | some y =>
        have hm : calls y ∈ all.map calls := List.mem_map_of_mem (List.mem_of_getElem? hx)
        rw [all_calls] at hm
        exact List.eq_of_mem_replicate hm
    rw [he] at this
    cases this
  have h36 : σ 36 = AppExample.after c1 comes := reaches comes_exec (bs := all.drop 36) (cs := all) rfl (by rw [lengths.2]; exact hσ)
  have hp : acts 36 = .world (.poll b0 none) := by rw [hacts]; rfl
  have hv : (Framed.pollNext ((σ 36).world.rx b0).framed ((σ 36).world.rx b0).socket).1 = .item m1 := by
    rw [h36]
    show (Framed.pollNext { buf := [], readable := true } [.data (bytes m1)]).1 = _
    rw [poll_frame frame1]
  have hjobs : ∀ n, (σ n).world.app.tasks.map (·.job) <+: [.consume] := by
    intro n
    have := jobs_grow (past := []) (acts := onConsumer σ acts) (show n ≤ n + 47 by omega)
    rw [← Consumer.task_jobs (hcf.run n), ← Consumer.task_jobs (hcf.run (n + 47))] at this
    rw [hlateA (n + 47) (by omega), e6] at this
    exact this
  obtain ⟨x, hx, hid, id, hy⟩ := m1_message
  refine ⟨σ, acts, id, hF, hk, hA, hb, hatt, hfr, hal, hjobs, hp, hv, ?_, ?_⟩
  · obtain ⟨m, hm, ho⟩ := C145_each_message hF hk hA hb hatt hfr hal (by omega : 33 ≤ 36) hp hv hx hid
    exact ⟨m, hm, ho _ (by rw [hy]; exact List.mem_singleton.mpr rfl)⟩
  · have h37 : σ 37 = c2 := reaches heard_exec (bs := all.drop 37) (cs := all) rfl (by rw [lengths.2]; exact hσ)
    refine C145_socket_to_plugins hF hk hA hjobs hatt hfr hal (by omega : 33 ≤ 37) (x := x) ?_ (by rw [hy]; exact List.mem_singleton.mpr rfl) (by decide)
    rw [show sysOf σ 37 = c2.world.sys by unfold sysOf; rw [h37], c2_underway]
    have := hx.symm.trans m1_is
    cases this
    exact List.mem_singleton.mpr rfl

end Neutron.Props.ReceiveAllExample
