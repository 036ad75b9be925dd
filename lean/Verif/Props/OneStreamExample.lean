import Verif.Props.OneStream
import Verif.Props.OnePlaceExample

/-!
# A consumer behind a proxy: a concrete case of C136

The configured broker says that the topic is to be reached through it; the consumer connects again, to the target, subscribes there and
gets a message there.
-/

namespace Neutron.Props.ProxyExample

open Neutron Neutron.World Proto Frame Trace EndToEndExample ConfirmedExample AppExample

/-- The run so far: brokers deliver only where the consumer subscribed; no `next_batch`; what arrived from `b1`. -/
structure Led (log : List World.Act) (rs : List Read) : Prop where
  honest : DeliversOnlySubscribed wcfg log
  calls : ∀ n, Consumer.Job.batch n ∉ callsMade log
  came : World.arrived b1 log = rs

def Got (a : App.State UInt8) (rs : List Read) : Prop := ∃ acts log, App.Run wcfg acts log a ∧ Led log rs

theorem got_init : Got (App.init wcfg) [] :=
  ⟨[], [], .nil, ⟨(by intro pre post b ans w v p he; cases pre <;> cases he), (by intro n h; cases h), rfl⟩⟩

theorem delivers_snoc {cfg : World.Cfg UInt8} {log : List World.Act} {w : World UInt8} {x : World.Act} (h : DeliversOnlySubscribed cfg log)
    (hr : World.Run cfg log w)
    (hx : ∀ b ans v p, x = .poll b ans → (Framed.pollNext (w.rx b).framed (w.rx b).socket).1 = .item v → IsMessageFor v p →
      ∃ m, Received (w.tx b).sent m ∧ IsSubscribe m p) : DeliversOnlySubscribed cfg (log ++ [x]) := by
  intro pre post b ans w' v p he hr' hp hv
  rcases List.eq_nil_or_concat post with rfl | ⟨post', y, rfl⟩
  · obtain ⟨rfl, he2⟩ := List.append_inj' he rfl
    have he : x = .poll b ans := by simpa using he2
    have hw := World.run_unique hr hr'
    subst hw
    exact hx b ans v p he hp hv
  · rw [List.concat_eq_append, ← List.cons_append, ← List.append_assoc] at he
    obtain ⟨he, _⟩ := List.append_inj' he rfl
    exact h pre post' b ans w' v p he hr' hp hv

/-- Nothing arrives, nothing is read, and no `next_batch` is made. -/
def calm : World.Act → Bool
  | .poll .. => false
  | .arrive .. => false
  | .app (.spawn (.batch _)) => false
  | _ => true

def calmA : App.Act → Bool
  | .world x => calm x
  | _ => true

theorem Led.calm {log : List World.Act} {rs : List Read} {w : World UInt8} {x : World.Act} (h : Led log rs) (hr : World.Run wcfg log w)
    (hx : calm x = true) : Led (log ++ [x]) rs := by
  refine ⟨delivers_snoc h.honest hr fun b ans _ _ he => ?_, ?_, ?_⟩
  · rw [he] at hx; cases hx
  · intro n hm
    rw [callsMade_append] at hm
    rcases List.mem_append.mp hm with hm | hm
    · exact h.calls n hm
    · cases x with
      | app y =>
        cases y with
        | spawn j =>
          cases j with
          | batch k => cases hx
          | _ => simp [callsMade] at hm
        | _ => simp [callsMade] at hm
      | _ => simp [callsMade] at hm
  · unfold World.arrived
    rw [readEvents_append]
    have : readEvents b1 [x] = [] := by
      cases x with
      | arrive => cases hx
      | poll => cases hx
      | _ => rfl
    rw [this, List.append_nil]
    exact h.came

theorem Got.calm {bs : List App.Act} : ∀ {a a' : App.State UInt8} {rs : List Read}, Got a rs → App.exec wcfg a bs = some a' →
    bs.all calmA = true → Got a' rs := by
  induction bs with
  | nil => intro a a' rs h hs _; cases hs; exact h
  | cons x bs ih =>
    intro a a' rs ⟨as, log, hr, hl⟩ hs hc
    simp only [App.exec] at hs
    simp only [List.all_cons, Bool.and_eq_true] at hc
    cases h1 : App.step wcfg a x with
    | none => simp [h1] at hs
    | some v =>
      simp only [h1] at hs
      refine ih (a := v) ⟨_, _, hr.snoc h1, ?_⟩ hs hc.2
      have key : ∀ (l : List World.Act), (∀ y ∈ l, ProxyExample.calm y = true) → ∀ log w, World.Run wcfg log w → Led log rs →
          (∃ w', App.worldSteps wcfg w l = some w') → Led (log ++ l) rs := by
        intro l
        induction l with
        | nil => intro _ log w _ hc _; simpa using hc
        | cons y l ihl =>
          intro hy log w hr hc ⟨w', hw⟩
          simp only [App.worldSteps] at hw
          cases hst : World.step wcfg w y with
          | none => simp [hst] at hw
          | some w1 =>
            simp only [hst] at hw
            have h2 := ihl (fun z hz => hy z (by simp [hz])) (log ++ [y]) w1 (.snoc hr hst) (hc.calm hr (hy y (by simp))) ⟨w', hw⟩
            simpa using h2
      refine key _ ?_ log _ (App.run_world hr) hl ⟨_, (App.step_some h1).2.1⟩
      intro y hy
      cases x with
      | world z => simp only [App.induced, List.mem_singleton] at hy; subst hy; exact hc.1
      | start c => simp [App.induced] at hy
      | run k =>
        simp only [App.induced] at hy
        split at hy
        · obtain ⟨_, _, rfl⟩ := List.mem_map.mp hy; rfl
        · cases hy
      | drop k =>
        simp only [App.induced] at hy
        split at hy
        · obtain ⟨_, _, rfl⟩ := List.mem_map.mp hy; rfl
        · cases hy

theorem arrivals_app (x y : List Framed.Ev) : Framed.arrivals (x ++ y) = Framed.arrivals x ++ Framed.arrivals y := by
  induction x with
  | nil => rfl
  | cons e x ih => cases e <;> simp [Framed.arrivals, ih]

/-- A command arrives at `b` and is read; if it is a message, its consumer has subscribed there. -/
theorem Got.hear {b : BrokerAddress} {a : App.State UInt8} {v : MessageCommand} {rs : List Read} (hg : Got a rs) (h : Framed.IsFrame (v, bytes v))
    (ha : b ∈ a.world.sys.addrs) (hr : (a.world.sys.conns b).alive = true) (hst : (a.world.rx b).stopped = false) (r : Bool)
    (hf : (a.world.rx b).framed = { buf := [], readable := r }) (hs : (a.world.rx b).socket = [])
    (hx : (sysSteps wcfg.sys a.world.sys [.connRead b (.command v none)]).isSome) (hn : a.world.held b = false)
    (hv : ∀ p, IsMessageFor v p → ∃ m, Received (a.world.tx b).sent m ∧ IsSubscribe m p) :
    Got (heardAt b a v) (rs ++ if b = b1 then [.data (bytes v)] else []) := by
  obtain ⟨as, log, hrun, hl⟩ := hg
  have he := hear_at h ha hr hst r hf hs hx hn
  obtain ⟨a1, h1⟩ : ∃ a1, App.step wcfg a (.world (.arrive b (.data (bytes v)))) = some a1 ∧
      a1.world.rx b = (a.world.rx b).step (.arrive (.data (bytes v))) ∧ a1.world.tx = a.world.tx := by
    simp [App.step, App.possible, App.free, App.induced, App.worldSteps, World.step, ha, App.jobsAfter]
  obtain ⟨h1, hrx, htx⟩ := h1
  simp only [hearAt, App.exec, h1] at he
  cases h2 : App.step wcfg a1 (.world (.poll b none)) with
  | none => simp [h2] at he
  | some a' =>
    simp only [h2, Option.some.injEq] at he
    subst he
    have hr1 := hrun.snoc h1
    refine ⟨_, _, hr1.snoc h2, ?_⟩
    simp only [App.induced] at hr1 ⊢
    refine ⟨delivers_snoc (delivers_snoc hl.honest (App.run_world hrun) fun b ans _ _ he => by cases he) (App.run_world hr1) ?_, ?_, ?_⟩
    · intro b' ans v' p hb hp hrec
      simp only [World.Act.poll.injEq] at hb
      obtain ⟨rfl, _⟩ := hb
      rw [hrx] at hp
      simp only [Framed.ReadSide.step, hf, hs, List.nil_append] at hp
      rw [poll_frame h r] at hp
      cases hp
      rw [htx]
      exact hv p hrec
    · intro n hm
      rw [callsMade_append, callsMade_append] at hm
      simp only [callsMade, List.append_nil] at hm
      exact hl.calls n hm
    · unfold World.arrived
      rw [readEvents_append, readEvents_append]
      have := hl.came
      unfold World.arrived at this
      by_cases hb : b = b1 <;> simp [readEvents, hb, arrivals_app, this, Framed.arrivals]

theorem no_message {ty : Int} {f : Nat} {sub : Msg} {pl : Option Payload} (hn : ty ≠ 9) (P : UInt64 → Prop) :
    ∀ p, IsMessageFor ⟨baseCommand ty f sub, pl⟩ p → P p := fun _ h => absurd ((commandType_base ty f sub).symm.trans h.1) hn

theorem frame_subscribed : Framed.IsFrame (successC 2, bytes (successC 2)) := by
  refine Framed.isFrame_of (parts_sendable _ ?_ (by intro p hp; cases hp) (by decide +kernel))
  exact base_ser 100 13 13 _ .commandSuccess (by decide) rfl (mk_ser 99 _ _ (by simp [pulsar]) (fields_cons (ok_u64 1 _ _ rfl) fields_nil))

def c2 : App.State UInt8 := heardAt b0 a1' connectedC
def c3 : App.State UInt8 := after c2 part2
def c4 : App.State UInt8 := wroteAt b0 c3 (bytes (out lookup0))
def c5 : App.State UInt8 := heardAt b0 c4 through
def c6 : App.State UInt8 := after c5 moves
def c7 : App.State UInt8 := wroteAt b1 c6 (bytes connectW)
def c8 : App.State UInt8 := heardAt b1 c7 connectedC
def c9 : App.State UInt8 := after c8 part2
def c10 : App.State UInt8 := wroteAt b1 c9 (bytes (out lookup1))
def c11 : App.State UInt8 := heardAt b1 c10 (found 1)
def c12 : App.State UInt8 := after c11 registers
def subscription : Outbound := .subscribe ⟨"t", "s", 0, 2, .shared⟩
def c13 : App.State UInt8 := wroteAt b1 c12 (bytes (out subscription))
def c14 : App.State UInt8 := heardAt b1 c13 (successC 2)
def ready : List App.Act := getsAt b1 ++ asks 0 0 ++ [.run 0]
def c15 : App.State UInt8 := after c14 ready
def permits : Outbound := .flow ⟨0, 500⟩
def c16 : App.State UInt8 := wroteAt b1 c15 (bytes (out permits))
def c17 : App.State UInt8 := heardAt b1 c16 m1
/-- The engine passes the message on; two `next_message` calls. -/
def takes : List App.Act := .world (.sys (.engIn b1)) :: (asking ++ asking').map App.Act.world
def c18 : App.State UInt8 := after c17 takes

set_option maxRecDepth 20000

theorem hop2 : App.exec wcfg a1' (hearAt b0 connectedC) = some c2 := hear_at frame_connected (by decide) rfl rfl false rfl rfl rfl rfl
theorem hop3 : App.exec wcfg c2 part2 = some c3 := rfl
theorem hop4 : App.exec wcfg c3 [.world (.write b0 0 .ok)] = some c4 :=
  write_at (c := ⟨lookup0, _, _⟩) (q := []) rfl trivial (by decide +kernel) rfl rfl rfl
theorem hop6 : App.exec wcfg c5 moves = some c6 := rfl
theorem hop7 : App.exec wcfg c6 writeThere = some c7 :=
  write_at (c := ⟨connectThrough, _, _⟩) (q := []) rfl trivial (by decide +kernel) rfl rfl rfl
theorem hop9 : App.exec wcfg c8 part2 = some c9 := rfl
theorem hop10 : App.exec wcfg c9 writeThere = some c10 :=
  write_at (c := ⟨lookup1, _, _⟩) (q := []) rfl trivial (by decide +kernel) rfl rfl rfl
theorem hop12 : App.exec wcfg c11 registers = some c12 := rfl
theorem hop13 : App.exec wcfg c12 writeThere = some c13 :=
  write_at (c := ⟨subscription, _, _⟩) (q := []) rfl trivial (by decide +kernel) rfl rfl rfl
theorem hop15 : App.exec wcfg c14 ready = some c15 := rfl
theorem hop16 : App.exec wcfg c15 writeThere = some c16 :=
  write_at (c := ⟨permits, _, _⟩) (q := []) rfl trivial (by decide +kernel) rfl rfl rfl
theorem hop18 : App.exec wcfg c17 takes = some c18 := rfl

def said : List (MessageCommand × Bytes) := [(connectW, bytes connectW), (out lookup1, bytes (out lookup1)),
  (out subscription, bytes (out subscription)), (out permits, bytes (out permits))]

theorem whole' : BeginsWith (c16.world.tx b1).sent said := by
  refine ⟨?_, [], ?_⟩
  · intro f hf
    simp only [said, List.mem_cons, List.not_mem_nil, or_false] at hf
    rcases hf with rfl | rfl | rfl | rfl
    · exact frame_out connectThrough rfl trivial (by decide +kernel)
    · exact frame_out lookup1 rfl trivial (by decide +kernel)
    · exact frame_out subscription rfl trivial (by decide +kernel)
    · exact frame_out permits rfl trivial (by decide +kernel)
  · have : (c16.world.tx b1).sent = ((([] ++ [] ++ bytes connectW) ++ [] ++ bytes (out lookup1)) ++ [] ++ bytes (out subscription)) ++ [] ++
        bytes (out permits) := rfl
    rw [this]
    simp [Framed.stream, said]

theorem whole'' : BeginsWith (c18.world.tx b1).sent said := whole'

def subscriptionM : Msg := mkMsg .commandSubscribe [(1, vStr "t"), (2, vStr "s"), (3, [.int SubType.shared.number]), (4, vU64 0), (5, vU64 2)]

theorem subscribes : IsSubscribe (out subscription) 0 := by
  have h : ∃ sub, getMsg .baseCommand (baseCommand 4 4 subscriptionM) 4 = some sub ∧ getU64 .commandSubscribe sub 4 = 0 := by
    refine ⟨subscriptionM, ?_, u64_of rfl rfl⟩
    unfold getMsg baseCommand
    rw [getF_mk _ _ _ rfl]
    rfl
  exact ⟨commandType_base .., h⟩

theorem message_for {p : UInt64} (h : IsMessageFor m1 p) : p = 0 := by
  obtain ⟨_, sub, h1, h2⟩ := h
  have : sub = mkMsg .commandMessage [(1, vU64 0), (2, vMsg (mkMsg .messageIdData [(1, vU64 5), (2, vU64 1)]))] := by
    unfold getMsg m1 wireMessage baseCommand at h1
    simp only at h1
    rw [getF_mk _ _ _ rfl] at h1
    cases h1; rfl
  subst this
  rw [u64_of rfl rfl] at h2
  exact h2.symm

/-- What `b1` sent. -/
def told : List (MessageCommand × Bytes) := [(connectedC, bytes connectedC), (found 1, bytes (found 1)), (successC 2, bytes (successC 2)), (m1, bytes m1)]

theorem got18 : Got c18 (told.map fun f => .data f.2) := by
  have h1 : Got a1' [] := (got_init.calm AppExample.step1 rfl).calm AppExample.step1' rfl
  have h2 : Got c2 [] := h1.hear frame_connected (by decide) rfl rfl false rfl rfl rfl rfl (no_message (by decide) _)
  have h4 : Got c4 [] := (h2.calm hop3 rfl).calm hop4 rfl
  have h5 : Got c5 [] := h4.hear frame_through (by decide) rfl rfl true rfl rfl rfl rfl (no_message (by decide) _)
  have h7 : Got c7 [] := (h5.calm hop6 rfl).calm hop7 rfl
  have h8 : Got c8 _ := h7.hear frame_connected (by decide) rfl rfl false rfl rfl rfl rfl (no_message (by decide) _)
  have h10 := (h8.calm hop9 rfl).calm hop10 rfl
  have h11 : Got c11 _ := h10.hear (frame_found 1 (by decide) (by decide +kernel)) (by decide) rfl rfl true rfl rfl rfl rfl (no_message (by decide) _)
  have h13 := (h11.calm hop12 rfl).calm hop13 rfl
  have h14 : Got c14 _ := h13.hear frame_subscribed (by decide) rfl rfl true rfl rfl rfl rfl (no_message (by decide) _)
  have h16 := (h14.calm hop15 rfl).calm hop16 rfl
  have h17 : Got c17 _ := h16.hear frame1 (by decide) rfl rfl true rfl rfl rfl rfl
    (fun p hp => ⟨_, ⟨said, whole', by simp [said]⟩, message_for hp ▸ subscribes⟩)
  exact h17.calm hop18 rfl

theorem fits' : Fits c18.world := by
  obtain ⟨acts, log, hr, _⟩ := got18
  intro b c hc
  have all : ∀ (b : BrokerAddress) (l : List Outbound), (c18.world.sys.conns b).processed.map (·.out) = l → c ∈ (c18.world.sys.conns b).processed →
      (∀ x ∈ l, x.Valid ∧ x.volume + 300 < 4294967296) → c.out.Valid ∧ c.out.volume + 300 < 4294967296 := by
    intro b l h1 h2 h3
    exact h3 _ (h1 ▸ List.mem_map_of_mem (f := (·.out)) h2)
  by_cases hb : b = b0
  · subst hb
    refine all b0 [connectOut, lookup0] rfl hc ?_
    intro x hx
    simp only [List.mem_cons, List.not_mem_nil, or_false] at hx
    rcases hx with h | h <;> rw [h] <;> exact ⟨trivial, by decide +kernel⟩
  by_cases hb1 : b = b1
  · subst hb1
    refine all b1 [connectThrough, lookup1, subscription, permits] rfl hc ?_
    intro x hx
    simp only [List.mem_cons, List.not_mem_nil, or_false] at hx
    rcases hx with h | h | h | h <;> rw [h] <;> exact ⟨trivial, by decide +kernel⟩
  · have h0 := (Sys.conn (App.reachable hr)).unused b (by show b ∉ [b0, b1]; simp [hb, hb1])
    rw [h0] at hc; cases hc

/-- The hypotheses of C136 are met, with two connections: the consumer subscribed at the target behind the proxy, got its message there,
and waits for the next. -/
example : ∃ acts log, App.Run wcfg acts log c18 ∧ App.Offers c18 ∧ Fits c18.world ∧ c18.world.sys.nClients = 1 ∧
    DeliversOnlySubscribed wcfg log ∧ (c18.world.sys.clients wcfg.me).phase ≠ .gone ∧ (∀ n, Consumer.Job.batch n ∉ callsMade log) ∧
    c18.world.sys.mode ≠ .stopped ∧ c18.world.sys.addrs = [b0, b1] ∧ Received (c18.world.tx b1).sent (out subscription) ∧
    IsSubscribe (out subscription) (UInt64.ofNat wcfg.me) ∧ Sends b1 log told [] false ∧ HasSent b1 log told [] ∧
    (Framed.pollNext (c18.world.rx b1).framed (c18.world.rx b1).socket).1 = .pending ∧ (c18.world.sys.conns b1).outbox = [] ∧
    c18.world.app.waiting 1 ∧ Consumer.step wcfg.app c18.world.app (.run 1) = none ∧ c18.world.app.handedOut.length = 1 := by
  obtain ⟨acts, log, hr, hl⟩ := got18
  have hw : ∀ f ∈ told, Framed.IsFrame f := by
    intro f hf
    simp only [told, List.mem_cons, List.not_mem_nil, or_false] at hf
    rcases hf with rfl | rfl | rfl | rfl
    · exact frame_connected
    · exact frame_found 1 (by decide) (by decide +kernel)
    · exact frame_subscribed
    · exact frame1
  have hdata : ∀ r ∈ told.map (fun f => Read.data f.2), Framed.IsData r := by
    intro r hr
    obtain ⟨f, hf, rfl⟩ := List.mem_map.mp hr
    exact trivial
  have hb : Framed.bytesOf (told.map (fun f => Read.data f.2)) = Framed.stream told ++ [] := by simp [Framed.bytesOf, Framed.stream, told]
  refine ⟨acts, log, hr, ?_, fits', rfl, hl.honest, by decide, hl.calls, by decide, rfl, ⟨said, whole'', by simp [said]⟩, subscribes,
    ⟨hw, Framed.partial_nil, _, hdata, hb, by rw [hl.came]; simp⟩, ⟨hw, Framed.partial_nil, by rw [hl.came]; exact ⟨hdata, hb⟩⟩, rfl, rfl, ?_, rfl, rfl⟩
  · intro j hj i p hm
    have : c18.jobs.map (·.made) = [.consumer builder] := rfl
    have hj' := List.mem_map_of_mem (f := (·.made)) hj
    rw [this, hm] at hj'
    simp at hj'
  · exact ⟨_, _, rfl, rfl⟩

end Neutron.Props.ProxyExample
