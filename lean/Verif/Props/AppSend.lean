import Verif.Props.AppCalls
import Verif.Props.AppFail

/-!
# The application's sends: a concrete run
-/

namespace Neutron.Props.AppExample

open Neutron Neutron.World Neutron.App Frame Trace Proto EndToEndExample ConfirmedExample

set_option maxRecDepth 20000

theorem confirms_snoc {cfg : World.Cfg UInt8} {log : List World.Act} {w : World UInt8} {x : World.Act} (h : ConfirmsOnlyReceived cfg log)
    (hr : World.Run cfg log w)
    (hx : ∀ b ans v p s, x = .poll b ans → (Framed.pollNext (w.rx b).framed (w.rx b).socket).1 = .item v → IsSendReceipt v p s →
      ∃ m, Received (w.tx b).sent m ∧ IsSendCommand m p s) : ConfirmsOnlyReceived cfg (log ++ [x]) := by
  intro pre post b ans w' v p s he hr' hp hv
  rcases List.eq_nil_or_concat post with rfl | ⟨post', y, rfl⟩
  · obtain ⟨rfl, he2⟩ := List.append_inj' he rfl
    have he : x = .poll b ans := by simpa using he2
    have hw := World.run_unique hr hr'
    subst hw
    exact hx b ans v p s he hp hv
  · rw [List.concat_eq_append, ← List.cons_append, ← List.append_assoc] at he
    obtain ⟨he, _⟩ := List.append_inj' he rfl
    exact h pre post' b ans w' v p s he hr' hp hv

/-- The application got there, and the brokers confirmed only what they had received. -/
def Reach (acts : List App.Act) (a : App.State UInt8) : Prop :=
  ∃ log, App.Run wcfg acts log a ∧ ConfirmsOnlyReceived wcfg log

theorem reach_init : Reach [] (App.init wcfg) :=
  ⟨[], .nil, by intro pre post b ans w v p s he; cases pre <;> cases he⟩

/-- Steps in which nothing is read. -/
theorem Reach.quiet {bs : List App.Act} (hn : ∀ x ∈ bs, ∀ b ans, x ≠ App.Act.world (.poll b ans)) : ∀ {as : List App.Act} {a a' : App.State UInt8},
    Reach as a → App.exec wcfg a bs = some a' → Reach (as ++ bs) a' := by
  induction bs with
  | nil => intro as a a' h hs; cases hs; simpa using h
  | cons x bs ih =>
    intro as a a' ⟨log, hr, hc⟩ hs
    simp only [App.exec] at hs
    cases h1 : App.step wcfg a x with
    | none => simp [h1] at hs
    | some v =>
      simp only [h1] at hs
      have := ih (fun y hy => hn y (by simp [hy])) (as := as ++ [x]) (a := v) ⟨_, hr.snoc h1, ?_⟩ hs
      · simpa using this
      · have key : ∀ (l : List World.Act), (∀ y ∈ l, ∀ b ans, y ≠ .poll b ans) → ∀ log w, World.Run wcfg log w → ConfirmsOnlyReceived wcfg log →
            (∃ w', worldSteps wcfg w l = some w') → ConfirmsOnlyReceived wcfg (log ++ l) := by
          intro l
          induction l with
          | nil => intro _ log w _ hc _; simpa using hc
          | cons y l ihl =>
            intro hy log w hr hc ⟨w', hw⟩
            simp only [worldSteps] at hw
            cases hst : World.step wcfg w y with
            | none => simp [hst] at hw
            | some w1 =>
              simp only [hst] at hw
              have h2 := ihl (fun z hz => hy z (by simp [hz])) (log ++ [y]) w1 (.snoc hr hst)
                (confirms_snoc hc hr fun b ans _ _ _ he => absurd he (hy y (by simp) b ans)) ⟨w', hw⟩
              simpa using h2
        refine key _ ?_ log _ (run_world hr) hc ⟨_, (step_some h1).2.1⟩
        intro y hy b ans hyp
        subst hyp
        cases x with
        | world z => simp only [App.induced, List.mem_singleton] at hy; exact hn (.world z) List.mem_cons_self b ans (by rw [← hy])
        | start c => simp [App.induced] at hy
        | run k =>
          simp only [App.induced] at hy
          split at hy
          · obtain ⟨_, _, h⟩ := List.mem_map.mp hy; cases h
          · cases hy
        | drop k =>
          simp only [App.induced] at hy
          split at hy
          · obtain ⟨_, _, h⟩ := List.mem_map.mp hy; cases h
          · cases hy

/-- A command is read; if it is a receipt, its `SEND` has been received. -/
theorem Reach.hear {as : List App.Act} {a : App.State UInt8} {v : MessageCommand} (hreach : Reach as a) (h : Framed.IsFrame (v, bytes v))
    (ha : b0 ∈ a.world.sys.addrs) (hr : (a.world.sys.conns b0).alive = true) (hst : (a.world.rx b0).stopped = false) (r : Bool)
    (hf : (a.world.rx b0).framed = { buf := [], readable := r }) (hs : (a.world.rx b0).socket = [])
    (hx : (sysSteps wcfg.sys a.world.sys [.connRead b0 (.command v none)]).isSome)
    (hv : ∀ p s, IsSendReceipt v p s → ∃ m, Received (a.world.tx b0).sent m ∧ IsSendCommand m p s)
    (hn : a.world.held b0 = false := by rfl) : Reach (as ++ AppExample.hear v) (heard a v) := by
  have he := hear_exec h ha hr hst r hf hs hx hn
  have h1 : App.exec wcfg a [.world (.arrive b0 (.data (bytes v)))] = some (after a [.world (.arrive b0 (.data (bytes v)))]) := by
    simp only [after, App.exec, App.step, possible, App.free, if_true, App.induced, worldSteps, World.step, ha, jobsAfter, Option.getD_some]
  have hrx : (after a [.world (.arrive b0 (.data (bytes v)))]).world.rx b0 = (a.world.rx b0).step (.arrive (.data (bytes v))) := by
    simp only [after, App.exec, App.step, possible, App.free, if_true, App.induced, worldSteps, World.step, ha, jobsAfter, Option.getD_some]
  have htx : (after a [.world (.arrive b0 (.data (bytes v)))]).world.tx = a.world.tx := by
    simp only [after, App.exec, App.step, possible, App.free, if_true, App.induced, worldSteps, World.step, ha, jobsAfter, Option.getD_some]
  obtain ⟨log, hrun, hc⟩ := hreach.quiet (bs := [.world (.arrive b0 (.data (bytes v)))])
    (by intro x hx b ans; rw [List.mem_singleton] at hx; subst hx; simp) h1
  rw [show AppExample.hear v = [.world (.arrive b0 (.data (bytes v)))] ++ [.world (.poll b0 none)] from rfl, exec_append, h1,
    Option.bind_some] at he
  simp only [App.exec] at he
  cases h2 : App.step wcfg (after a [.world (.arrive b0 (.data (bytes v)))]) (.world (.poll b0 none)) with
  | none => simp [h2] at he
  | some a' =>
    simp only [h2, Option.some.injEq] at he
    subst he
    refine ⟨_, by simpa [AppExample.hear] using hrun.snoc h2, ?_⟩
    refine confirms_snoc hc (run_world hrun) ?_
    intro b ans v' p s hb hp hrec
    simp only [World.Act.poll.injEq] at hb
    obtain ⟨rfl, _⟩ := hb
    rw [hrx] at hp
    simp only [Framed.ReadSide.step, hf, hs, List.nil_append] at hp
    rw [poll_frame h r] at hp
    cases hp
    rw [htx]
    exact hv p s hrec

/-! A producer is made and sends a message, which the broker confirms. -/

def sender : ProducerBuilder := (ProducerBuilder.new.withProducerName "c").withTopic "t"

def made1 : List App.Act := [.world (.sys (.engStart net0)), .start (.producer sender)] ++ joins 0 ++ asks 0 0
def p1 : App.State UInt8 := after (App.init wcfg) made1
def p2 : App.State UInt8 := wrote p1 (bytes connectV)
def p3 : App.State UInt8 := heard p2 connectedC
def p4 : App.State UInt8 := after p3 part2
def p5 : App.State UInt8 := wrote p4 (bytes (out lookup0))
def p6 : App.State UInt8 := heard p5 (found 1)
def p7 : App.State UInt8 := after p6 part3
def registration0 : Outbound := .producer ⟨"t", 0, 1, "c"⟩
def p8 : App.State UInt8 := wrote p7 (bytes (out registration0))
def p9 : App.State UInt8 := heard p8 (producerSuccessC 1)
def made7 : List App.Act := gets 0 ++ [.run 0]
def p10 : App.State UInt8 := after p9 made7
def sends : List App.Act := [.start (.call 0 (Session.send some [104]))] ++ asks 1 0
def p11 : App.State UInt8 := after p10 sends
def p12 : App.State UInt8 := wrote p11 (bytes command1)
def p13 : App.State UInt8 := heard p12 receipt1
def confirmed : List App.Act := gets 1 ++ [.run 1]
def p14 : App.State UInt8 := after p13 confirmed

theorem psent1 : App.exec wcfg (App.init wcfg) made1 = some p1 := rfl
theorem psent2 : App.exec wcfg p1 write = some p2 :=
  write_exec (c := ⟨connectOut, some 0, some (0, ⟨.connect ⟨none, none, none⟩, some 0⟩)⟩) (q := []) rfl trivial (by decide +kernel) rfl rfl rfl
theorem psent4 : App.exec wcfg p3 part2 = some p4 := rfl
theorem psent5 : App.exec wcfg p4 write = some p5 :=
  write_exec (c := ⟨lookup0, none, some (0, ⟨lookup0, some 1⟩)⟩) rfl trivial (by decide +kernel) rfl rfl rfl
theorem psent7 : App.exec wcfg p6 part3 = some p7 := rfl
theorem psent8 : App.exec wcfg p7 write = some p8 :=
  write_exec (c := ⟨registration0, none, some (0, ⟨registration0, some 2⟩)⟩) rfl trivial (by decide +kernel) rfl rfl rfl
theorem psent10 : App.exec wcfg p9 made7 = some p10 := rfl
theorem psent11 : App.exec wcfg p10 sends = some p11 := rfl
theorem psent12 : App.exec wcfg p11 write = some p12 :=
  write_exec (c := ⟨.send sent1, none, some (0, ⟨.send sent1, some 3⟩)⟩) (v := command1) command1_to trivial (by decide +kernel) rfl rfl rfl
theorem psent14 : App.exec wcfg p13 confirmed = some p14 := rfl

theorem frame_out (x : Outbound) {v : MessageCommand} (ht : x.toCommand 0 = .ok v) (hv : x.Valid) (hs : size v.parts.1 v.parts.2 < 4294967296) :
    Framed.IsFrame (v, bytes v) := by
  obtain ⟨item, h1, h2, h3⟩ := toCommand_ok 0 x hv
  rw [ht] at h1
  cases h1
  exact Framed.isFrame_of (parts_sendable _ h2 h3 hs)

theorem received_send : Received (p12.world.tx b0).sent command1 := by
  refine ⟨[(connectV, bytes connectV), (out lookup0, bytes (out lookup0)), (out registration0, bytes (out registration0)),
    (command1, bytes command1)], ⟨?_, [], ?_⟩, by simp⟩
  · intro f hf
    simp only [List.mem_cons, List.not_mem_nil, or_false] at hf
    rcases hf with rfl | rfl | rfl | rfl
    · exact frame_out connectOut rfl trivial (by decide +kernel)
    · exact frame_out lookup0 rfl trivial (by decide +kernel)
    · exact frame_out registration0 rfl trivial (by decide +kernel)
    · exact frame_send
  · simp [Framed.stream, p12, wrote, OnTheWireExample.wroteTo]
    rfl

theorem no_receipt {ty : Int} {f : Nat} {sub : Msg} (hn : ty ≠ 7) (P : UInt64 → UInt64 → Prop) :
    ∀ p q, IsSendReceipt ⟨baseCommand ty f sub, none⟩ p q → P p q := by
  intro p q h
  exact absurd ((commandType_base ty f sub).symm.trans h.1) hn

theorem receipt_of {p q : UInt64} (h : IsSendReceipt receipt1 p q) : p = 0 ∧ q = 0 := by
  obtain ⟨_, sub, h1, h2, h3⟩ := h
  have : sub = mkMsg .commandSendReceipt [(1, vU64 0), (2, vU64 0), (3, vMsg (mkMsg .messageIdData [(1, vU64 5), (2, vU64 1)]))] := by
    unfold getMsg receipt1 baseCommand at h1
    simp only at h1
    rw [getF_mk _ _ _ rfl] at h1
    cases h1; rfl
  subst this
  rw [u64_of rfl rfl] at h2 h3
  exact ⟨h2.symm, h3.symm⟩

/-- The whole run. -/
def sending : List App.Act := made1 ++ write ++ AppExample.hear connectedC ++ part2 ++ write ++ AppExample.hear (found 1) ++ part3 ++ write ++
  AppExample.hear (producerSuccessC 1) ++ made7 ++ sends ++ write ++ AppExample.hear receipt1 ++ confirmed

def Quiet (bs : List App.Act) : Prop := ∀ x ∈ bs, ∀ b ans, x ≠ .world (.poll b ans)

theorem quiet_of (bs : List App.Act) (h : (bs.all fun a => match a with | .world (.poll ..) => false | _ => true) = true) : Quiet bs := by
  intro x hx b ans he
  rw [List.all_eq_true] at h
  have := h x hx
  rw [he] at this
  cases this

theorem reach_made : Reach (made1 ++ write ++ AppExample.hear connectedC ++ part2 ++ write ++ AppExample.hear (found 1) ++ part3 ++ write ++
    AppExample.hear (producerSuccessC 1) ++ made7) p10 := by
  have h1 := reach_init.quiet (quiet_of made1 rfl) psent1
  have h2 := h1.quiet (quiet_of write rfl) psent2
  have h3 := h2.hear frame_connected (by decide) rfl rfl false rfl rfl rfl (no_receipt (by decide) _)
  have h4 := h3.quiet (quiet_of part2 rfl) psent4
  have h5 := h4.quiet (quiet_of write rfl) psent5
  have h6 := h5.hear (frame_found 1 (by decide) (by decide +kernel)) (by decide) rfl rfl true rfl rfl rfl (no_receipt (by decide) _)
  have h7 := h6.quiet (quiet_of part3 rfl) psent7
  have h8 := h7.quiet (quiet_of write rfl) psent8
  have h9 := h8.hear frame_producer (by decide) rfl rfl true rfl rfl rfl (no_receipt (by decide) _)
  exact h9.quiet (quiet_of made7 rfl) psent10

theorem reach_sent : Reach sending p14 := by
  have h11 := reach_made.quiet (quiet_of sends rfl) psent11
  have h12 := h11.quiet (quiet_of write rfl) psent12
  have h13 := h12.hear frame_receipt (by decide) rfl rfl true rfl rfl rfl (by
    intro p q h
    obtain ⟨rfl, rfl⟩ := receipt_of h
    exact ⟨command1, received_send, isSend1⟩)
  exact h13.quiet (quiet_of confirmed rfl) psent14

end Neutron.Props.AppExample

namespace Neutron.Props

open Neutron.World Neutron.App EndToEndExample AppExample Session

set_option maxRecDepth 20000 in
/-- The hypotheses of `C117_send` and `C117_send_received` are met: a producer is made, sends a message, the broker reads it and confirms it,
and the send returns. -/
example : ∃ log j, App.Run wcfg sending log p14 ∧ World.Fits p14.world ∧ ConfirmsOnlyReceived wcfg log ∧ j ∈ p14.jobs ∧
    j.made = .call 0 (send some [104]) ∧ j.ended = some (.ok ()) ∧
    (Sys.idsOf Sys.sequenceIdOf p14.world.sys.issued 0).length ≤ 2 ^ 64 ∧
    (∀ (t t' i' : Nat) (m m' : Send), p14.world.sys.issued[t]? = some (0, .send m) → p14.world.sys.issued[t']? = some (i', .send m') →
      m'.sequenceId = m.sequenceId → i' = 0) := by
  obtain ⟨log, hr, hc⟩ := reach_sent
  refine ⟨log, p14.jobs[1], hr, ?_, hc, List.getElem_mem (by decide), rfl, rfl, by decide, ?_⟩
  · intro b c hc
    by_cases hb : b = Trace.b0
    · subst hb
      have : (p14.world.sys.conns Trace.b0).processed.map (·.out) = [connectOut, lookup0, registration0, .send ConfirmedExample.sent1] := rfl
      have hc' := List.mem_map_of_mem (f := (·.out)) hc
      rw [this] at hc'
      simp only [List.mem_cons, List.not_mem_nil, or_false] at hc'
      rcases hc' with h | h | h | h <;> rw [h] <;> exact ⟨trivial, by decide +kernel⟩
    · have h0 := (Sys.conn (⟨_, (proj (run_world hr)).choose_spec.choose_spec.sys⟩ : Sys.Reachable wcfg.sys p14.world.sys)).unused b
        (by show b ∉ [Trace.b0]; simpa using hb)
      rw [h0] at hc; cases hc
  · intro t t' i' m m' _ h2 _
    have : ∀ x ∈ p14.world.sys.issued, x.1 = 0 := by
      have : p14.world.sys.issued.map (·.1) = [0, 0, 0, 0] := rfl
      intro x hx
      have hx' := List.mem_map_of_mem (f := (·.1)) hx
      rw [this] at hx'
      simpa using hx'
    exact this _ (List.mem_of_getElem? h2)

/-- A send whose message cannot be serialised. -/
def AppExample.refuses : List App.Act := [.start (.call 0 (send (fun _ : Nat => none) 5)), .run 1]

set_option maxRecDepth 20000 in
/-- `C118_send`'s hypotheses are met. -/
example : ∃ acts log a j, App.Run wcfg acts log a ∧ j ∈ a.jobs ∧ j.made = .call 0 (send (fun _ : Nat => none) 5) ∧
    j.ended = some (.err .serializationFailed) ∧ (Sys.idsOf Sys.sequenceIdOf a.world.sys.issued 0).length ≤ 2 ^ 64 := by
  obtain ⟨log, hr, _⟩ := reach_made.quiet (quiet_of refuses rfl) (show App.exec wcfg p10 refuses = some (after p10 refuses) from rfl)
  exact ⟨_, log, _, (after p10 refuses).jobs[1], hr, List.getElem_mem (by decide), rfl, rfl, by decide⟩

/-- Two acknowledgements by the same consumer at the same time. -/
def AppExample.first (x : MessageId) : List App.Act := [.start (.call 0 (ack x))] ++ asks 1 0
def AppExample.second (y : MessageId) : List App.Act := [.start (.call 0 (ack y))] ++ asks 2 0
def AppExample.t1 (x : MessageId) : App.State UInt8 := after a7 (first x)
def AppExample.t2 (x y : MessageId) : App.State UInt8 := after (t1 x) (second y)
def AppExample.t3 (x y : MessageId) : App.State UInt8 := after (t2 x y) [.run 1, .run 1]

set_option maxRecDepth 20000 in
theorem AppExample.two1 (x : MessageId) : App.exec wcfg a7 (first x) = some (t1 x) := rfl
set_option maxRecDepth 20000 in
theorem AppExample.two2 (x y : MessageId) : App.exec wcfg (t1 x) (second y) = some (t2 x y) := rfl

theorem AppExample.run_made {a a' : App.State UInt8} {k : Nat} (h : App.step wcfg a (.run k) = some a') (n : Nat) :
    (a'.jobs[n]?).map (·.made) = (a.jobs[n]?).map (·.made) := by
  simp only [App.step] at h
  split at h
  · split at h
    · cases h
      simp only [jobsAfter, List.getElem?_modify]
      cases a.jobs[n]? with
      | none => rfl
      | some j => by_cases hk : k = n <;> simp [hk, after_made]
    · cases h
  · cases h

/-- The messages acknowledged. -/
def AppExample.ackA : MessageId := Neutron.mkMsg .messageIdData [(1, vU64 1), (2, vU64 1)]
def AppExample.ackB : MessageId := Neutron.mkMsg .messageIdData [(1, vU64 1), (2, vU64 2)]

theorem AppExample.two3 : App.exec wcfg (t2 ackA ackB) [.run 1, .run 1] = some (t3 ackA ackB) := by
  have h : (App.exec wcfg (t2 ackA ackB) [.run 1, .run 1]).isSome = true := by decide +kernel
  obtain ⟨v, hv⟩ := Option.isSome_iff_exists.mp h
  rw [t3, after, hv]; rfl

set_option maxRecDepth 20000 in
/-- `C118_ack`'s hypotheses are met, and not only by a stopped engine: the second acknowledgement takes the first one's place, which fails. -/
example : ∃ acts log a j, App.Run wcfg acts log a ∧ j ∈ a.jobs ∧ j.made = .call 0 (ack ackA) ∧
    j.ended = some (.err .channelTerminated) ∧ a.world.sys.mode = .idle := by
  obtain ⟨log, hr⟩ := run_exec (as := []) .nil (exec_trans (exec_trans (exec_trans making_exec (two1 ackA)) (two2 ackA ackB)) two3)
  have he : ((t3 ackA ackB).jobs[1]?).bind (·.ended) = some (.err .channelTerminated) := by decide +kernel
  have hm : ((t3 ackA ackB).jobs[1]?).map (·.made) = ((t2 ackA ackB).jobs[1]?).map (·.made) := by
    have := two3
    simp only [App.exec] at this
    cases h1 : App.step wcfg (t2 ackA ackB) (.run 1) with
    | none => simp [h1] at this
    | some v =>
      simp only [h1] at this
      cases h2 : App.step wcfg v (.run 1) with
      | none => simp [h2] at this
      | some u =>
        simp only [h2, Option.some.injEq] at this
        rw [← this, run_made h2, run_made h1]
  have hm2 : ((t2 ackA ackB).jobs[1]?).map (·.made) = some (.call 0 (ack ackA)) := rfl
  have hi : (match (t3 ackA ackB).world.sys.mode with | .idle => true | _ => false) = true := by decide +kernel
  cases hj : (t3 ackA ackB).jobs[1]? with
  | none => rw [hj] at he; cases he
  | some j =>
    rw [hj, hm2] at hm
    rw [hj] at he
    refine ⟨_, log, _, j, hr, List.mem_of_getElem? hj, Option.some.inj hm, he, ?_⟩
    cases hmode : (t3 ackA ackB).world.sys.mode with
    | idle => rfl
    | _ => rw [hmode] at hi; cases hi

end Neutron.Props
