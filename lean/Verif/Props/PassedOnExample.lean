import Verif.Props.PassedOn
import Verif.Props.SupplyExample
import Verif.Props.CarriedExample
import Verif.Props.SettledExample

/-!
# Executions for C149: a producer, a broker and a consumer
-/

namespace Neutron.Props.PassedOnExample

open Neutron.World Neutron.App Neutron.Sys EndToEndExample AppExample Session Trace ConfirmedExample Frame Proto
open ReturnsExample (hear_does write_does arrives whole whole_exec whole_length heard3 heard6 heard9 heard13)

set_option maxRecDepth 20000

/-! The producer. -/

theorem z2 : App.exec wcfg (App.init wcfg) (whole.take 10) = some p2 := exec_trans psent1 psent2
theorem z3 : App.exec wcfg (App.init wcfg) (whole.take 12) = some p3 := exec_trans z2 heard3
theorem z4 : App.exec wcfg (App.init wcfg) (whole.take 17) = some p4 := exec_trans z3 psent4
theorem z5 : App.exec wcfg (App.init wcfg) (whole.take 18) = some p5 := exec_trans z4 psent5
theorem z6 : App.exec wcfg (App.init wcfg) (whole.take 20) = some p6 := exec_trans z5 heard6
theorem z7 : App.exec wcfg (App.init wcfg) (whole.take 25) = some p7 := exec_trans z6 psent7
theorem z8 : App.exec wcfg (App.init wcfg) (whole.take 26) = some p8 := exec_trans z7 psent8
theorem z9 : App.exec wcfg (App.init wcfg) (whole.take 28) = some p9 := exec_trans z8 heard9
theorem z10 : App.exec wcfg (App.init wcfg) (whole.take 31) = some p10 := exec_trans z9 psent10
theorem z11 : App.exec wcfg (App.init wcfg) (whole.take 35) = some p11 := exec_trans z10 psent11
theorem z12 : App.exec wcfg (App.init wcfg) (whole.take 36) = some p12 := exec_trans z11 psent12

theorem at_rest : Settled.AtRest p14 := ⟨rfl, rfl⟩

theorem written9 : Settled.Written whole 9 := by
  have hd := hear_does (a := p2) frame_connected (by decide) false rfl rfl
  exact ⟨made1, whole.drop 10, p1, p2, connectOut, rfl, rfl, psent1, psent2, ReturnsExample.does9, rfl,
    .inr ⟨whole.take 10 ++ arrives connectedC, whole.drop 12, _, connectedC, _, rfl, by decide, exec_trans z2 hd.1, hd.2, rfl, trivial⟩⟩

theorem written17 : Settled.Written whole 17 := by
  have hd := hear_does (a := p5) (frame_found 1 (by decide) (by decide +kernel)) (by decide) true rfl rfl
  exact ⟨whole.take 17, whole.drop 18, p4, p5, lookup0, rfl, rfl, z4, psent5, ReturnsExample.does17, rfl,
    .inr ⟨whole.take 18 ++ arrives (found 1), whole.drop 20, _, found 1, _, rfl, by decide, exec_trans z5 hd.1, hd.2, rfl, trivial⟩⟩

theorem written25 : Settled.Written whole 25 := by
  have hd := hear_does (a := p8) frame_producer (by decide) true rfl rfl
  exact ⟨whole.take 25, whole.drop 26, p7, p8, registration0, rfl, rfl, z7, psent8, ReturnsExample.does25, rfl,
    .inr ⟨whole.take 26 ++ arrives (producerSuccessC 1), whole.drop 28, _, producerSuccessC 1, _, rfl, by decide, exec_trans z8 hd.1, hd.2, rfl, trivial⟩⟩

theorem written35 : Settled.Written whole 35 := by
  have hd := hear_does (a := p12) frame_receipt (by decide) true rfl rfl
  exact ⟨whole.take 35, whole.drop 36, p11, p12, .send sent1, rfl, rfl, z11, psent12, ReturnsExample.does35, rfl,
    .inr ⟨whole.take 36 ++ arrives receipt1, whole.drop 38, _, receipt1, _, rfl, by decide, exec_trans z12 hd.1, hd.2, rfl, rfl⟩⟩

theorem written_all (n : Nat) (h : (whole[n]?.map ReturnsExample.isWrite).getD false = true) : Settled.Written whole n := by
  have hn : n < 41 := by
    rcases Nat.lt_or_ge n 41 with hn | hn
    · exact hn
    · rw [List.getElem?_eq_none (by rw [whole_length]; exact hn)] at h
      cases h
  rw [← List.getElem?_map, ReturnsExample.whole_writes] at h
  simp only [List.getElem?_map, List.getElem?_range hn, Option.map_some, Option.getD_some, decide_eq_true_eq] at h
  rcases h with rfl | rfl | rfl | rfl
  · exact written9
  · exact written17
  · exact written25
  · exact written35

/-- Arriving bytes are neither sent nor read. -/
theorem still {a a' : App.State UInt8} {b : BrokerAddress} {r : Read} (hs : App.step wcfg a (.world (.arrive b r)) = some a') :
    a'.world.tx = a.world.tx ∧ ∀ b', (a'.world.rx b').out = (a.world.rx b').out := by
  obtain ⟨_, hw, _⟩ := step_some hs
  simp only [App.induced, worldSteps, World.step] at hw
  split at hw
  · rename_i w' hx
    split at hx
    · cases hx
      have hw := Option.some.inj hw
      rw [← hw]
      refine ⟨rfl, fun b' => ?_⟩
      dsimp only
      split
      · rename_i he; rw [he]; rfl
      · rfl
    · cases hx
  · cases hw

theorem still_late {as : List App.Act} {e : App.State UInt8} {σ : Nat → App.State UInt8} {acts : Nat → App.Act} (h : Settled.Settles as e σ acts)
    (he : App.exec wcfg (App.init wcfg) as = some e) {n : Nat} (hn : as.length ≤ n) :
    (σ n).world.tx = e.world.tx ∧ ∀ b, ((σ n).world.rx b).out = (e.world.rx b).out := by
  induction n, hn using Nat.le_induction with
  | base =>
    have : σ as.length = e := by
      have := h.early as.length (Nat.le_refl _)
      rw [List.take_length, he] at this
      exact (Option.some.inj this).symm
    rw [this]
    exact ⟨rfl, fun _ => rfl⟩
  | succ n hn ih =>
    have hs := h.forever.steps n
    rw [h.actions, List.getElem?_eq_none hn] at hs
    obtain ⟨h1, h2⟩ := still hs
    exact ⟨h1.trans ih.1, fun b => (h2 b).trans (ih.2 b)⟩

theorem out_grow {a a' : App.State UInt8} {x : App.Act} (hs : App.step wcfg a x = some a') (b : BrokerAddress) :
    (a.world.rx b).out <+: (a'.world.rx b).out := by
  have of : ∀ {y : World.Act}, World.step wcfg a.world y = some a'.world → (a.world.rx b).out <+: (a'.world.rx b).out := by
    intro y h
    rw [App.rx_step h b]
    generalize readEvents b [y] = es
    generalize a.world.rx b = s
    induction es generalizing s with
    | nil => exact List.prefix_refl _
    | cons e es ih =>
      refine List.IsPrefix.trans ?_ (ih _)
      cases e with
      | arrive r => exact List.prefix_refl _
      | poll =>
        by_cases hst : s.stopped = true
        · simp [Framed.ReadSide.step, hst]
        · rw [(poll_out (s := s) (by simpa using hst)).1]
          exact List.prefix_append _ _
  rcases one_step hs with h | ⟨y, h⟩ | ⟨y, rfl, h⟩
  · rw [h]
  · exact of h
  · exact of h

theorem out_to {cfg : World.Cfg UInt8} (hcfg : cfg = wcfg) {σ : Nat → App.State UInt8} {acts : Nat → App.Act} (h : App.Forever cfg σ acts) {n m : Nat} (hnm : n ≤ m)
    (b : BrokerAddress) : ((σ n).world.rx b).out <+: ((σ m).world.rx b).out := by
  subst hcfg
  induction m, hnm using Nat.le_induction with
  | base => exact List.prefix_refl _
  | succ m _ ih => exact ih.trans (out_grow (h.steps m) _)

/-! What the producer's broker has received and what the consumer's has sent. -/

def gave : List MessageCommand := [connectV, out lookup0, out registration0, command1]
def got : List MessageCommand := [connectedC, found 1, successC 1, m1, ackC 0 2]

theorem got_end : commandsOf (AutoAckExample.d18.world.rx b0).out = got := rfl

theorem gave_end : BeginsWith (p14.world.tx b0).sent (gave.map fun v => (v, bytes v)) := by
  refine ⟨?_, [], ?_⟩
  · intro f hf
    simp only [gave, List.map_cons, List.map_nil, List.mem_cons, List.not_mem_nil, or_false] at hf
    rcases hf with rfl | rfl | rfl | rfl
    · exact frame_out connectOut rfl trivial (by decide +kernel)
    · exact frame_out lookup0 rfl trivial (by decide +kernel)
    · exact frame_out registration0 rfl trivial (by decide +kernel)
    · exact frame_send
  · have : (p14.world.tx b0).sent = ((([] ++ [] ++ bytes connectV) ++ [] ++ bytes (out lookup0)) ++ [] ++ bytes (out registration0)) ++ [] ++
        bytes command1 := rfl
    rw [this]
    simp [Framed.stream, gave]

theorem gave_whole : Framed.stream (gave.map fun v => (v, bytes v)) = (p14.world.tx b0).sent := by
  have : (p14.world.tx b0).sent = ((([] ++ [] ++ bytes connectV) ++ [] ++ bytes (out lookup0)) ++ [] ++ bytes (out registration0)) ++ [] ++
      bytes command1 := rfl
  rw [this]
  simp [Framed.stream, gave]

theorem no_send {ty : Int} {f : Nat} {sub : Msg} {pl : Option Payload} (hn : ty ≠ 6) (pid s : UInt64) :
    ¬ IsSendCommand ⟨baseCommand ty f sub, pl⟩ pid s := fun h => hn ((commandType_base ty f sub).symm.trans h.1)

theorem not_message {ty : Int} {f : Nat} {sub : Msg} {pl : Option Payload} (hn : ty ≠ 9) (cid : UInt64) (mid : MessageId) :
    ¬ IsMessage ⟨baseCommand ty f sub, pl⟩ cid mid := fun h => hn ((commandType_base ty f sub).symm.trans h.1)

theorem relays1 : Relays command1 m1 := ⟨_, _, rfl, rfl, rfl, rfl⟩

theorem message1 : IsMessage m1 0 (mkMsg .messageIdData [(1, vU64 5), (2, vU64 1)]) := by
  refine ⟨commandType_base .., mkMsg .commandMessage [(1, vU64 0), (2, vMsg (mkMsg .messageIdData [(1, vU64 5), (2, vU64 1)]))], ?_, u64_of rfl rfl, ?_⟩
  · unfold getMsg m1 wireMessage baseCommand
    simp only
    rw [getF_mk _ _ _ rfl]
    rfl
  · unfold getMsg
    rw [getF_mk _ _ _ rfl]
    rfl

theorem gave_sent : sentBy 0 gave = [[104]] := by
  show sentBy 0 [_, _, _, _] = _
  rw [sentBy_cons, sentBy_cons 0 _ [_, _], sentBy_cons 0 _ [_], sentBy_other (v := connectV) (no_send (by decide) 0),
    sentBy_other (v := out lookup0) (no_send (by decide) 0), sentBy_other (v := out registration0) (no_send (by decide) 0), sentBy_send isSend1 rfl]
  rfl

theorem sentBy_prefix {l l' : List MessageCommand} (h : l <+: l') (pid : UInt64) : sentBy pid l <+: sentBy pid l' := h.filterMap _

theorem relayed_got : Relayed true 0 0 gave got :=
  .other (not_message (by decide) _) (.other (not_message (by decide) _) (.other (not_message (by decide) _)
    (.unrelayed (fun _ => no_send (by decide) _) (.unrelayed (fun _ => no_send (by decide) _) (.unrelayed (fun _ => no_send (by decide) _)
      (.relay isSend1 relays1 message1 (.other (not_message (by decide) _) .done)))))))

theorem relayed_part {outs : List MessageCommand} (h : outs <+: got) : Relayed true 0 0 [] outs ∨ Relayed true 0 0 gave outs := by
  obtain ⟨t, ht⟩ := h
  rcases outs with _ | ⟨a, _ | ⟨b, _ | ⟨c, _ | ⟨d, _ | ⟨e, _ | ⟨f, l⟩⟩⟩⟩⟩⟩
  · exact .inl .done
  all_goals simp only [got, List.cons_append, List.nil_append, List.cons.injEq, reduceCtorEq, and_false] at ht
  · obtain ⟨rfl, _⟩ := ht
    exact .inl (.other (not_message (by decide) _) .done)
  · obtain ⟨rfl, rfl, _⟩ := ht
    exact .inl (.other (not_message (by decide) _) (.other (not_message (by decide) _) .done))
  · obtain ⟨rfl, rfl, rfl, _⟩ := ht
    exact .inl (.other (not_message (by decide) _) (.other (not_message (by decide) _) (.other (not_message (by decide) _) .done)))
  · obtain ⟨rfl, rfl, rfl, rfl, _⟩ := ht
    exact .inr (.other (not_message (by decide) _) (.other (not_message (by decide) _) (.other (not_message (by decide) _)
      (.unrelayed (fun _ => no_send (by decide) _) (.unrelayed (fun _ => no_send (by decide) _) (.unrelayed (fun _ => no_send (by decide) _)
        (.relay isSend1 relays1 message1 .done)))))))
  · obtain ⟨rfl, rfl, rfl, rfl, rfl, _⟩ := ht
    exact .inr relayed_got

variable {σP σ : Nat → App.State UInt8} {actsP acts : Nat → App.Act}

theorem sent_late (hP : Settled.Settles whole p14 σP actsP) {n : Nat} (hn : 41 ≤ n) : ((σP n).world.tx b0).sent = (p14.world.tx b0).sent := by
  rw [(still_late hP whole_exec (by rw [whole_length]; exact hn)).1]

theorem passes (hP : Settled.Settles whole p14 σP actsP) (h : Settled.Settles AutoAckExample.all AutoAckExample.d18 σ acts) :
    PassesOn σP b0 0 σ b0 wcfg.me := by
  constructor
  · intro n
    have hpre : commandsOf ((σ n).world.rx b0).out <+: got := by
      have h1 := out_to rfl h.forever (show n ≤ n + 60 by omega) b0
      rw [(still_late h AutoAckExample.all_exec (n := n + 60) (by rw [AutoAckExample.all_length]; omega)).2] at h1
      rw [← got_end]
      exact h1.filterMap _
    rcases relayed_part hpre with hr | hr
    · exact ⟨0, [], ⟨(fun f hf => by cases hf), List.nil_prefix⟩, hr⟩
    · refine ⟨41, gave.map fun v => (v, bytes v), ?_, ?_⟩
      · have := gave_end
        rw [← sent_late hP (Nat.le_refl 41)] at this
        exact this
      · have he : (gave.map fun v => (v, bytes v)).map (·.1) = gave := rfl
        rw [he]
        exact hr
  · intro m fs hf
    have hf' := begins_to hP.forever (show m ≤ m + 41 by omega) hf
    have hp : fs.map (·.1) <+: gave := by
      have he : (gave.map fun v => (v, bytes v)).map (·.1) = gave := rfl
      rw [← he]
      refine frames_front hf'.1 gave_end.1 ?_
      rw [gave_whole, ← sent_late hP (n := m + 41) (by omega)]
      exact hf'.2
    have hle := (sentBy_prefix hp 0).length_le
    rw [gave_sent] at hle
    intro n hn _
    refine ⟨n + 60, by omega, ?_⟩
    rw [SupplyExample.read_late h (n := n + 60) (by omega)]
    exact Nat.lt_of_lt_of_le hn hle

theorem made_end : p14.jobs.map (·.made) = [.producer sender, .call 0 (Session.send some [104])] := rfl

theorem made_of (hP : Settled.Settles whole p14 σP actsP) {n : Nat} {j : Job} (hj : j ∈ (σP n).jobs) {i : Nat} {p : Prog Unit} (hm : j.made = .call i p) :
    p = Session.send some [104] := by
  obtain ⟨k, hk, hkj⟩ := List.getElem_of_mem hj
  obtain ⟨j', hj', hm'⟩ := made_to hP.forever (show n ≤ n + 41 by omega) (List.getElem?_eq_some_iff.mpr ⟨hk, hkj⟩)
  rw [(hP.late (n + 41) (by rw [whole_length]; omega)).2.1] at hj'
  have hmade : j'.made = .call i p := hm'.trans hm
  have : Start.call i p ∈ p14.jobs.map (·.made) := by rw [← hmade]; exact List.mem_map_of_mem (List.mem_of_getElem? hj')
  rw [made_end] at this
  simp only [List.mem_cons, List.not_mem_nil, or_false, reduceCtorEq, false_or, App.Start.call.injEq] at this
  exact this.2

theorem sends_only (hP : Settled.Settles whole p14 σP actsP) : SendsOnly σP 0 fun p => (wcfg.app.decode p).isSome := by
  intro n j p hj hm
  exact .inl ⟨Bytes, some, [104], made_of hP hj hm, fun payload he => by cases he; rfl⟩

theorem fits (hP : Settled.Settles whole p14 σP actsP) (n : Nat) : World.Fits (σP n).world := by
  intro b c hc
  obtain ⟨⟨d, hd, _⟩, _⟩ := path_writes (forever_reachable (app_forever hP.forever) n) (continues_to (app_forever hP.forever) (by omega : n ≤ n + 41)) b
    (works_slice (hP.part.works b) _ _)
  refine ReturnsExample.end_fits b c ?_
  rw [← show sysOf σP (n + 41) = p14.world.sys from (hP.late (n + 41) (by rw [whole_length]; omega)).1, hd]
  exact List.mem_append_left _ hc

theorem registered (hP : Settled.Settles whole p14 σP actsP) : Received ((σP 41).world.tx b0).sent (out registration0) := by
  rw [sent_late hP (Nat.le_refl 41)]
  exact ⟨_, gave_end, by simp [gave]⟩

theorem names : NamesClient (out registration0) 0 := by
  refine .inl ⟨commandType_base .., mkMsg .commandProducer ([(2, vU64 0), (3, vU64 1), (1, vStr "t")] ++ [(4, vStr "c")]), ?_, u64_of rfl rfl⟩
  show getMsg .baseCommand (baseCommand 5 5 _) 5 = _
  unfold getMsg baseCommand
  rw [getF_mk _ _ _ rfl]
  rfl

/-- The hypotheses of `C149_in_order`, `C149_all` and `C149_send` are met (those of `C149_send_all` differ in the program called): a producer on
which `send` is called, a consumer on which `consume` is called, and a broker between them.  The message is handed to the consumer's
application. -/
example : ∃ (σP σ : Nat → App.State UInt8) (actsP acts : Nat → App.Act) (call : Job),
    App.Forever wcfg σP actsP ∧ (∀ n, (sysOf σP n).nClients ≤ 2 ^ 64) ∧ (∀ n, World.Fits (σP n).world) ∧
    SendsOnly σP 0 (fun p => (wcfg.app.decode p).isSome) ∧ (∀ n, App.Offers (σP n)) ∧
    Sys.KeepWorking wcfg.sys (sysOf σP) (roundsOf wcfg σP actsP) ∧ Served wcfg σP actsP 0 ∧
    (∃ r, Received ((σP 41).world.tx b0).sent r ∧ NamesClient r 0) ∧
    ((σP 32).jobs[1]? = some call ∧ call.live = true ∧ (∀ m, actsP m ≠ .drop 1) ∧ FairTo wcfg σP actsP 1 ∧
      call.made = .call 0 (Session.send some [104]) ∧ wcfg.app.decode [104] = some 104) ∧
    App.Forever wcfg σ acts ∧ wcfg.app.permits = 250 ∧
    Sys.KeepWorking wcfg.sys (sysOf σ) (roundsOf wcfg σ acts) ∧ (∀ n, (sysOf σ n).nClients ≤ 2 ^ 64) ∧ (∀ n, World.Fits (σ n).world) ∧
    (∀ n, App.Offers (σ n)) ∧ Served wcfg σ acts wcfg.me ∧ App.Attended wcfg σ acts ∧ NoBatches acts ∧ DeliverOnlySubscribed σ acts ∧
    (∀ n, (σ n).world.app.live ≤ 251) ∧ KeepsAsking σ acts ∧
    (∃ j ∈ (σ 35).jobs, j.made = .consumer builder ∧ j.client = some wcfg.me ∧ j.ended = some (.ok ())) ∧
    Sys.Fair wcfg.sys (sysOf σ) (roundsOf wcfg σ acts) (Sys.Act.servesReads b0) ∧
    (∃ v, Received ((σ 35).world.tx b0).sent v ∧ IsSubscribe v (UInt64.ofNat wcfg.me)) ∧
    PassesOn σP b0 0 σ b0 wcfg.me ∧
    (∃ n, [.ok 104] <+: valuesOf (σ n).world.app.handedOut) ∧
    ∃ n, .ok 104 ∈ valuesOf (σ n).world.app.handedOut := by
  obtain ⟨σ, acts, h⟩ := Settled.settles AutoAckExample.all_exec AutoAckExample.at_rest AutoAckExample.written_all
  obtain ⟨σP, actsP, hP⟩ := Settled.settles whole_exec at_rest written_all
  obtain ⟨call, l0, l1⟩ := Option.map_eq_some_iff.mp (ReturnsExample.send_called (by rw [← whole_length]; exact hP.early))
  simp only [Prod.mk.injEq] at l1
  have hwP : Sys.KeepWorking wcfg.sys (sysOf σP) (roundsOf wcfg σP actsP) := ⟨hP.part.loops, hP.part.regs, hP.part.writes, hP.part.works⟩
  have hofP : ∀ n, App.Offers (σP n) := fun n j hj i p hm => by rw [made_of hP hj hm]; exact .send _ _
  have hdrop : ∀ m k, actsP m ≠ .drop k := by
    intro m k he
    have := ReturnsExample.not_drop m
    rw [← hP.actions, he] at this
    cases this
  obtain ⟨c1, c2, c3, c4, c5, c6, c7, c8, c9, c10, c11, _, c13, ⟨j, k1, k2, k3, k4⟩, c15, ⟨v, c16, c17⟩, _⟩ := SupplyExample.meets h
  refine ⟨σP, σ, actsP, acts, call, hP.forever, hP.clients, fits hP, sends_only hP, hofP, hwP, hP.served 0, ⟨_, registered hP, names⟩,
    ⟨l0, l1.1, fun m => hdrop m 1, hP.fair 1, l1.2.2, rfl⟩, c1, c2, c3, c4, c5, c6, c7, c8, c9, c10, c11, c13, ⟨j, k1, k2, k3, k4⟩, c15, ⟨v, c16, c17⟩, passes hP h, ?_,
    C149_send hP.forever hP.clients (fits hP) (by decide) (sends_only hP) hofP hwP (hP.served 0) (registered hP) names c1 c2 c3 c4 c5 c6 c7 c8 c9 c10 c11
      c13 k1 k2 k3 k4 c15 c16 c17 (passes hP h) l0 l1.1 (fun m => hdrop m 1) (hP.fair 1) l1.2.2 rfl rfl⟩
  have hg := gave_end
  rw [← sent_late hP (Nat.le_refl 41)] at hg
  have := C149_all hP.forever hP.clients (fits hP) (by decide) (sends_only hP) c1 c2 c3 c4 c5 c6 c7 c8 c9 c10 c11 c13 k1 k2 k3 k4 c15 c16 c17 (passes hP h) hg
  have he : (gave.map fun v => (v, bytes v)).map (·.1) = gave := rfl
  rw [he, show (UInt64.ofNat 0) = 0 from rfl, gave_sent] at this
  exact this

end Neutron.Props.PassedOnExample
