import Verif.Spec.AckMeaning
import Verif.Props.Commands
import Verif.Props.Wire
import Verif.Props.Receive

/-!
# Acknowledging one message of a batch: C139
-/

namespace Neutron.Props

open Neutron Proto

variable {T : Type}

/-- The ids of the messages of a batch, as the receiving calls hand them out. -/
theorem batch_yield {decode : Bytes → Option T} {cid : UInt64} {mid : MessageId} {ps : List BatchedPayload} {r : Consumer.Received T} {i : Nat}
    (h : (Consumer.yields decode (.batch cid mid ps))[i]? = some (.ok r)) : r.ack = withBatchIndex i mid := by
  rcases Consumer.unpack_yields decode (.batch cid mid ps) with ⟨r', rs, h1, h2, _⟩ | ⟨_, h2, _⟩ | ⟨_, h2, _⟩ | ⟨_, h2, _⟩
  · rw [h2, List.getElem?_map] at h
    simp only [Consumer.unpack] at h1
    split at h1
    · rename_i ts hts
      simp only [Outcome.ok.injEq] at h1
      rw [← h1, List.getElem?_mapIdx] at h
      cases ht : ts[i]? with
      | none => rw [ht] at h; cases h
      | some t => rw [ht] at h; cases h; rfl
    · cases h1
  all_goals
    rw [h2] at h
    rcases i with _ | i <;> cases h

/-- An acknowledgement of a message of a batch is for the batch's entry, and no other. -/
theorem C139_own_entry (mid other : MessageId) (hm : ValidId mid) {i : Nat} (hi : i < 2147483648) {k : Nat}
    (h : Acknowledges (withBatchIndex i mid) other k) : SameEntry mid other := by
  obtain ⟨⟨h1, h2⟩, _⟩ := h
  have hb := ((C60_batch_ids mid hm).1 i hi).1.2
  exact ⟨(hb 1 (by decide)).symm.trans h1, (hb 2 (by decide)).symm.trans h2⟩

/-- A broker command that was read as a batch is a `MESSAGE` with the batch's id. -/
theorem batch_isMessage {v : MessageCommand} {cid : UInt64} {mid : MessageId} {ps : List BatchedPayload}
    (h : Inbound.ofCommand v = .ok (.message (.batch cid mid ps))) : IsMessage v cid mid := by
  exact ((C17_classification v).1 _ h).1

/-- Whatever message of a batch the application acknowledges, the command that is sent acknowledges every message of the batch, if the
broker's id has no `ack_set` (which is for acknowledgements). -/
theorem C139_whole_batch (src rest : Bytes) (v : MessageCommand) (hv : Codec.decode src = .ok (some (v, rest))) (cid : UInt64)
    (mid : MessageId) (ps : List BatchedPayload) (hb : Inbound.ofCommand v = .ok (.message (.batch cid mid ps)))
    (hs : getF .messageIdData mid 5 = []) (decode : Bytes → Option T) (i : Nat) (hi : i < 2147483648) (r : Consumer.Received T)
    (hr : (Consumer.yields decode (.batch cid mid ps))[i]? = some (.ok r)) (oc : Bool) (now : UInt64) (c : Client) (frame : Bytes)
    (hw : wireBytes oc now (c.issue (.ack r.ack)).2 = .ok frame) (hl : frame.length < 4294967296) :
    ∃ got a id, ReadsAs frame got ∧ getMsg .baseCommand got.command 10 = some a ∧ getF .commandAck a 3 = [.msg id] ∧
      ∀ k, Acknowledges id mid k := by
  rw [batch_yield hr] at hw
  obtain ⟨got, a, id, h1, h2, h3, h4⟩ := (C67_ack_id src rest v hv cid mid (batch_isMessage hb) oc now c).2 i frame hi hw hl
  exact ⟨got, a, id, h1, h2, h3, fun k => ⟨⟨h4.2 1 (by decide), h4.2 2 (by decide)⟩, .inl ((h4.2 5 (by decide)).trans hs)⟩⟩

/-- Ledger 1, entry 2. -/
abbrev exampleId : MessageId := mkMsg .messageIdData [(1, [.int 1]), (2, [.int 2])]

/-- The claim is false: a batch of two messages, of which the application acknowledges the first; the command it sends acknowledges
the second too. (It meets the hypotheses of C139_own_entry and C139_whole_batch.) -/
theorem C139_refuted : ∃ (src : Bytes) (v : MessageCommand) (cid : UInt64) (mid : MessageId) (ps : List BatchedPayload)
    (r0 r1 : Consumer.Received UInt8) (frame : Bytes) (got : MessageCommand) (a id : Msg),
    Codec.decode src = .ok (some (v, [])) ∧ Inbound.ofCommand v = .ok (.message (.batch cid mid ps)) ∧
    Consumer.yields List.head? (.batch cid mid ps) = [.ok r0, .ok r1] ∧
    wireBytes true 0 ((⟨cid, "c", 0, 0⟩ : Client).issue (.ack r0.ack)).2 = .ok frame ∧ ReadsAs frame got ∧
    getMsg .baseCommand got.command 10 = some a ∧ getF .commandAck a 3 = [.msg id] ∧ Acknowledges id mid 1 := by
  let s := Send.batch "p" 7 300 [[104], [105]]
  let v := deliver (s.asCommand 0)
  have hd := Codec.decode_layout v _ _
    (parts_sendable _ (deliver_ser s _) (by intro p hp; cases hp; exact metadata_ser s _) (by decide +kernel)) []
  rw [List.append_nil] at hd
  obtain ⟨f1, hf1, hf1l⟩ : ∃ frame, wireBytes true 0 ((⟨7, "p", 0, 300⟩ : Client).issue (.sendBatch [[104], [105]])).2 = .ok frame ∧
      frame.length < 4294967296 := by
    obtain ⟨item, f, g1, g2, g3⟩ := C10_what_fits true 0 (.send s) trivial (by decide +kernel)
    refine ⟨f, ?_, Nat.lt_of_le_of_lt g3 (by decide +kernel)⟩
    show wireBytes true 0 (.send s) = .ok f
    unfold wireBytes
    rw [g1]
    exact g2
  have hbm : ∃ bs, Inbound.ofCommand v = .ok (.message (.batch 5 exampleId bs)) ∧ bs.map (·.payload) = [[104], [105]] := by
    obtain ⟨sent, g1, g2⟩ := C11_batch_roundtrip true 0 ⟨7, "p", 0, 300⟩ [[104], [105]] (by decide) (by decide) f1 hf1 hf1l
    rw [readsAs_unique g1 (sendWire true 0 s f1 hf1 hf1l)] at g2
    exact g2 v 5 exampleId (deliver_relays 0 s) (deliver_isMessage _)
  obtain ⟨bs, hb, hbs⟩ := hbm
  have hy : Consumer.yields List.head? (.batch 5 exampleId bs) =
      [.ok ⟨104, withBatchIndex 0 exampleId⟩, .ok ⟨105, withBatchIndex 1 exampleId⟩] := by
    match bs, hbs with
    | [], hbs => cases hbs
    | [_], hbs => simp at hbs
    | [x, y], hbs =>
      simp only [List.map_cons, List.map_nil, List.cons.injEq, and_true] at hbs
      simp [Consumer.yields, hbs.1, hbs.2]
    | _ :: _ :: _ :: _, hbs => simp at hbs
  obtain ⟨item, f, g1, g2, g3⟩ := C10_what_fits true 0 (.ack [⟨5, withBatchIndex 0 exampleId, 0⟩])
    ⟨by simp, by intro a ha; simp only [List.mem_singleton] at ha; subst ha; exact validId_withBatchIndex 0 _ exampleId_valid⟩ (by decide +kernel)
  have hw : wireBytes true 0 ((⟨5, "c", 0, 0⟩ : Client).issue (.ack (withBatchIndex 0 exampleId))).2 = .ok f := by
    show wireBytes true 0 (.ack [⟨5, withBatchIndex 0 exampleId, 0⟩]) = .ok f
    unfold wireBytes
    rw [g1]
    exact g2
  obtain ⟨got, a, id, k1, k2, k3, k4⟩ := C139_whole_batch _ _ v hd 5 exampleId bs hb (by rw [exampleId, getF_mk _ _ _ rfl]; rfl) List.head? 0 (by decide)
    ⟨104, withBatchIndex 0 exampleId⟩ (by rw [hy]; rfl) true 0 ⟨5, "c", 0, 0⟩ f hw (Nat.lt_of_le_of_lt g3 (by decide +kernel))
  exact ⟨_, v, 5, exampleId, bs, _, _, f, got, a, id, hd, hb, hy, hw, k1, k2, k3, k4 1⟩

end Neutron.Props
