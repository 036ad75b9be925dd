import Verif.Proof.Message

/-!
# How long frames can be
-/

namespace Neutron

open Proto Frame

theorem varint_le (n : Nat) : (varint n).length ≤ 10 := by
  have : ∀ k n, (varintF k n).length ≤ k + 1 := by
    intro k
    induction k with
    | zero => intro n; simp [varintF]
    | succ k ih => intro n; simp only [varintF]; split <;> simp; exact ih _
  exact this 9 n

theorem cmdSend_le (p s : UInt64) (n : Int) :
    (encMsg pulsar (pulsar .baseCommand) (baseCommand 6 6 (mkMsg .commandSend [(1, vU64 p), (2, vU64 s), (3, [.int n])]))).length ≤ 110 := by
  simp only [baseCommand, mkMsg, pulsar, List.map, List.lookup, Option.getD, encMsg, encVals, encVal, encRaw, Raw.body, vMsg, vU64,
      Raw.wireType, Nat.reduceBEq, Nat.reduceAdd, Nat.reduceMul, List.append_nil, List.nil_append, List.length_append]
  have hv := varint_le
  grind

theorem mdSend_le (name : String) (s t : UInt64) (n : Int) :
    (encMsg pulsar (pulsar .messageMetadata) (mkMsg .messageMetadata
      [(1, vStr name), (2, vU64 s), (3, vU64 t), (12, vU64 t), (11, [.int n])])).length ≤ 100 + (utf8 name).length := by
  simp only [mkMsg, pulsar, List.map, List.lookup, Option.getD, encMsg, encVals, encVal, encRaw, Raw.body, vU64, vStr,
      Raw.wireType, Nat.reduceBEq, Nat.reduceAdd, Nat.reduceMul, List.append_nil, List.nil_append, List.length_append]
  have hv := varint_le
  grind

theorem entry_le (p : Bytes) : (entryBytes p).length ≤ p.length + 34 := by
  unfold entryBytes
  simp only [entryMeta, mkMsg, pulsar, List.map, List.lookup, Option.getD, encMsg, encVals, encVal, encRaw, Raw.body,
      Raw.wireType, Nat.reduceBEq, Nat.reduceAdd, Nat.reduceMul, List.append_nil, List.nil_append, List.length_append]
  have h4 : ∀ n, (be32 n).length = 4 := fun n => rfl
  have hv := varint_le
  grind

theorem entries_le (ps : List Bytes) : ((ps.map entryBytes).flatten).length ≤ (ps.map fun p => p.length + 34).sum := by
  induction ps with
  | nil => simp
  | cons p ps ih =>
    simp only [List.map_cons, List.flatten_cons, List.length_append, List.sum_cons]
    have := entry_le p
    omega

theorem ids_le (d : FieldDesc) (hd : d.kind = .msg .messageIdData) (l : List Ack) :
    (encVals pulsar d (l.map fun a => .msg a.messageId)).length ≤
      (l.map fun a => (encMsg pulsar (pulsar .messageIdData) a.messageId).length + 20).sum := by
  induction l with
  | nil => simp [encVals]
  | cons a l ih =>
    simp only [List.map_cons, List.sum_cons, encVals, encVal, hd, encRaw, Raw.body, List.length_append]
    have h1 := varint_le (d.num * 8 + (Raw.len (encMsg pulsar (pulsar .messageIdData) a.messageId)).wireType)
    have h2 := varint_le (encMsg pulsar (pulsar .messageIdData) a.messageId).length
    omega

/-- A frame is at most 300 bytes longer than what the application has put into it. -/
theorem size_le (now : UInt64) (o : Outbound) (item : MessageCommand) (h : o.toCommand now = .ok item) :
    size item.parts.1 item.parts.2 ≤ o.volume + 300 := by
  have hv := varint_le
  cases o with
  | send m =>
    rw [show (Outbound.toCommand now _) = Send.toCommand now m from rfl, Send.toCommand_eq] at h
    cases h
    unfold Send.asCommand MessageCommand.parts size
    have h1 := cmdSend_le m.producerId m.sequenceId (asI32 m.numberOfMessages)
    have h2 := mdSend_le m.producerName m.sequenceId now (asI32 m.numberOfMessages)
    cases m with
    | single n p s pl => simp only [Option.map, Outbound.volume, Send.producerName] at h1 h2 ⊢; simp only [Send.payloadBytes]; omega
    | batch n p s ps =>
      have h3 := entries_le ps
      simp only [Option.map, Outbound.volume, Send.producerName] at h1 h2 ⊢; simp only [Send.payloadBytes]; omega
  | ack l =>
    cases l with
    | nil => cases h
    | cons a l =>
      cases h
      have h3 := ids_le ⟨3, .repeated, .msg .messageIdData⟩ rfl (a :: l)
      have hx : ∀ x, List.lookup 3 [(1, vU64 a.consumerId), (2, [.int x]), (3, (a :: l).map fun a => .msg a.messageId), (8, vU64 a.requestId)]
        = some ((a :: l).map fun a => .msg a.messageId) := fun x => rfl
      simp only [MessageCommand.parts, size, Option.map, Outbound.volume]
      generalize (if (a :: l).length > 1 then (1 : Int) else 0) = ty
      generalize ((a :: l).map fun a => Val.msg a.messageId) = vs at h3 hx ⊢
      generalize ((a :: l).map fun a => (encMsg pulsar (pulsar .messageIdData) a.messageId).length + 20).sum = vol at h3 ⊢
      simp only [baseCommand, mkMsg, pulsar, List.map, List.lookup, Option.getD, encMsg, encVals, encVal, encRaw, Raw.body, vMsg, vU64, vStr, vBytes,
        Raw.wireType, Nat.reduceBEq, Nat.reduceAdd, Nat.reduceMul, List.append_nil, List.nil_append, List.length_append]
      grind
  | connect c =>
    cases h
    obtain ⟨a, n, b⟩ := c
    have hx : (utf8 "2.0.0-incubating").length = 16 := by decide +kernel
    cases n <;> cases a <;> cases hb : (b.bind BrokerAddress.getProxy) <;>
    · simp only [MessageCommand.parts, size, Option.map, Outbound.volume, Connect.toCommand, hb, List.cons_append, baseCommand, mkMsg, pulsar, List.map, List.lookup, Option.getD, encMsg, encVals, encVal, encRaw, Raw.body, vMsg, vU64, vStr, vBytes,
        Raw.wireType, Nat.reduceBEq, Nat.reduceAdd, Nat.reduceMul, List.append_nil, List.nil_append, List.length_append]
      grind
  | producer p =>
    cases h
    obtain ⟨t, i, r, n⟩ := p
    cases n <;>
    · simp only [MessageCommand.parts, size, Option.map, Outbound.volume, ProducerCmd.toCommand, List.cons_append, baseCommand, mkMsg, pulsar, List.map, List.lookup, Option.getD, encMsg, encVals, encVal, encRaw, Raw.body, vMsg, vU64, vStr, vBytes,
        Raw.wireType, Nat.reduceBEq, Nat.reduceAdd, Nat.reduceMul, List.append_nil, List.nil_append, List.length_append]
      grind
  | _ =>
    cases h
    simp only [MessageCommand.parts, size, Option.map, Outbound.volume, pingCommand, pongCommand, LookupTopic.toCommand, Subscribe.toCommand, AuthChallenge.toCommand, Flow.toCommand,
      baseCommand, mkMsg, pulsar, List.map, List.lookup, Option.getD, encMsg, encVals, encVal, encRaw, Raw.body, vMsg, vU64, vStr, vBytes,
      Raw.wireType, Nat.reduceBEq, Nat.reduceAdd, Nat.reduceMul, List.append_nil, List.nil_append, List.length_append]
    grind
end Neutron
