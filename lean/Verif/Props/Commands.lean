import Verif.Proof.Commands
import Verif.Proof.Sizes

/-!
# Properties of commands and messages (C11-C17/C74, C60, C62, C64, C67)
-/

namespace Neutron.Props

open Proto Frame

/-! ## C11 / C12 / C14 Payloads reach a consumer of the frame -/

theorem sendWire (oc : Bool) (now : UInt64) (s : Send) (frame : Bytes) (hw : wireBytes oc now (.send s) = .ok frame)
    (hl : frame.length < 4294967296) : ReadsAs frame (s.asCommand now) := by
  obtain ⟨item, h1, h2⟩ := wire_reads' oc now (.send s) trivial frame hw hl
  rw [show (Outbound.send s).toCommand now = s.toCommand now from rfl, Send.toCommand_eq] at h1
  cases h1
  exact h2

theorem numMessages_relay (now : UInt64) (s : Send) (v : MessageCommand) (hr : Relays (s.asCommand now) v) :
    ∃ q, v.payload = some q ∧ q.data = s.payloadBytes ∧ numMessagesInBatch q.metadata = asI32 s.numberOfMessages := by
  obtain ⟨p, q, hp, hq, hd, hm⟩ := hr
  cases hp
  refine ⟨q, hq, hd, ?_⟩
  unfold numMessagesInBatch
  rw [hm, getF_mk _ _ _ rfl]
  rfl

theorem message_of (v : MessageCommand) (cid : UInt64) (mid : MessageId) (hv : IsMessage v cid mid) (q : Payload)
    (hq : v.payload = some q) : Inbound.ofCommand v = (do
      let m ← (if numMessagesInBatch q.metadata > 1 then do
          let payloads ← parseBatchedMessage (numMessagesInBatch q.metadata).toNat q.data
          pure (.batch cid mid payloads)
        else pure (.single cid mid q.data) : Outcome Message)
      pure (.message m)) := by
  obtain ⟨h1, cm, h2, h3, h4⟩ := hv
  unfold Inbound.ofCommand
  simp only [h1]
  simp only [Message.ofCommand, h2, Option.getD_some, h4, hq, Outcome.unwrap_some, Outcome.bind_ok, h3]
  rfl

/-- C11: two or more payloads, each shorter than 2^31 bytes, handed to `send_batch`; the frame written (if it fits 32-bit
sizes); any broker command that delivers that message to a consumer: the consumer's event is a batch with exactly those
payloads in order. -/
theorem C11_batch_roundtrip (oc : Bool) (now : UInt64) (c : Client) (ps : List Bytes) (h2 : 2 ≤ ps.length)
    (hp : ∀ p ∈ ps, p.length < 2147483648) (frame : Bytes) (hw : wireBytes oc now (c.issue (.sendBatch ps)).2 = .ok frame)
    (hl : frame.length < 4294967296) :
    ∃ sent, ReadsAs frame sent ∧ ∀ v cid mid, Relays sent v → IsMessage v cid mid →
      ∃ bs, Inbound.ofCommand v = .ok (.message (.batch cid mid bs)) ∧ bs.map (·.payload) = ps := by
  refine ⟨_, sendWire oc now _ frame hw hl, ?_⟩
  intro v cid mid hr hv
  obtain ⟨q, hq, hd, hn⟩ := numMessages_relay now _ v hr
  have hcount : ps.length < 2147483648 := by
    obtain ⟨item, h3, h4⟩ := wire_size oc now (.send (.batch c.clientName c.clientId c.sequenceId ps)) trivial frame hw
    rw [show Outbound.toCommand now (.send (.batch c.clientName c.clientId c.sequenceId ps)) =
      Send.toCommand now _ from rfl, Send.toCommand_eq] at h3
    cases h3
    simp only [Send.asCommand, MessageCommand.parts, Option.map_some, size, Send.payloadBytes] at h4
    have := flatten_entries_length ps
    omega
  have hnum : numMessagesInBatch q.metadata = ps.length := by
    rw [hn]
    simp only [Send.numberOfMessages]
    rw [asI32_mod, asI32_small hcount]
  refine ⟨ps.map fun p => ⟨entryMeta p.length, p⟩, ?_, by simp [Function.comp_def]⟩
  rw [message_of v cid mid hv q hq, hnum, if_pos (by omega)]
  have := countBatched_entries ps [] hp
  rw [List.append_nil] at this
  simp only [parseBatchedMessage, Int.toNat_natCast, hd, Send.payloadBytes, this, Outcome.bind_ok, Outcome.pure_eq]

/-- C14: a payload handed to `send` reaches the consumer byte for byte. -/
theorem C14_single_roundtrip (oc : Bool) (now : UInt64) (c : Client) (payload : Bytes) (frame : Bytes)
    (hw : wireBytes oc now (c.issue (.sendMessage payload)).2 = .ok frame) (hl : frame.length < 4294967296) :
    ∃ sent, ReadsAs frame sent ∧ ∀ v cid mid, Relays sent v → IsMessage v cid mid →
      Inbound.ofCommand v = .ok (.message (.single cid mid payload)) := by
  refine ⟨_, sendWire oc now _ frame hw hl, ?_⟩
  intro v cid mid hr hv
  obtain ⟨q, hq, hd, hn⟩ := numMessages_relay now _ v hr
  rw [message_of v cid mid hv q hq, hn, if_neg (by simp [Send.numberOfMessages, asI32, signed32]), hd]
  rfl

/-- A broker `MESSAGE` frame: consumer 5, message id (ledger 1, entry 2), relaying the payload of `sent`. -/
def deliver (sent : MessageCommand) : MessageCommand :=
  ⟨baseCommand 9 9 (mkMsg .commandMessage [(1, [.int 5]), (2, vMsg (mkMsg .messageIdData [(1, [.int 1]), (2, [.int 2])]))]),
   sent.payload⟩

theorem deliver_isMessage (sent : MessageCommand) :
    IsMessage (deliver sent) 5 (mkMsg .messageIdData [(1, [.int 1]), (2, [.int 2])]) := by
  refine ⟨base_type _ _ _, _, base_sub _ _ _ (by decide) rfl, ?_, ?_⟩
  · unfold getU64; rw [getF_mk _ _ _ rfl]; rfl
  · unfold getMsg; rw [getF_mk _ _ _ rfl]; rfl

theorem deliver_relays (now : UInt64) (s : Send) : Relays (s.asCommand now) (deliver (s.asCommand now)) :=
  ⟨_, _, rfl, rfl, rfl, rfl⟩

/-- The hypotheses of C11_batch_roundtrip (and C12_iff_partial) are met: a batch of "a" and the empty payload. -/
example : ∃ frame, wireBytes true 1700000000000 ((⟨7, "p", 0, 0⟩ : Client).issue (.sendBatch [[97], []])).2 = .ok frame ∧
    frame.length < 4294967296 := by
  refine ⟨layout ((Send.batch "p" 7 0 [[97], []]).asCommand 1700000000000).parts.1
    ((Send.batch "p" 7 0 [[97], []]).asCommand 1700000000000).parts.2, ?_, ?_⟩
  · unfold wireBytes
    rw [show (Outbound.toCommand _ _) = Send.toCommand 1700000000000 (.batch "p" 7 0 [[97], []]) from rfl, Send.toCommand_eq,
      Outcome.bind_ok]
    exact Codec.encode_layout _ _ _ _ (parts_serialises _ (send_ser _) (by intro p hp; cases hp; exact metadata_ser _ _))
      (by decide +kernel)
  · rw [Codec.layout_length]; decide +kernel

/-- C12 is false: one-element batches arrive as a single message whose payload is the batch framing, and the empty batch
arrives as a message with an empty payload. -/
theorem C12_refuted (oc : Bool) (now : UInt64) (c : Client) (x : Bytes) (frame1 frame0 : Bytes)
    (hw1 : wireBytes oc now (c.issue (.sendBatch [x])).2 = .ok frame1) (hl1 : frame1.length < 4294967296)
    (hw0 : wireBytes oc now (c.issue (.sendBatch [])).2 = .ok frame0) (hl0 : frame0.length < 4294967296) :
    (∃ sent y, ReadsAs frame1 sent ∧ y ≠ x ∧ ∀ v cid mid, Relays sent v → IsMessage v cid mid →
      Inbound.ofCommand v = .ok (.message (.single cid mid y))) ∧
    (∃ sent, ReadsAs frame0 sent ∧ ∀ v cid mid, Relays sent v → IsMessage v cid mid →
      Inbound.ofCommand v = .ok (.message (.single cid mid []))) := by
  constructor
  · refine ⟨_, entryBytes x, sendWire oc now _ frame1 hw1 hl1, ?_, ?_⟩
    · intro h
      have := congrArg List.length h
      simp only [entryBytes, List.length_append, be32_length] at this
      omega
    · intro v cid mid hr hv
      obtain ⟨q, hq, hd, hn⟩ := numMessages_relay now _ v hr
      rw [message_of v cid mid hv q hq, hn, if_neg (by simp [Send.numberOfMessages, asI32, signed32, Codec.asU32]), hd]
      simp [Send.payloadBytes]
  · refine ⟨_, sendWire oc now _ frame0 hw0 hl0, ?_⟩
    intro v cid mid hr hv
    obtain ⟨q, hq, hd, hn⟩ := numMessages_relay now _ v hr
    rw [message_of v cid mid hv q hq, hn, if_neg (by simp [Send.numberOfMessages, asI32, signed32, Codec.asU32]), hd]
    simp [Send.payloadBytes]

/-- Both hypotheses of C12_refuted are met by a release build sending "a". -/
theorem wire_release (now : UInt64) (s : Send) :
    wireBytes false now (.send s) = .ok (layout (s.asCommand now).parts.1 (s.asCommand now).parts.2) := by
  unfold wireBytes
  rw [show (Outbound.toCommand now (.send s)) = Send.toCommand now s from rfl, Send.toCommand_eq, Outcome.bind_ok]
  exact Codec.encode_release _ _ _ (parts_serialises _ (send_ser _) (by intro p hp; cases hp; exact metadata_ser _ _))

/-- The hypotheses of C12_refuted are met. -/
example : ∃ f1 f0, wireBytes false 1700000000000 ((⟨7, "p", 0, 0⟩ : Client).issue (.sendBatch [[97]])).2 = .ok f1 ∧
    f1.length < 4294967296 ∧ wireBytes false 1700000000000 ((⟨7, "p", 0, 0⟩ : Client).issue (.sendBatch [])).2 = .ok f0 ∧
    f0.length < 4294967296 := by
  refine ⟨_, _, wire_release _ _, ?_, wire_release _ _, ?_⟩ <;> rw [Codec.layout_length] <;> decide +kernel

/-- What holds of C12: it is true exactly for the batches with at least two elements (elements shorter than 2^31). -/
theorem C12_iff_partial (oc : Bool) (now : UInt64) (c : Client) (ps : List Bytes)
    (hp : ∀ p ∈ ps, p.length < 2147483648) (frame : Bytes) (hw : wireBytes oc now (c.issue (.sendBatch ps)).2 = .ok frame)
    (hl : frame.length < 4294967296) :
    (∀ sent v cid mid, ReadsAs frame sent → Relays sent v → IsMessage v cid mid →
      (∃ bs, Inbound.ofCommand v = .ok (.message (.batch cid mid bs)) ∧ bs.map (·.payload) = ps) ∨
      (∃ x, Inbound.ofCommand v = .ok (.message (.single cid mid x)) ∧ [x] = ps)) ↔ 2 ≤ ps.length := by
  constructor
  · intro h
    have hs := sendWire oc now (.batch c.clientName c.clientId c.sequenceId ps) frame hw hl
    have h' := h _ _ _ _ hs (deliver_relays now _) (deliver_isMessage _)
    obtain ⟨q, hq, hd, hn⟩ := numMessages_relay now _ _ (deliver_relays now (.batch c.clientName c.clientId c.sequenceId ps))
    rw [message_of _ _ _ (deliver_isMessage _) q hq, hn] at h'
    rcases ps with _ | ⟨x, _ | ⟨y, r⟩⟩
    · rw [if_neg (by simp [Send.numberOfMessages, asI32, signed32, Codec.asU32])] at h'
      rcases h' with ⟨bs, h1, -⟩ | ⟨x, -, h1⟩
      · cases h1
      · cases h1
    · rw [if_neg (by simp [Send.numberOfMessages, asI32, signed32, Codec.asU32])] at h'
      rcases h' with ⟨bs, h1, -⟩ | ⟨z, h1, h2⟩
      · cases h1
      · cases h2
        cases h1
        have := congrArg List.length hd
        simp [Send.payloadBytes, entryBytes, be32_length] at this
        omega
    · simp
  · intro h2 sent v cid mid hs hr hv
    obtain ⟨sent', hs', hall⟩ := C11_batch_roundtrip oc now c ps h2 hp frame hw hl
    have := readsAs_unique hs hs'
    subst this
    exact Or.inl (hall v cid mid hr hv)

/-! ## C13 Batch parsing -/

/-- For every count and every byte string: parsing never panics; it succeeds with `bs` exactly when `bs` has `count`
elements that are consecutive slices of the input from its start; otherwise it reports a decode failure. -/
theorem C13_batch_parse (count : Nat) (data : Bytes) :
    (∀ bs, parseBatchedMessage count data = .ok bs ↔ bs.length = count ∧ ∃ rest, BatchOf data bs rest) ∧
    ((¬ ∃ bs rest, bs.length = count ∧ BatchOf data bs rest) ↔ parseBatchedMessage count data = .err .decodeFailed) ∧
    parseBatchedMessage count data ≠ .panic := by
  unfold parseBatchedMessage
  cases hc : countBatched count data with
  | none =>
    refine ⟨?_, ?_, by simp⟩
    · intro bs
      constructor
      · intro h; cases h
      · rintro ⟨h1, rest, h2⟩
        rw [(countBatched_some count).mpr ⟨h1, h2⟩] at hc; cases hc
    · simp only [iff_true]
      rintro ⟨bs, rest, h1, h2⟩
      rw [(countBatched_some count).mpr ⟨h1, h2⟩] at hc; cases hc
  | some x =>
    obtain ⟨rest, bs⟩ := x
    obtain ⟨h1, h2⟩ := (countBatched_some count).mp hc
    refine ⟨?_, ?_, by simp⟩
    · intro bs'
      constructor
      · intro h; cases h; exact ⟨h1, rest, h2⟩
      · rintro ⟨h3, r', h4⟩
        have := (countBatched_some count).mpr ⟨h3, h4⟩
        rw [hc] at this; cases this; rfl
    · simp only [reduceCtorEq, iff_false]
      exact fun hn => hn ⟨bs, rest, h1, h2⟩

/-- Truncation: if a byte string is exactly a batch of `count` elements (nothing after it), every strict prefix of it is
rejected. -/
theorem C13_truncated (count : Nat) (data : Bytes) (bs : List BatchedPayload) (hc : bs.length = count)
    (hb : BatchOf data bs []) (p q : Bytes) (hpq : p ++ q = data) (hq : q ≠ []) :
    parseBatchedMessage count p = .err .decodeFailed := by
  rw [← (C13_batch_parse count p).2.1]
  rintro ⟨bs', rest, h1, h2⟩
  obtain ⟨used, rfl, hu⟩ := batchOf_append h2
  have h3 := (countBatched_some count).mpr ⟨h1, hu (rest ++ q)⟩
  have h4 := (countBatched_some count).mpr ⟨hc, hb⟩
  rw [← hpq, List.append_assoc, h3] at h4
  simp only [Option.some.injEq, Prod.mk.injEq, List.append_eq_nil_iff] at h4
  exact hq h4.1.2

/-- A batch as in C13_batch_parse and C13_truncated. -/
example : ∃ bs, bs.length = 2 ∧ BatchOf ([[97], [98, 99]].map entryBytes).flatten bs [] :=
  ⟨_, rfl, batchOf_entries [[97], [98, 99]] (by simp)⟩

/-! ## C15 / C16 API calls on the wire -/

theorem issued_command (now : UInt64) (c : Client) (call : Call) {item : MessageCommand} (h1 : (c.issue call).2.toCommand now = .ok item) :
    IsCommand item (call.wire c).1 (call.wire c).2.1 (call.wire c).2.2 ∧ call.wirePayload c now item.payload := by
  cases call with
  | connect => cases h1; exact ⟨isCommand_base 2 _ _ _ rfl rfl, rfl⟩
  | connectToProxy p => cases h1; exact ⟨isCommand_base 2 _ _ _ rfl rfl, rfl⟩
  | lookupTopic t => cases h1; exact ⟨isCommand_base 23 _ _ _ rfl rfl, rfl⟩
  | producer t => cases h1; exact ⟨isCommand_base 5 _ _ _ rfl rfl, rfl⟩
  | subscribe t s => cases h1; exact ⟨isCommand_base 4 _ _ _ rfl rfl, rfl⟩
  | ack m => cases h1; exact ⟨isCommand_base 10 _ _ _ rfl rfl, rfl⟩
  | flow n => cases h1; exact ⟨isCommand_base 11 _ _ _ rfl rfl, rfl⟩
  | sendMessage p =>
    rw [show (Outbound.toCommand now _) = Send.toCommand now (.single c.clientName c.clientId c.sequenceId p) from rfl,
      Send.toCommand_eq] at h1
    cases h1
    exact ⟨isCommand_base 6 _ _ _ rfl rfl, _, rfl, hasExactly_mk _ _ rfl⟩
  | sendBatch ps =>
    rw [show (Outbound.toCommand now _) = Send.toCommand now (.batch c.clientName c.clientId c.sequenceId ps) from rfl,
      Send.toCommand_eq] at h1
    cases h1
    have hn : asI32 (Send.batch c.clientName c.clientId c.sequenceId ps).numberOfMessages = asI32 ps.length := asI32_mod _
    refine ⟨?_, _, _, rfl, ?_, ?_⟩
    · have := isCommand_base 6 .commandSend [(1, vU64 c.clientId), (2, vU64 c.sequenceId), (3, [.int (asI32 ps.length)])]
        ((Send.batch c.clientName c.clientId c.sequenceId ps).asCommand now).payload rfl rfl
      rw [← hn] at this
      unfold Send.asCommand
      simp only [Call.wire]
      rw [← hn]
      exact this
    · rw [← hn]; exact hasExactly_mk _ _ rfl
    · intro hp
      exact ⟨_, batchOf_entries ps hp, by simp [Function.comp_def]⟩

/-- For every API call and every argument, whatever is written (and fits 32-bit sizes) reads back, at any conforming reader,
as exactly one command of the call's type with exactly the fields of `Call.wire` (no other field, no other sub-command) and
the payload of `Call.wirePayload`. -/
theorem C15_api_wire (oc : Bool) (now : UInt64) (c : Client) (call : Call) (hack : ∀ m, call = .ack m → ValidId m)
    (frame : Bytes) (hw : wireBytes oc now (c.issue call).2 = .ok frame) (hl : frame.length < 4294967296) :
    ∃ got, ReadsAs frame got ∧ IsCommand got (call.wire c).1 (call.wire c).2.1 (call.wire c).2.2 ∧
      call.wirePayload c now got.payload := by
  obtain ⟨item, h1, h2⟩ := wire_reads' oc now _ (issue_valid c call hack) frame hw hl
  exact ⟨item, h2, issued_command now c call h1⟩

/-- C16: an acknowledgement is individual (type 0), names the caller's own id and exactly the one message id. -/
theorem C16_ack_exact (oc : Bool) (now : UInt64) (c : Client) (m : MessageId) (hm : ValidId m) (frame : Bytes)
    (hw : wireBytes oc now (c.issue (.ack m)).2 = .ok frame) (hl : frame.length < 4294967296) :
    ∃ got, ReadsAs frame got ∧ got.payload = none ∧ ∃ a, getMsg .baseCommand got.command 10 = some a ∧
      commandType got.command = 10 ∧
      getF .commandAck a 1 = [.int c.clientId.toNat] ∧ getF .commandAck a 2 = [.int 0] ∧ getF .commandAck a 3 = [.msg m] ∧
      ∀ n, n ≠ 1 → n ≠ 2 → n ≠ 3 → n ≠ 8 → getF .commandAck a n = [] := by
  obtain ⟨got, h1, ⟨a, hb, ha⟩, hp⟩ := C15_api_wire oc now c (.ack m) (by intro m' h; cases h; exact hm) frame hw hl
  refine ⟨got, h1, hp, a, ?_, ?_, ha 1, ha 2, ha 3, ?_⟩
  · unfold getMsg; rw [hb 10]; rfl
  · unfold commandType; rw [hb 1]; rfl
  · intro n h1 h2 h3 h8
    refine (ha n).trans ?_
    simp [Call.wire, List.lookup, beq_eq_false_iff_ne.mpr h1, beq_eq_false_iff_ne.mpr h2, beq_eq_false_iff_ne.mpr h3,
      beq_eq_false_iff_ne.mpr h8]

/-! ## C60 / C67 Message ids -/

/-- C60: the id made for element `i` of a batch has batch index `i` and every other field of the batch's id; distinct
elements get distinct ids. -/
theorem C60_batch_ids (mid : MessageId) (h : ValidId mid) :
    (∀ i, i < 2147483648 → IsBatchId mid i (withBatchIndex i mid) ∧ ValidId (withBatchIndex i mid)) ∧
    ∀ i j, i < 2147483648 → j < 2147483648 → withBatchIndex i mid = withBatchIndex j mid → i = j := by
  refine ⟨fun i hi => ⟨withBatchIndex_spec i hi mid h, validId_withBatchIndex i mid h⟩, ?_⟩
  intro i j hi hj he
  have h1 := (withBatchIndex_spec i hi mid h).1
  rw [he, (withBatchIndex_spec j hj mid h).1] at h1
  simp only [List.cons.injEq, Val.int.injEq, and_true] at h1
  omega

/-- C67: take any bytes from the broker that decode to a message for some consumer; acknowledge its id, or the id of element
`i` of the batch; whatever ack is written reads back with that very id (field by field the broker's, plus the batch index). -/
theorem C67_ack_id (src rest : Bytes) (v : MessageCommand) (hv : Codec.decode src = .ok (some (v, rest))) (cid : UInt64)
    (mid : MessageId) (hm : IsMessage v cid mid) (oc : Bool) (now : UInt64) (c : Client) :
    (∀ frame, wireBytes oc now (c.issue (.ack mid)).2 = .ok frame → frame.length < 4294967296 →
      ∃ got a, ReadsAs frame got ∧ getMsg .baseCommand got.command 10 = some a ∧ getF .commandAck a 3 = [.msg mid]) ∧
    (∀ i frame, i < 2147483648 → wireBytes oc now (c.issue (.ack (withBatchIndex i mid))).2 = .ok frame →
      frame.length < 4294967296 →
      ∃ got a r, ReadsAs frame got ∧ getMsg .baseCommand got.command 10 = some a ∧ getF .commandAck a 3 = [.msg r] ∧
        IsBatchId mid i r) := by
  have hid := isMessage_validId hv hm
  constructor
  · intro frame hw hl
    obtain ⟨got, h1, -, a, h2, -, -, -, h3, -⟩ := C16_ack_exact oc now c mid hid frame hw hl
    exact ⟨got, a, h1, h2, h3⟩
  · intro i frame hi hw hl
    obtain ⟨got, h1, -, a, h2, -, -, -, h3, -⟩ := C16_ack_exact oc now c _ (validId_withBatchIndex i mid hid) frame hw hl
    exact ⟨got, a, _, h1, h2, h3, withBatchIndex_spec i hi mid hid⟩

/-- A concrete valid id (ledger 1, entry 2), and a broker frame that decodes to a message carrying it. -/
theorem exampleId_valid : ValidId (mkMsg .messageIdData [(1, [.int 1]), (2, [.int 2])]) :=
  validId_ser.mpr <| mk_ser 98 _ _ (by simp [pulsar]) (fields_cons (ok_u64 1 _ (1 : UInt64) rfl) (fields_cons (ok_u64 2 _ (2 : UInt64) rfl) fields_nil))

theorem deliver_ser (s : Send) (now : UInt64) : Ser 101 .baseCommand (deliver (s.asCommand now)).command :=
  base_ser 100 9 9 _ .commandMessage (by decide) rfl (mk_ser 99 _ _ (by simp [pulsar])
    (fields_cons (ok_u64 1 _ (5 : UInt64) rfl) (fields_cons (ok_msg 2 _ .messageIdData _ (validId_ser.mp exampleId_valid) rfl) fields_nil)))

/-- Bytes as in C67_ack_id, and also C17_type_required and C17_ids_required. -/
example : ∃ src v cid mid, Codec.decode src = .ok (some (v, [])) ∧ IsMessage v cid mid := by
  let s := Send.single "p" 7 300 [104, 105]
  have := Codec.decode_layout (deliver (s.asCommand 1700000000000)) _ _
    (parts_sendable _ (deliver_ser s _) (by intro p hp; cases hp; exact metadata_ser s _) (by decide +kernel)) []
  rw [List.append_nil] at this
  exact ⟨_, _, _, _, this, deliver_isMessage _⟩

/-- A command the API makes, with valid ids, is written, in every build. -/
theorem is_written (oc : Bool) (now : UInt64) (o : Outbound) (ho : o.Valid) (hv : o.volume + 300 < 4294967296) :
    ∃ frame, wireBytes oc now o = .ok frame ∧ frame.length < 4294967296 := by
  obtain ⟨item, h1, h2, h3⟩ := toCommand_ok now o ho
  have hl := size_le now o item h1
  refine ⟨_, ?_, by rw [Codec.layout_length]; exact Nat.lt_of_le_of_lt hl hv⟩
  unfold wireBytes
  rw [h1, Outcome.bind_ok]
  exact Codec.encode_layout oc item _ _ (parts_serialises item h2 h3) (by omega)

/-- The hypotheses of C14_single_roundtrip and C15_api_wire (a send), and of C15_api_wire and C16_ack_exact (an ack) are met. -/
example (oc : Bool) : (∃ frame, wireBytes oc 1700000000000 ((⟨7, "p", 0, 0⟩ : Client).issue (.sendMessage [104, 105])).2 = .ok frame ∧
      frame.length < 4294967296) ∧
    (∃ frame, wireBytes oc 1700000000000 ((⟨7, "p", 0, 0⟩ : Client).issue (.ack (mkMsg .messageIdData [(1, [.int 1]), (2, [.int 2])]))).2 =
      .ok frame ∧ frame.length < 4294967296) ∧ ValidId (mkMsg .messageIdData [(1, [.int 1]), (2, [.int 2])]) :=
  ⟨is_written _ _ _ trivial (by decide +kernel),
    is_written _ _ _ (by exact ⟨by simp, by intro a ha; simp at ha; subst ha; exact exampleId_valid⟩) (by decide +kernel), exampleId_valid⟩

/-! ## C17/C74 Classification of broker commands -/

/-- Every event reported stands for the broker command it came from, field by field; every unsupported type is reported as
unsupported; a supported, complete command always gives an event, except a message whose announced batch does not parse,
which is reported as undecodable; and the conversion panics exactly on supported commands with missing parts. -/
theorem C17_classification (v : MessageCommand) :
    (∀ i, Inbound.ofCommand v = .ok i → Denotes v i) ∧
    (commandType v.command ∉ supportedTypes → Inbound.ofCommand v = .err .unsupportedCommand) ∧
    (commandType v.command ∈ supportedTypes → Complete v →
      (∃ i, Inbound.ofCommand v = .ok i) ∨ (commandType v.command = 9 ∧ Inbound.ofCommand v = .err .decodeFailed)) ∧
    (Inbound.ofCommand v = .panic ↔ ¬ Complete v) := by
  by_cases h18 : commandType v.command = 18
  · have he : Inbound.ofCommand v = .ok .ping := by simp [Inbound.ofCommand, h18]
    rw [he]
    refine ⟨by rintro i ⟨⟩; exact h18, by simp [h18, supportedTypes], fun _ _ => Or.inl ⟨_, rfl⟩, by simp [Complete, h18]⟩
  by_cases h19 : commandType v.command = 19
  · have he : Inbound.ofCommand v = .ok .pong := by simp [Inbound.ofCommand, h19]
    rw [he]
    refine ⟨by rintro i ⟨⟩; exact h19, by simp [h19, supportedTypes], fun _ _ => Or.inl ⟨_, rfl⟩, by simp [Complete, h19]⟩
  by_cases h3 : commandType v.command = 3
  · have he : Inbound.ofCommand v = .ok .connected := by simp [Inbound.ofCommand, h3]
    rw [he]
    refine ⟨by rintro i ⟨⟩; exact h3, by simp [h3, supportedTypes], fun _ _ => Or.inl ⟨_, rfl⟩, by simp [Complete, h3]⟩
  by_cases h36 : commandType v.command = 36
  · have he : Inbound.ofCommand v = .ok .authChallengeRequest := by simp [Inbound.ofCommand, h36]
    rw [he]
    refine ⟨by rintro i ⟨⟩; exact h36, by simp [h36, supportedTypes], fun _ _ => Or.inl ⟨_, rfl⟩, by simp [Complete, h36]⟩
  by_cases h7 : commandType v.command = 7
  · have he : Inbound.ofCommand v = (do pure (.sendReceipt (← SendReceipt.ofCommand v))) := by simp [Inbound.ofCommand, h7]
    rw [he]
    unfold SendReceipt.ofCommand
    cases hs : getMsg .baseCommand v.command 7 with
    | none => simp [Complete, h7, hs, supportedTypes]
    | some s =>
      simp only [Outcome.unwrap_some, Outcome.bind_ok]
      cases hm : getMsg .commandSendReceipt s 3 with
      | none => simp [Complete, h7, hs, hm, supportedTypes]
      | some mid => simp [Complete, h7, hs, hm, supportedTypes, Denotes]
  by_cases h38 : commandType v.command = 38
  · have he : Inbound.ofCommand v = (do pure (.ackReciept (← AckReciept.ofCommand v))) := by simp [Inbound.ofCommand, h38]
    rw [he]
    unfold AckReciept.ofCommand
    cases hs : getMsg .baseCommand v.command 38 with
    | none => simp [Complete, h38, hs, supportedTypes]
    | some s => simp [Complete, h38, hs, supportedTypes, Denotes]
  by_cases h9 : commandType v.command = 9
  · have he : Inbound.ofCommand v = (do pure (.message (← Message.ofCommand v))) := by simp [Inbound.ofCommand, h9]
    rw [he]
    unfold Message.ofCommand
    cases hs : getMsg .baseCommand v.command 9 with
    | none =>
      have : getMsg .commandMessage (newMsg pulsar .commandMessage) 2 = none := rfl
      simp [Complete, h9, hs, this, supportedTypes]
    | some s =>
      simp only [Option.getD_some]
      cases hm : getMsg .commandMessage s 2 with
      | none => simp [Complete, h9, hs, hm, supportedTypes]
      | some mid =>
        simp only [Outcome.unwrap_some, Outcome.bind_ok]
        cases hp : v.payload with
        | none => simp [Complete, h9, hs, hp, supportedTypes]
        | some p =>
          simp only [Outcome.unwrap_some, Outcome.bind_ok]
          by_cases hn : numMessagesInBatch p.metadata > 1
          · simp only [if_pos hn]
            have hpar := C13_batch_parse (numMessagesInBatch p.metadata).toNat p.data
            cases hb : parseBatchedMessage (numMessagesInBatch p.metadata).toNat p.data with
            | ok bs =>
              obtain ⟨hl, rest, hbo⟩ := (hpar.1 bs).mp hb
              refine ⟨?_, by simp [h9, supportedTypes], fun _ _ => Or.inl ⟨_, rfl⟩, by simp [Complete, h9, hs, hm, hp]⟩
              rintro i ⟨⟩
              refine ⟨⟨h9, s, hs, rfl, hm⟩, p.metadata, p.data, rest, hp, hn, ?_, hbo⟩
              change numMessagesInBatch p.metadata = _
              omega
            | err e =>
              have : e = .decodeFailed := by
                unfold parseBatchedMessage at hb; split at hb <;> cases hb; rfl
              subst this
              exact ⟨by rintro i ⟨⟩, by simp [h9, supportedTypes], fun _ _ => Or.inr ⟨h9, rfl⟩, by simp [Complete, h9, hs, hm, hp]⟩
            | panic => exact absurd hb hpar.2.2
          · simp only [if_neg hn]
            refine ⟨?_, by simp [h9, supportedTypes], fun _ _ => Or.inl ⟨_, rfl⟩, by simp [Complete, h9, hs, hm, hp]⟩
            rintro i ⟨⟩
            exact ⟨⟨h9, s, hs, rfl, hm⟩, p.metadata, hp, hn⟩
  by_cases h24 : commandType v.command = 24
  · have he : Inbound.ofCommand v = (do pure (.lookupTopicResponse (← LookupTopicResponse.ofCommand v))) := by
      simp [Inbound.ofCommand, h24]
    rw [he]
    unfold LookupTopicResponse.ofCommand
    cases hs : getMsg .baseCommand v.command 24 with
    | none => simp [Complete, h24, hs, supportedTypes]
    | some s =>
      refine ⟨?_, by simp [h24, supportedTypes], fun _ _ => Or.inl ⟨_, rfl⟩, by simp [Complete, h24, hs]⟩
      rintro i ⟨⟩
      have hint : ∀ vs n, intOf vs = some n ↔ vs = [.int n] := by
        intro vs n
        unfold intOf
        split
        · simp
        · rename_i hne
          simp only [reduceCtorEq, false_iff]
          intro h; exact hne n h
      have hbool : ∀ n, getBool .commandLookupTopicResponse s n false = true ↔
          ∃ k, getF .commandLookupTopicResponse s n = [.int k] ∧ k ≠ 0 := by
        intro n
        unfold getBool
        cases hi : intOf (getF .commandLookupTopicResponse s n) with
        | none =>
          simp only [Bool.false_eq_true, false_iff]
          rintro ⟨k, h1, -⟩
          rw [(hint _ _).mpr h1] at hi; cases hi
        | some k =>
          have := (hint _ _).mp hi
          simp [this]
      refine ⟨h24, s, hs, rfl, rfl, rfl, ?_, ?_, hbool 5, hbool 8⟩
      · rw [← hint]
        simp only [lookupTypeOf]
        split
        · rename_i h; simp [h]
        · rename_i h; simp only [h, iff_false]; split <;> simp
      · rw [← hint]
        simp only [lookupTypeOf]
        split
        · rename_i h; simp [h]
        · split
          · rename_i h; simp [h]
          · rename_i h; simp [h]
  by_cases h13 : commandType v.command = 13
  · have he : Inbound.ofCommand v = (do pure (.success (← successOfCommand v))) := by simp [Inbound.ofCommand, h13]
    rw [he]
    unfold successOfCommand
    cases hs : getMsg .baseCommand v.command 13 with
    | none => simp [Complete, h13, hs, supportedTypes]
    | some s => simp [Complete, h13, hs, supportedTypes, Denotes]
  by_cases h17 : commandType v.command = 17
  · have he : Inbound.ofCommand v = (do pure (.producerSuccess (← ProducerSuccess.ofCommand v))) := by
      simp [Inbound.ofCommand, h17]
    rw [he]
    unfold ProducerSuccess.ofCommand
    cases hs : getMsg .baseCommand v.command 17 with
    | none => simp [Complete, h17, hs, supportedTypes]
    | some s => simp [Complete, h17, hs, supportedTypes, Denotes]
  have he : Inbound.ofCommand v = .err .unsupportedCommand := by
    simp [Inbound.ofCommand, h18, h19, h3, h7, h38, h9, h24, h36, h13, h17]
  rw [he]
  refine ⟨by rintro i ⟨⟩, fun _ => rfl, ?_, ?_⟩
  · intro hmem
    simp only [supportedTypes, List.mem_cons, List.not_mem_nil, or_false] at hmem
    omega
  · simp [Complete, h7, h38, h9, h24, h13, h17]

/-- Every event comes from a command that says its type itself. -/
theorem C17_says_its_type {v : MessageCommand} {i : Inbound} (h : Inbound.ofCommand v = .ok i) :
    ∃ n ∈ supportedTypes, getF .baseCommand v.command 1 = [.int n] := by
  have h1 : commandType v.command ∈ supportedTypes := by
    refine Classical.byContradiction fun hn => ?_
    rw [(C17_classification v).2.1 hn] at h
    cases h
  unfold commandType at h1
  cases hi : intOf (getF .baseCommand v.command 1) with
  | none => rw [hi] at h1; exact absurd h1 (by decide)
  | some n =>
    rw [hi] at h1
    refine ⟨n, h1, ?_⟩
    unfold intOf at hi
    split at hi
    · rename_i he; cases hi; exact he
    · cases hi

theorem decode_parsed {src rest : Bytes} {v : MessageCommand} (h : Codec.decode src = .ok (some (v, rest))) :
    ∃ bs, parseFromBytes pulsar .baseCommand bs = some v.command := by
  unfold Codec.decode at h
  split at h
  · cases h
  · simp only [] at h
    split at h
    · obtain ⟨m, hm, he⟩ := bind_ok_inv h
      cases he
      unfold Codec.decodeFrame at hm
      obtain ⟨⟨_, cb⟩, _, hm⟩ := bind_ok_inv hm
      obtain ⟨c, hc, hm⟩ := bind_ok_inv hm
      refine ⟨cb, ?_⟩
      have hv : v.command = c := by
        simp only [] at hm
        split at hm
        · cases hm; rfl
        · obtain ⟨_, _, hm⟩ := bind_ok_inv hm
          cases hm; rfl
      rw [hv]
      revert hc
      cases parseFromBytes pulsar .baseCommand cb with
      | none => intro hc; cases hc
      | some x => intro hc; cases hc; rfl
    · cases h

/-- A frame whose command does not say its type is not a command: nothing is decoded from it. -/
theorem C17_type_required {src rest : Bytes} {v : MessageCommand} (h : Codec.decode src = .ok (some (v, rest))) :
    ∃ n, getF .baseCommand v.command 1 = [.int n] := by
  have hp := decode_parsed h
  obtain ⟨bs, hp⟩ := hp
  obtain ⟨hw, hi⟩ := parse_wt _ _ _ _ hp
  generalize v.command = m at hw hi
  change wtFields _ (pulsar .baseCommand) m = true at hw
  rw [show pulsar .baseCommand = ⟨1, .required, .enum⟩ :: (pulsar .baseCommand).tail from rfl] at hw hi
  cases m with
  | nil => cases hw
  | cons vs m =>
    simp only [initMsg, Bool.and_eq_true] at hi
    simp only [wtFields, wtField, Bool.and_eq_true] at hw
    change ∃ n, vs = [.int n]
    match vs, hi, hw with
    | [], hi, _ => exact absurd hi.1.1 (by decide)
    | [.int n], _, _ => exact ⟨n, rfl⟩
    | [.str _], _, hw => exact absurd hw.1.2 (by simp [wtVal])
    | [.byt _], _, hw => exact absurd hw.1.2 (by simp [wtVal])
    | [.msg _], _, hw => exact absurd hw.1.2 (by simp [wtVal])
    | _ :: _ :: _, _, hw => exact absurd hw.1.1 (by simp)

/-- A required field of a message that was read is there. -/
theorem init_required (S : Schema) : ∀ (ds : List FieldDesc) (m : Msg) (n : Nat) (d : FieldDesc),
    initMsg S ds m = true → ds.find? (fun e => e.num == n) = some d → d.label = .required → lookupF ds m n ≠ [] := by
  intro ds
  induction ds with
  | nil => intro m n d _ h; simp at h
  | cons e ds ih =>
    intro m n d hw hf hl
    have key : e.num = n → e = d := by
      intro he
      simpa only [List.find?_cons, he, beq_self_eq_true, Option.some.injEq] using hf
    have rest : e.num ≠ n → ds.find? (fun e => e.num == n) = some d := by
      intro he
      simpa only [List.find?_cons, beq_eq_false_iff_ne.mpr he] using hf
    cases m with
    | nil =>
      have none : ∀ (ds : List FieldDesc), initMsg S ds [] = true → ∀ d ∈ ds, d.label ≠ .required := by
        intro ds
        induction ds with
        | nil => intro _ d hd; cases hd
        | cons a as iha =>
          intro h d hd
          simp only [initMsg, Bool.and_eq_true, bne_iff_ne] at h
          rcases List.mem_cons.mp hd with rfl | hd
          · exact h.1
          · exact iha h.2 d hd
      exact absurd hl (none _ hw d (List.mem_of_find?_eq_some hf))
    | cons vs m =>
      simp only [initMsg, Bool.and_eq_true, Bool.or_eq_true, bne_iff_ne, Bool.not_eq_true', List.isEmpty_eq_false_iff] at hw
      simp only [lookupF]
      by_cases he : e.num = n
      · rw [if_pos he]
        have := key he
        subst this
        exact hw.1.1.resolve_left (fun hn => hn hl)
      · rw [if_neg he]
        exact ih m n d hw.2 (rest he) hl

theorem sub_required {m s : Msg} (hi : initMsg pulsar (pulsar .baseCommand) m = true) {f : Nat} {l : Label} {t : MsgTy}
    (hf : (pulsar .baseCommand).find? (fun e => e.num == f) = some ⟨f, l, .msg t⟩) (hs : getMsg .baseCommand m f = some s) {k : Nat} {kd : Kind}
    (hk : (pulsar t).find? (fun e => e.num == k) = some ⟨k, .required, kd⟩) : getF t s k ≠ [] := by
  refine init_required pulsar _ _ _ _ ?_ hk rfl
  have h := initVals_mem (initMsg_get pulsar _ _ _ _ hi hf) (msgOf_mem hs)
  exact h

/-- A response that does not say what it answers is not a command: whatever is decoded, a receipt says whose it is and of which send, a message
whose it is and its id, the answer to a lookup, a subscription or a producer which request it answers. The client never has to make up the
name of the waiter. -/
theorem C17_ids_required {src rest : Bytes} {v : MessageCommand} (h : Codec.decode src = .ok (some (v, rest))) :
    (∀ s, getMsg .baseCommand v.command 3 = some s → getF .commandConnected s 1 ≠ []) ∧
    (∀ s, getMsg .baseCommand v.command 7 = some s → getF .commandSendReceipt s 1 ≠ [] ∧ getF .commandSendReceipt s 2 ≠ []) ∧
    (∀ s, getMsg .baseCommand v.command 9 = some s → getF .commandMessage s 1 ≠ [] ∧ getF .commandMessage s 2 ≠ []) ∧
    (∀ s, getMsg .baseCommand v.command 13 = some s → getF .commandSuccess s 1 ≠ []) ∧
    (∀ s, getMsg .baseCommand v.command 17 = some s → getF .commandProducerSuccess s 1 ≠ [] ∧ getF .commandProducerSuccess s 2 ≠ []) ∧
    (∀ s, getMsg .baseCommand v.command 24 = some s → getF .commandLookupTopicResponse s 4 ≠ []) ∧
    (∀ s, getMsg .baseCommand v.command 38 = some s → getF .commandAckResponse s 1 ≠ []) := by
  obtain ⟨bs, hp⟩ := decode_parsed h
  have hi := (parse_wt _ _ _ _ hp).2
  refine ⟨fun s hs => ?_, fun s hs => ⟨?_, ?_⟩, fun s hs => ⟨?_, ?_⟩, fun s hs => ?_, fun s hs => ⟨?_, ?_⟩, fun s hs => ?_, fun s hs => ?_⟩ <;>
    exact sub_required hi rfl hs rfl

/-- A batch is cut only where the broker said: every element of a batch that was parsed states the size of its payload, and its payload has
that size; an element that does not is no element, and the batch is rejected. -/
theorem C13_size_stated {count : Nat} {data : Bytes} {bs : List BatchedPayload} (h : parseBatchedMessage count data = .ok bs) :
    ∀ b ∈ bs, getF .singleMessageMetadata b.metadata 3 = [.int b.payload.length] := by
  obtain ⟨-, rest, hb⟩ := ((C13_batch_parse count data).1 bs).mp h
  clear h
  induction hb with
  | done => intro b hb; cases hb
  | element mb md payload tail rest bs hl hm hs _ ih =>
    intro b hb
    rcases List.mem_cons.mp hb with rfl | hb
    · have hp := Framed.IsMessage.parse hm
      obtain ⟨hw, hi⟩ := parse_wt _ _ _ _ hp
      have hr : getF .singleMessageMetadata md 3 ≠ [] := init_required pulsar _ _ 3 ⟨3, .required, .i32⟩ hi rfl rfl
      have hf := wtFields_get _ _ _ 3 ⟨3, .required, .i32⟩ hw rfl
      change wtField _ _ (getF .singleMessageMetadata md 3) = true at hf
      revert hr hf hs
      show (intOf (getF .singleMessageMetadata md 3)).getD 0 = _ → _ → _ → getF .singleMessageMetadata md 3 = _
      generalize getF .singleMessageMetadata md 3 = vs
      intro hs hr hf
      match vs, hs, hr, hf with
      | [.int n], hs, _, _ => simp only [intOf, Option.getD_some] at hs; rw [hs]
      | [.str _], _, _, hf => simp [wtField, wtVal] at hf
      | [.byt _], _, _, hf => simp [wtField, wtVal] at hf
      | [.dbl _], _, _, hf => simp [wtField, wtVal] at hf
      | [.msg _], _, _, hf => simp [wtField, wtVal] at hf
      | _ :: _ :: _, _, _, hf => simp [wtField] at hf
    · exact ih b hb

/-- A batch as in C13_size_stated. -/
example : ∃ bs, parseBatchedMessage 2 ([[97], [98, 99]].map entryBytes).flatten = .ok bs ∧ bs.length = 2 :=
  have h := batchOf_entries [[97], [98, 99]] (by simp)
  ⟨_, ((C13_batch_parse _ _).1 _).mpr ⟨rfl, _, h⟩, rfl⟩

/-- The address of a lookup response is the plain URL the broker gave, or its TLS URL if there is no plain one. -/
theorem C17_service_url {v : MessageCommand} {r : LookupTopicResponse} (h : Inbound.ofCommand v = .ok (.lookupTopicResponse r)) :
    ∃ s, getMsg .baseCommand v.command 24 = some s ∧
      (getStr .commandLookupTopicResponse s 1 ≠ "" → r.getBrokerServiceUrl = getStr .commandLookupTopicResponse s 1) ∧
      (getStr .commandLookupTopicResponse s 1 = "" → r.getBrokerServiceUrl = getStr .commandLookupTopicResponse s 2) := by
  obtain ⟨_, s, h1, _, h2, h3, _⟩ := (C17_classification v).1 _ h
  refine ⟨s, h1, fun hn => ?_, fun hn => ?_⟩ <;> unfold LookupTopicResponse.getBrokerServiceUrl <;> rw [h2]
  · exact if_pos hn
  · rw [if_neg (not_not_intro hn), h3]

/-- How the fields named in `Denotes` are read: a string field is the string the broker set, or empty if it set none; a number is
the one it set, or 0; a sub-command is there only if it was set. -/
theorem C17_reads (t : MsgTy) (m : Msg) (n : Nat) :
    (∀ s, getStr t m n = s ↔ getF t m n = [.str s] ∨ (s = "" ∧ ∀ x, getF t m n ≠ [.str x])) ∧
    (∀ k : UInt64, getU64 t m n = k ↔
      (∃ x : Int, getF t m n = [.int x] ∧ k = UInt64.ofNat x.toNat) ∨ (k = 0 ∧ ∀ x, getF t m n ≠ [.int x])) ∧
    (∀ x, getMsg t m n = some x ↔ getF t m n = [.msg x]) := by
  unfold getStr getU64 getMsg
  generalize getF t m n = vs
  match vs with
  | [] => simp [strOf, intOf, msgOf, eq_comm]
  | [.int _] => simp [strOf, intOf, msgOf, eq_comm]
  | [.str _] => simp [strOf, intOf, msgOf, eq_comm]
  | [.byt _] => simp [strOf, intOf, msgOf, eq_comm]
  | [.dbl _] => simp [strOf, intOf, msgOf, eq_comm]
  | [.msg _] => simp [strOf, intOf, msgOf, eq_comm]
  | v :: w :: l => simp [strOf, intOf, msgOf, eq_comm]

/-- So a lookup response with no service URL at all gives an empty address, and a producer success without a name an empty name. -/
theorem C17_absent_is_empty {v : MessageCommand} :
    (∀ r, Inbound.ofCommand v = .ok (.lookupTopicResponse r) → ∃ s, getMsg .baseCommand v.command 24 = some s ∧
      (getF .commandLookupTopicResponse s 1 = [] → getF .commandLookupTopicResponse s 2 = [] → r.getBrokerServiceUrl = "")) ∧
    (∀ r, Inbound.ofCommand v = .ok (.producerSuccess r) → ∃ s, getMsg .baseCommand v.command 17 = some s ∧
      (∀ name, getF .commandProducerSuccess s 2 = [.str name] → r.producerName = name) ∧
      (getF .commandProducerSuccess s 2 = [] → r.producerName = "")) := by
  refine ⟨fun r h => ?_, fun r h => ?_⟩
  · obtain ⟨s, h1, h2, h3⟩ := C17_service_url h
    refine ⟨s, h1, fun e1 e2 => ?_⟩
    have g1 : getStr .commandLookupTopicResponse s 1 = "" := ((C17_reads _ _ _).1 "").2 (Or.inr ⟨rfl, by simp [e1]⟩)
    have g2 : getStr .commandLookupTopicResponse s 2 = "" := ((C17_reads _ _ _).1 "").2 (Or.inr ⟨rfl, by simp [e2]⟩)
    rw [h3 g1, g2]
  · obtain ⟨_, s, h1, _, h2⟩ := (C17_classification v).1 _ h
    refine ⟨s, h1, fun name e => ?_, fun e => ?_⟩ <;> rw [h2]
    · exact ((C17_reads _ _ _).1 name).2 (Or.inl e)
    · exact ((C17_reads _ _ _).1 "").2 (Or.inr ⟨rfl, by simp [e]⟩)

/-- A command as in C17_says_its_type and C17_absent_is_empty: a producer success without a name. -/
example : ∃ v r s, Inbound.ofCommand v = .ok (.producerSuccess r) ∧ getMsg .baseCommand v.command 17 = some s ∧
    getF .commandProducerSuccess s 2 = [] :=
  ⟨⟨baseCommand 17 17 (mkMsg .commandProducerSuccess [(1, [.int 4])]), none⟩, ⟨4, ""⟩, mkMsg .commandProducerSuccess [(1, [.int 4])],
    rfl, rfl, rfl⟩

/-- A command as in C17_service_url and C17_absent_is_empty: a lookup response with two service URLs (C17_classification and C17_reads
have no hypotheses). -/
example : ∃ v r, Inbound.ofCommand v = .ok (.lookupTopicResponse r) ∧ r.getBrokerServiceUrl = "pulsar://a:6650" :=
  ⟨⟨baseCommand 24 24 (mkMsg .commandLookupTopicResponse [(1, vStr "pulsar://a:6650"), (2, vStr "pulsar+ssl://a:6651"), (3, [.int 1]),
    (4, vU64 9)]), none⟩, _, rfl, by decide⟩

/-- "None crashes the connection" is false: these commands, all of which parse (their required fields are set), panic: a send
receipt without the (optional) message id, a message without a payload section, a `SUCCESS` without its sub-command. -/
theorem C74_refuted :
    let receipt := baseCommand 7 7 (mkMsg .commandSendReceipt [(1, [.int 1]), (2, [.int 0])])
    let success := mkMsg .baseCommand [(1, [.int 13])]
    (Ser 101 .baseCommand receipt ∧ Inbound.ofCommand ⟨receipt, none⟩ = .panic) ∧
    (Ser 101 .baseCommand success ∧ Inbound.ofCommand ⟨success, none⟩ = .panic) ∧
    (Ser 101 .baseCommand (deliver ⟨[], none⟩).command ∧ Inbound.ofCommand (deliver ⟨[], none⟩) = .panic) := by
  refine ⟨⟨?_, ?_⟩, ⟨?_, ?_⟩, ?_, ?_⟩
  · exact base_ser 100 7 7 _ .commandSendReceipt (by decide) rfl (mk_ser 99 _ _ (by simp [pulsar])
      (fields_cons (ok_u64 1 _ (1 : UInt64) rfl) (fields_cons (ok_u64 2 _ (0 : UInt64) rfl) fields_nil)))
  · rw [(C17_classification _).2.2.2]
    rintro ⟨h, -⟩
    obtain ⟨s, mid, h1, h2⟩ := h (base_type _ _ _)
    rw [base_sub _ _ _ (by decide) rfl] at h1
    cases h1
    cases h2
  · exact mk_ser 100 _ _ (by simp [pulsar]) (fields_cons (ok_enum 1 _ 13 (by decide) rfl) fields_nil)
  · rw [(C17_classification _).2.2.2]
    rintro ⟨-, -, -, -, h, -⟩
    obtain ⟨s, h1⟩ := h rfl
    cases h1
  · exact deliver_ser (.single "" 0 0 []) 0
  · rw [(C17_classification _).2.2.2]
    rintro ⟨-, -, h, -⟩
    obtain ⟨-, p, h1⟩ := h (base_type _ _ _)
    cases h1

/-! ## C62 The proxy target -/

theorem trimStart_spec (p l : List Char) (hp : p ≠ []) : ∃ k, l = (List.replicate k p).flatten ++ trimStart p l ∧
    ¬ p <+: trimStart p l := by
  induction l using trimStart.induct p with
  | case1 l h ih =>
    obtain ⟨k, h1, h2⟩ := ih
    rw [trimStart, dif_pos h]
    refine ⟨k + 1, ?_, h2⟩
    rw [List.replicate_succ, List.flatten_cons, List.append_assoc, ← h1]
    exact (List.prefix_iff_eq_append.mp (List.isPrefixOf_iff_prefix.mp h.2)).symm
  | case2 l h =>
    rw [trimStart, dif_neg h]
    refine ⟨0, by simp, ?_⟩
    intro hc
    exact h ⟨hp, List.isPrefixOf_iff_prefix.mpr hc⟩

/-- `IsStripped` determines the result. -/
theorem stripped_unique (p : List Char) (_hp : p ≠ []) (a b : List Char) (j k : Nat)
    (h : (List.replicate j p).flatten ++ a = (List.replicate k p).flatten ++ b) (ha : ¬ p <+: a) (hb : ¬ p <+: b) : a = b := by
  induction j generalizing k with
  | zero =>
    cases k with
    | zero => simpa using h
    | succ k =>
      exfalso; apply ha
      simp only [List.replicate_zero, List.flatten_nil, List.nil_append, List.replicate_succ, List.flatten_cons,
        List.append_assoc] at h
      exact ⟨_, h.symm⟩
  | succ j ih =>
    cases k with
    | zero =>
      exfalso; apply hb
      simp only [List.replicate_zero, List.flatten_nil, List.nil_append, List.replicate_succ, List.flatten_cons,
        List.append_assoc] at h
      exact ⟨_, h⟩
    | succ k =>
      simp only [List.replicate_succ, List.flatten_cons, List.append_assoc, List.append_cancel_left_eq] at h
      exact ih k h

/-- For every URL: the proxy target of a connect command (its `proxy_to_broker_url`, field 6, whatever the address dialled
and the authentication data) is the URL with every leading `pulsar://` removed, and nothing else; in particular it never
starts with `pulsar://`.  Connects to a direct address carry no proxy target. -/
theorem C62_proxy_target (auth : Option Bytes) (method : Option String) (base url : String) :
    ∃ r, IsStripped url r ∧ (∀ r', IsStripped url r' → r' = r) ∧
      (∃ cc, getMsg .baseCommand (Connect.toCommand ⟨auth, method, some (.proxy base url)⟩).command 2 = some cc ∧
        getF .commandConnect cc 6 = [.str r]) ∧
      (∃ cc, getMsg .baseCommand (Connect.toCommand ⟨auth, method, some (.direct base)⟩).command 2 = some cc ∧
        getF .commandConnect cc 6 = []) := by
  obtain ⟨k, h1, h2⟩ := trimStart_spec "pulsar://".toList url.toList (by decide)
  refine ⟨String.ofList (trimStart "pulsar://".toList url.toList), ⟨k, ?_, ?_⟩, ?_, ⟨_, base_sub _ _ _ (by decide) rfl, ?_⟩,
    ⟨_, base_sub _ _ _ (by decide) rfl, ?_⟩⟩
  · rw [String.toList_ofList (l := trimStart _ _)]; exact h1
  · rw [String.toList_ofList (l := trimStart _ _)]; exact h2
  · rintro r' ⟨k', h3, h4⟩
    have := stripped_unique _ (by decide) _ _ _ _ (h1.symm.trans h3) h2 h4
    rw [this, String.ofList_toList]
  · rw [getF_mk _ _ _ rfl]
    cases auth <;> rfl
  · rw [getF_mk _ _ _ rfl]
    cases auth <;> rfl

theorem C62_unchanged (url : String) (h : ¬ "pulsar://".toList <+: url.toList) : IsStripped url url := ⟨0, by simp, h⟩

/-- What `IsStripped` says (C62_proxy_target has no hypotheses). -/
example : IsStripped "pulsar://broker:6650" "broker:6650" := ⟨1, by decide, by decide⟩

/-- A URL as in C62_unchanged. -/
example : IsStripped "pulsar+ssl://broker:6651" "pulsar+ssl://broker:6651" := C62_unchanged _ (by decide)

/-! ## C64 Eq and Hash of message ids -/

/-- Equal ids feed equal data to the hasher; and two valid ids without a first-chunk id that feed equal data are equal (so
the hash discriminates everything except chunked-message ids). -/
theorem C64_eq_hash (a b : MessageId) :
    (a = b → idHashInput a = idHashInput b) ∧
    (ValidId a → ValidId b → getF .messageIdData a 7 = [] → getF .messageIdData b 7 = [] →
      idHashInput a = idHashInput b → a = b) := by
  refine ⟨fun h => h ▸ rfl, ?_⟩
  intro ha hb h7a h7b h
  simp only [idHashInput, List.cons.injEq, and_true] at h
  obtain ⟨e1, e2, e3, e4, e5, e6⟩ := h
  refine msg_ext .messageIdData (pulsar .messageIdData) (by decide) a b (validId_length ha) (validId_length hb) ?_
  intro n
  by_cases h : n ∈ [1, 2, 3, 4, 5, 6, 7]
  · simp only [List.mem_cons, List.not_mem_nil, or_false] at h
    rcases h with rfl | rfl | rfl | rfl | rfl | rfl | rfl
    · exact e1
    · exact e2
    · exact e3
    · exact e4
    · exact e5
    · exact e6
    · exact h7a.trans h7b.symm
  · have key : ∀ (m : Msg), lookupF (pulsar .messageIdData) m n = [] := by
      intro m
      simp only [List.mem_cons, List.not_mem_nil, or_false, not_or] at h
      obtain ⟨n1, n2, n3, n4, n5, n6, n7⟩ := h
      rcases m with _ | ⟨_, _ | ⟨_, _ | ⟨_, _ | ⟨_, _ | ⟨_, _ | ⟨_, _ | ⟨_, _⟩⟩⟩⟩⟩⟩⟩ <;>
        simp [lookupF, pulsar, Ne.symm n1, Ne.symm n2, Ne.symm n3, Ne.symm n4, Ne.symm n5, Ne.symm n6, Ne.symm n7]
    rw [key, key]

/-- An id as in C64_eq_hash, C60_batch_ids, C16_ack_exact. -/
example : ValidId (withBatchIndex 3 (mkMsg .messageIdData [(1, [.int 1]), (2, [.int 2])])) ∧
    getF .messageIdData (withBatchIndex 3 (mkMsg .messageIdData [(1, [.int 1]), (2, [.int 2])])) 7 = [] :=
  ⟨validId_withBatchIndex 3 _ exampleId_valid, rfl⟩

end Neutron.Props
