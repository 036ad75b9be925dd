import Verif.Spec.Message
import Verif.Proof.MkMsg
import Verif.Proof.Framed

/-! # Outbound commands are always serialisable; inbound conversions -/

namespace Neutron

open Proto

theorem fields_cons {P : Nat × List Val → Prop} {p : Nat × List Val} {fs : List (Nat × List Val)} (h : P p)
    (hs : ∀ q ∈ fs, P q) : ∀ q ∈ p :: fs, P q := by
  intro q hq
  rcases List.mem_cons.mp hq with h' | h'
  · exact h' ▸ h
  · exact hs q h'

theorem fields_nil {P : Nat × List Val → Prop} : ∀ q ∈ ([] : List (Nat × List Val)), P q := by simp

/-- A set field whose values are right for its declaration. -/
def FieldOk (k : Nat) (t : MsgTy) (p : Nat × List Val) : Prop :=
  ∃ d0, (pulsar t).find? (fun e => e.num == p.1) = some d0 ∧ wtField (wellTyped pulsar k) d0 p.2 = true ∧
    p.2 ≠ [] ∧ initVals pulsar d0 p.2 = true

theorem mk_ser (k : Nat) (t : MsgTy) (fs : List (Nat × List Val))
    (h0 : (pulsar t).all (fun d => d.label != .required || fs.any (fun p => p.1 == d.num)) = true)
    (h1 : ∀ p ∈ fs, FieldOk k t p) : Ser (k + 1) t (mkMsg t fs) :=
  ⟨mk_wellTyped k t fs fun p hp => (h1 p hp).imp fun _ h => ⟨h.1, h.2.1⟩,
   mk_init t fs h0 fun p hp => (h1 p hp).imp fun _ h => ⟨h.1, h.2.2.1, h.2.2.2⟩⟩

theorem ok_u64 {k : Nat} {t : MsgTy} (n : Nat) (l : Label) (x : UInt64)
    (hf : (pulsar t).find? (fun e => e.num == n) = some ⟨n, l, .u64⟩) : FieldOk k t (n, vU64 x) :=
  ⟨_, hf, wt_u64 _ _ _ _, by simp [vU64], init_u64 _ _ _⟩

theorem ok_str {k : Nat} {t : MsgTy} (n : Nat) (l : Label) (x : String)
    (hf : (pulsar t).find? (fun e => e.num == n) = some ⟨n, l, .str⟩) : FieldOk k t (n, vStr x) :=
  ⟨_, hf, wt_str _ _ _ _, by simp [vStr], init_str _ _ _⟩

theorem ok_bytes {k : Nat} {t : MsgTy} (n : Nat) (l : Label) (x : Bytes)
    (hf : (pulsar t).find? (fun e => e.num == n) = some ⟨n, l, .byt⟩) : FieldOk k t (n, vBytes x) :=
  ⟨_, hf, wt_bytes _ _ _ _, by simp [vBytes], init_bytes _ _ _⟩

theorem ok_i32 {k : Nat} {t : MsgTy} (n : Nat) (l : Label) (x : Int) (hx : -2147483648 ≤ x ∧ x < 2147483648)
    (hf : (pulsar t).find? (fun e => e.num == n) = some ⟨n, l, .i32⟩) : FieldOk k t (n, [.int x]) :=
  ⟨_, hf, wt_i32 _ _ _ _ hx, by simp, init_int _ _ _⟩

theorem ok_enum {k : Nat} {t : MsgTy} (n : Nat) (l : Label) (x : Int) (hx : -2147483648 ≤ x ∧ x < 2147483648)
    (hf : (pulsar t).find? (fun e => e.num == n) = some ⟨n, l, .enum⟩) : FieldOk k t (n, [.int x]) :=
  ⟨_, hf, wt_enum _ _ _ _ hx, by simp, init_int _ _ _⟩

theorem ok_u32 {k : Nat} {t : MsgTy} (n : Nat) (l : Label) (x : UInt32)
    (hf : (pulsar t).find? (fun e => e.num == n) = some ⟨n, l, .u32⟩) : FieldOk k t (n, [.int x.toNat]) :=
  ⟨_, hf, wt_u32 _ _ _ _, by simp, init_int _ _ _⟩

theorem ok_msg {k : Nat} {t : MsgTy} (n : Nat) (l : Label) (t' : MsgTy) (m : Msg) (h : Ser k t' m)
    (hf : (pulsar t).find? (fun e => e.num == n) = some ⟨n, l, .msg t'⟩) : FieldOk k t (n, vMsg m) :=
  ⟨_, hf, wt_msg _ _ _ _ _ h.1, by simp [vMsg], init_msg _ _ _ _ _ h.2⟩

theorem base_ser (k : Nat) (ty : Int) (field : Nat) (sub : Msg) (t : MsgTy) (hty : -2147483648 ≤ ty ∧ ty < 2147483648)
    (hf : (pulsar .baseCommand).find? (fun e => e.num == field) = some ⟨field, .optional, .msg t⟩)
    (h : Ser k t sub) : Ser (k + 1) .baseCommand (baseCommand ty field sub) :=
  base_ok k ty field sub t hty hf h.1 h.2

theorem initVals_map (n : Nat) (l : Label) (t : MsgTy) (ms : List Msg) (h : ∀ m ∈ ms, initMsg pulsar (pulsar t) m = true) :
    initVals pulsar ⟨n, l, .msg t⟩ (ms.map .msg) = true := by
  induction ms with
  | nil => simp [initVals]
  | cons m ms ih =>
    simp only [List.map_cons, initVals, initVal, h m (by simp), Bool.true_and]
    exact ih fun x hx => h x (List.mem_cons_of_mem _ hx)

theorem ok_msgs {k : Nat} {t : MsgTy} (n : Nat) (t' : MsgTy) (ms : List Msg) (hne : ms ≠ []) (h : ∀ m ∈ ms, Ser k t' m)
    (hf : (pulsar t).find? (fun e => e.num == n) = some ⟨n, .repeated, .msg t'⟩) : FieldOk k t (n, ms.map .msg) := by
  refine ⟨_, hf, ?_, by simpa using hne, initVals_map _ _ _ _ fun m hm => (h m hm).2⟩
  simp only [wtField, decide_true, Bool.true_or, Bool.true_and, List.all_map, List.all_eq_true, Function.comp]
  intro m hm
  simp [wtVal, (h m hm).1]

/-! ## Every outbound command -/

theorem ping_ser : Ser 101 .baseCommand pingCommand.command :=
  base_ser 100 18 18 _ _ (by decide) rfl (mk_ser 99 _ _ (by decide) fields_nil)

theorem pong_ser : Ser 101 .baseCommand pongCommand.command :=
  base_ser 100 19 19 _ _ (by decide) rfl (mk_ser 99 _ _ (by decide) fields_nil)

theorem connect_ser (c : Connect) : Ser 101 .baseCommand c.toCommand.command := by
  refine base_ser 100 2 2 _ .commandConnect (by decide) rfl (mk_ser 99 _ _ ?_ ?_)
  · simp [pulsar]
  · intro p hp
    simp only [List.mem_append] at hp
    rcases hp with (hp | hp) | hp
    · revert p
      exact fields_cons (ok_str 1 _ _ rfl) (fields_cons (ok_i32 4 _ _ (by decide) rfl) fields_nil)
    · revert p
      cases c.authData with
      | none => exact fields_nil
      | some v => exact fields_cons (ok_str 5 _ _ rfl) (fields_cons (ok_bytes 3 _ _ rfl) fields_nil)
    · revert p
      cases c.brokerAddress.bind BrokerAddress.getProxy with
      | none => exact fields_nil
      | some v => exact fields_cons (ok_str 6 _ _ rfl) fields_nil

theorem lookup_ser (l : LookupTopic) : Ser 101 .baseCommand l.toCommand.command :=
  base_ser 100 23 23 _ .commandLookupTopic (by decide) rfl (mk_ser 99 _ _ (by simp [pulsar])
    (fields_cons (ok_str 1 _ _ rfl) (fields_cons (ok_u64 2 _ _ rfl) fields_nil)))

theorem auth_ser (a : AuthChallenge) : Ser 101 .baseCommand a.toCommand.command :=
  base_ser 100 36 37 _ .commandAuthResponse (by decide) rfl (mk_ser 99 _ _ (by simp [pulsar])
    (fields_cons (ok_msg 2 _ .authData _ (mk_ser 98 _ _ (by simp [pulsar])
      (fields_cons (ok_str 1 _ _ rfl) (fields_cons (ok_bytes 2 _ _ rfl) fields_nil))) rfl) fields_nil))

theorem flow_ser (f : Flow) : Ser 101 .baseCommand f.toCommand.command :=
  base_ser 100 11 11 _ .commandFlow (by decide) rfl (mk_ser 99 _ _ (by simp [pulsar])
    (fields_cons (ok_u64 1 _ _ rfl) (fields_cons (ok_u32 2 _ _ rfl) fields_nil)))

theorem subscribe_ser (s : Subscribe) : Ser 101 .baseCommand s.toCommand.command :=
  base_ser 100 4 4 _ .commandSubscribe (by decide) rfl (mk_ser 99 _ _ (by simp [pulsar])
    (fields_cons (ok_str 1 _ _ rfl) (fields_cons (ok_str 2 _ _ rfl)
      (fields_cons (ok_enum 3 _ _ (by cases s.subType <;> decide) rfl)
        (fields_cons (ok_u64 4 _ _ rfl) (fields_cons (ok_u64 5 _ _ rfl) fields_nil))))))

theorem producer_ser (p : ProducerCmd) : Ser 101 .baseCommand p.toCommand.command := by
  refine base_ser 100 5 5 _ .commandProducer (by decide) rfl (mk_ser 99 _ _ (by simp [pulsar]) ?_)
  intro q hq
  simp only [List.mem_append] at hq
  rcases hq with hq | hq
  · revert q
    exact fields_cons (ok_u64 2 _ _ rfl) (fields_cons (ok_u64 3 _ _ rfl) (fields_cons (ok_str 1 _ _ rfl) fields_nil))
  · revert q
    cases p.producerName with
    | none => exact fields_nil
    | some n => exact fields_cons (ok_str 4 _ _ rfl) fields_nil

theorem validId_ser {m : MessageId} : ValidId m ↔ Ser 99 .messageIdData m := by
  unfold ValidId Ser
  rw [hasRequired_iff]

theorem ack_ser (acks : List Ack) (hne : acks ≠ []) (hv : ∀ a ∈ acks, ValidId a.messageId) :
    ∃ mc, ackToCommand acks = .ok mc ∧ Ser 101 .baseCommand mc.command ∧ mc.payload = none := by
  cases acks with
  | nil => simp at hne
  | cons a as =>
    refine ⟨_, rfl, ?_, rfl⟩
    refine base_ser 100 10 10 _ .commandAck (by decide) rfl (mk_ser 99 _ _ (by simp [pulsar]) ?_)
    refine fields_cons (ok_u64 1 _ _ rfl) (fields_cons (ok_enum 2 _ _ (by split <;> decide) rfl) (fields_cons ?_
      (fields_cons (ok_u64 8 _ _ rfl) fields_nil)))
    have := ok_msgs (k := 99) (t := .commandAck) 3 .messageIdData ((a :: as).map (·.messageId)) (by simp)
      (by
        intro m hm
        rw [List.mem_map] at hm
        obtain ⟨x, hx, rfl⟩ := hm
        exact validId_ser.mp (hv x hx)) rfl
    rw [List.map_map] at this
    exact this

theorem metadata_ser (s : Send) (now : UInt64) : Ser 101 .messageMetadata (mkMsg .messageMetadata
    [(1, vStr s.producerName), (2, vU64 s.sequenceId), (3, vU64 now), (12, vU64 now), (11, [.int (asI32 s.numberOfMessages)])]) :=
  mk_ser 100 _ _ (by simp [pulsar]) (fields_cons (ok_str 1 _ _ rfl) (fields_cons (ok_u64 2 _ _ rfl)
    (fields_cons (ok_u64 3 _ _ rfl) (fields_cons (ok_u64 12 _ _ rfl)
      (fields_cons (ok_i32 11 _ _ (asI32_range _) rfl) fields_nil)))))

theorem send_ser (s : Send) : Ser 101 .baseCommand (baseCommand 6 6 (mkMsg .commandSend
    [(1, vU64 s.producerId), (2, vU64 s.sequenceId), (3, [.int (asI32 s.numberOfMessages)])])) :=
  base_ser 100 6 6 _ .commandSend (by decide) rfl (mk_ser 99 _ _ (by simp [pulsar])
    (fields_cons (ok_u64 1 _ _ rfl) (fields_cons (ok_u64 2 _ _ rfl)
      (fields_cons (ok_i32 3 _ _ (asI32_range _) rfl) fields_nil))))

/-- The metadata of one batch entry. -/
def entryMeta (n : Nat) : Msg := mkMsg .singleMessageMetadata [(3, [.int (asI32 n)])]

theorem entryMeta_ser (n : Nat) : Ser 101 .singleMessageMetadata (entryMeta n) :=
  mk_ser 100 _ _ (by simp [pulsar]) (fields_cons (ok_i32 3 _ _ (asI32_range _) rfl) fields_nil)

theorem write_ser {t : MsgTy} {m : Msg} {k : Nat} (h : Ser k t m) : writeToBytes pulsar t m = some (encMsg pulsar (pulsar t) m) := by
  unfold writeToBytes
  rw [if_pos h.2]

/-- The bytes of one batch entry. -/
def entryBytes (p : Bytes) : Bytes :=
  let md := encMsg pulsar (pulsar .singleMessageMetadata) (entryMeta p.length)
  be32 md.length ++ md ++ p

theorem batchEntry_eq (p : Bytes) : Send.batchEntry p = .ok (entryBytes p) := by
  unfold Send.batchEntry
  dsimp only
  rw [show mkMsg .singleMessageMetadata [(3, [.int (asI32 p.length)])] = entryMeta p.length from rfl,
    write_ser (entryMeta_ser p.length), Outcome.unwrap_some, Outcome.bind_ok]
  unfold entryBytes Codec.asU32 computeSize
  rw [be32_mod]
  rfl

theorem batchEntries_eq (ps : List Bytes) : Send.batchEntries ps = .ok (ps.map entryBytes).flatten := by
  induction ps with
  | nil => rfl
  | cons p ps ih => simp [Send.batchEntries, batchEntry_eq, ih]

/-- Payload bytes of a send. -/
def Send.payloadBytes : Send → Bytes
  | .single _ _ _ p => p
  | .batch _ _ _ ps => (ps.map entryBytes).flatten

theorem Send.payload_eq (s : Send) : s.payload = .ok s.payloadBytes := by
  cases s with
  | single => rfl
  | batch n i q ps => exact batchEntries_eq ps

/-- The protobuf command of a send. -/
def Send.asCommand (now : UInt64) (s : Send) : MessageCommand :=
  ⟨baseCommand 6 6 (mkMsg .commandSend
    [(1, vU64 s.producerId), (2, vU64 s.sequenceId), (3, [.int (asI32 s.numberOfMessages)])]),
   some ⟨mkMsg .messageMetadata
    [(1, vStr s.producerName), (2, vU64 s.sequenceId), (3, vU64 now), (12, vU64 now), (11, [.int (asI32 s.numberOfMessages)])],
    s.payloadBytes⟩⟩

theorem Send.toCommand_eq (now : UInt64) (s : Send) : s.toCommand now = .ok (s.asCommand now) := by
  unfold Send.toCommand
  rw [Send.payload_eq]
  rfl

/-- Every command the API can produce converts to a serialisable protobuf command. -/
theorem toCommand_ok (now : UInt64) (o : Outbound) (ho : o.Valid) :
    ∃ mc, o.toCommand now = .ok mc ∧ Ser 101 .baseCommand mc.command ∧
      ∀ p, mc.payload = some p → Ser 101 .messageMetadata p.metadata := by
  cases o with
  | pong => exact ⟨_, rfl, pong_ser, by simp [pongCommand]⟩
  | ping => exact ⟨_, rfl, ping_ser, by simp [pingCommand]⟩
  | connect c => exact ⟨_, rfl, connect_ser c, by simp [Connect.toCommand]⟩
  | send s =>
    refine ⟨_, Send.toCommand_eq now s, send_ser s, ?_⟩
    intro p hp
    cases hp
    exact metadata_ser s now
  | ack a =>
    obtain ⟨mc, h1, h2, h3⟩ := ack_ser a ho.1 ho.2
    exact ⟨mc, h1, h2, by simp [h3]⟩
  | lookupTopic l => exact ⟨_, rfl, lookup_ser l, by simp [LookupTopic.toCommand]⟩
  | subscribe s => exact ⟨_, rfl, subscribe_ser s, by simp [Subscribe.toCommand]⟩
  | authChallenge a => exact ⟨_, rfl, auth_ser a, by simp [AuthChallenge.toCommand]⟩
  | flow f => exact ⟨_, rfl, flow_ser f, by simp [Flow.toCommand]⟩
  | producer p => exact ⟨_, rfl, producer_ser p, by simp [ProducerCmd.toCommand]⟩

theorem parts_serialises (mc : MessageCommand) (h1 : Ser 101 .baseCommand mc.command)
    (h2 : ∀ p, mc.payload = some p → Ser 101 .messageMetadata p.metadata) :
    Frame.Serialises mc mc.parts.1 mc.parts.2 := by
  obtain ⟨c, pl⟩ := mc
  refine ⟨write_ser h1, ?_⟩
  cases pl with
  | none => simp [MessageCommand.parts]
  | some p => exact ⟨write_ser (h2 p rfl), rfl⟩

theorem parts_sendable (mc : MessageCommand) (h1 : Ser 101 .baseCommand mc.command)
    (h2 : ∀ p, mc.payload = some p → Ser 101 .messageMetadata p.metadata)
    (hs : Frame.size mc.parts.1 mc.parts.2 < 4294967296) : Frame.Sendable mc mc.parts.1 mc.parts.2 :=
  ⟨h1.1, fun p hp => (h2 p hp).1, parts_serialises mc h1 h2, hs⟩

/-- If the command's frame fits, the bytes written read back as exactly that command. -/
theorem wire_reads (oc : Bool) (mc : MessageCommand) (h1 : Ser 101 .baseCommand mc.command)
    (h2 : ∀ p, mc.payload = some p → Ser 101 .messageMetadata p.metadata)
    (hs : Frame.size mc.parts.1 mc.parts.2 < 4294967296) :
    ∃ frame, Codec.encode oc mc = .ok frame ∧ ReadsAs frame mc := by
  have h := parts_sendable mc h1 h2 hs
  refine ⟨Frame.layout mc.parts.1 mc.parts.2, Codec.encode_layout oc mc _ _ h.serialises hs, ?_⟩
  exact Framed.isFrame_of h

/-! ## Batches -/

attribute [local irreducible] parseFromBytes writeToBytes be32 in
theorem batchedPayload_entry (p rest : Bytes) (h : p.length < 2147483648) :
    batchedPayload (entryBytes p ++ rest) = some (rest, ⟨entryMeta p.length, p⟩) := by
  have hser := entryMeta_ser p.length
  have hget : getF .singleMessageMetadata (entryMeta p.length) 3 = [.int (p.length : Int)] := by
    unfold entryMeta
    rw [getF_mk _ _ _ (by decide), asI32_small h]; rfl
  have hlen : (encMsg pulsar (pulsar .singleMessageMetadata) (entryMeta p.length)).length < 4294967296 := by
    simp only [entryMeta, mkMsg, pulsar, List.map, List.lookup, Option.getD, encMsg, encVals, encVal, encRaw, Raw.body,
      Raw.wireType, Nat.reduceBEq, Nat.reduceAdd, Nat.reduceMul, List.append_nil, List.nil_append, List.length_append]
    have hv : ∀ n, (varint n).length ≤ 10 := by
      intro n
      have : ∀ k n, (varintF k n).length ≤ k + 1 := by
        intro k
        induction k with
        | zero => intro n; simp [varintF]
        | succ k ih => intro n; simp only [varintF]; split <;> simp; exact ih _
      exact this 9 n
    have h1 := hv 24
    have h2 := hv (toWire (asI32 p.length))
    omega
  have hp := parse_write pulsar pulsar_good .singleMessageMetadata (entryMeta p.length) _ hser.1 (write_ser hser) (by omega)
  unfold batchedPayload entryBytes
  dsimp only
  rw [List.append_assoc, List.append_assoc, readBe32_be32 _ _ hlen]
  simp only [Option.bind_eq_bind, Option.bind_some]
  rw [takeN_append]
  simp only [Option.bind_some]
  rw [hp]
  simp only [Option.bind_some, hget, intOf, Option.getD_some]
  rw [if_pos (by omega)]
  simp only [Int.toNat_natCast, takeN_append, Option.bind_some, Option.pure_def]

theorem countBatched_entries (ps : List Bytes) (rest : Bytes) (h : ∀ p ∈ ps, p.length < 2147483648) :
    countBatched ps.length ((ps.map entryBytes).flatten ++ rest) =
      some (rest, ps.map fun p => ⟨entryMeta p.length, p⟩) := by
  induction ps with
  | nil => rfl
  | cons p ps ih =>
    simp only [List.length_cons, countBatched, List.map_cons, List.flatten_cons, List.append_assoc]
    rw [batchedPayload_entry p _ (h p (by simp))]
    simp only [Option.bind_eq_bind, Option.bind_some]
    rw [ih fun q hq => h q (List.mem_cons_of_mem _ hq)]
    rfl

/-! ## Resolver keys -/

theorem repr_inj {a b : Nat} (h : Nat.repr a = Nat.repr b) : a = b := by
  simp only [Nat.repr] at h
  have h2 := congrArg String.toList h
  simp only [String.toList_ofList] at h2
  have := congrArg (fun l => Nat.ofDigitChars 10 l 0) h2
  simpa using this

end Neutron
