import Verif.Props.Wire

/-!
# C109: any conforming protobuf encoding is read as what it says

`Spec/ProtoFormat.lean` says, independently of the parser, which byte strings encode which message.
-/

namespace Neutron.Props

open Proto Frame Framed

/-! ## C109 -/

/-- Whatever message a peer encodes and however it encodes it - fields in any order, numbers with padding bytes, lists packed or not,
fields this client does not know in between, values set twice - the parser returns exactly that message, provided the required fields
are there; and it accepts nothing else. -/
theorem C109_any_encoding (t : MsgTy) (bs : Bytes) (m : Msg) :
    parseFromBytes pulsar t bs = some m ↔ Format.Encodes pulsar 101 t bs m ∧ HasRequired pulsar t m :=
  Format.parse_iff pulsar pulsar_good t bs m

/-- What this client writes is such an encoding: any peer reading by the same description gets exactly the message written. -/
theorem C109_written_is_standard (t : MsgTy) (m : Msg) (bs : Bytes) (h : wellTyped pulsar maxDepth t m = true)
    (hw : writeToBytes pulsar t m = some bs) (hl : bs.length < 18446744073709551616) :
    Format.Encodes pulsar 101 t bs m ∧ ∀ m', Format.Encodes pulsar 101 t bs m' → m' = m := by
  have hp := parse_write pulsar pulsar_good t m bs h hw hl
  have h1 := ((C109_any_encoding t bs m).mp hp).1
  refine ⟨h1, fun m' h' => ?_⟩
  have e1 := (Format.decodeF_iff pulsar_good 101 t bs m).mpr h1
  have e2 := (Format.decodeF_iff pulsar_good 101 t bs m').mpr h'
  rw [e1] at e2
  exact (Option.some.inj e2).symm

/-- A byte string encodes at most one message: the description is unambiguous. -/
theorem C109_unambiguous (k : Nat) (t : MsgTy) (bs : Bytes) (m m' : Msg) (h : Format.Encodes pulsar k t bs m)
    (h' : Format.Encodes pulsar k t bs m') : m = m' := by
  have e1 := (Format.decodeF_iff pulsar_good k t bs m).mpr h
  rw [(Format.decodeF_iff pulsar_good k t bs m').mpr h'] at e1
  exact (Option.some.inj e1).symm

/-- The same for frames: whatever frame a peer sends for a command - any encodings, any checksum - followed by anything, the decoder
yields exactly that command and leaves exactly what followed. -/
theorem C109_any_frame (item : MessageCommand) (bytes : Bytes) (h : IsFrame (item, bytes)) (rest : Bytes) :
    Codec.decode (bytes ++ rest) = .ok (some (item, rest)) := h.decode rest

/-! ### A concrete case -/

namespace EncodingExample

/-- Ledger 1, entry 5, written as: an unknown field 15 (varint 9), entry id 7, the ledger id with two padding bytes, the entry id again, now 5. -/
def bytes : Bytes := [0x78, 9, 0x10, 7, 0x08, 0x81, 0x80, 0x00, 0x10, 5]

def fields : List (Nat × Raw) := [(15, .varint 9), (2, .varint 7), (1, .varint 1), (2, .varint 5)]

theorem fields_of : Format.IsFields bytes fields := by
  have one : ∀ b : UInt8, b.toNat < 128 → Format.IsVarint [b] b.toNat := fun b hb => ⟨_, .last b hb, by simp, by omega⟩
  have pad : Format.IsVarint [0x81, 0x80, 0x00] 1 :=
    ⟨_, .more 0x81 _ _ (by decide) (.more 0x80 _ _ (by decide) (.last 0 (by decide))), by decide, rfl⟩
  exact .cons (fb := [0x78, 9]) (.varint (tb := [0x78]) (vb := [9]) ⟨one 0x78 (by decide), by decide, by decide⟩ (one 9 (by decide)))
    (.cons (fb := [0x10, 7]) (.varint (tb := [0x10]) (vb := [7]) ⟨one 0x10 (by decide), by decide, by decide⟩ (one 7 (by decide)))
      (.cons (fb := [0x08, 0x81, 0x80, 0x00]) (.varint (tb := [0x08]) ⟨one 0x08 (by decide), by decide, by decide⟩ pad)
        (.cons (fb := [0x10, 5]) (bs := []) (.varint (tb := [0x10]) (vb := [5]) ⟨one 0x10 (by decide), by decide, by decide⟩ (one 5 (by decide))) .nil)))

/-- Not what this client would write for that id, but read as that id (an encoding as in C109_any_encoding and C109_unambiguous). -/
example : ∃ m, parseFromBytes pulsar .messageIdData bytes = some m ∧ writeToBytes pulsar .messageIdData m ≠ some bytes ∧
    lookupF (pulsar .messageIdData) m 1 = [.int 1] ∧ lookupF (pulsar .messageIdData) m 2 = [.int 5] := by
  have hm : parseFromBytes pulsar .messageIdData bytes = some [[.int 1], [.int 5], [], [], [], [], []] := by
    refine (C109_any_encoding _ _ _).mpr ⟨⟨fields, fields_of, ?_⟩, (hasRequired_iff _ _ _).mp (by simp [initMsg, initVals, initVal, pulsar])⟩
    refine .cons ⟨[[.int 1]], .cons (.number (.u64 1)) .nil, rfl⟩ (.cons ⟨[[.int 7], [.int 5]], .cons (.number (.u64 7)) (.cons (.number (.u64 5)) .nil), rfl⟩ ?_)
    exact .cons ⟨[], .nil, rfl⟩ (.cons ⟨[], .nil, rfl⟩ (.cons ⟨[], .nil, rfl⟩ (.cons ⟨[], .nil, rfl⟩ (.cons ⟨[], .nil, rfl⟩ .nil))))
  refine ⟨_, hm, ?_, rfl, rfl⟩
  intro h
  have hl : writeToBytes pulsar .messageIdData [[.int 1], [.int 5], [], [], [], [], []] = some [0x08, 1, 0x10, 5] := by
    simp [writeToBytes, initMsg, initVals, initVal, pulsar, encMsg, encVals, encVal, encRaw, Raw.wireType, Raw.body, toWire, Proto.varint, varintF]
  rw [hl] at h
  exact absurd (Option.some.inj h) (by decide)

end EncodingExample
end Neutron.Props
