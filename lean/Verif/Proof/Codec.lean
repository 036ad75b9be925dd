import Verif.Spec.Frame
import Verif.Proof.ProtoWire
import Verif.Proof.Crc

/-! # The codec writes the specified layout and reads it back -/

namespace Neutron

open Proto

theorem be32_length (n : Nat) : (be32 n).length = 4 := rfl
theorem be16_length (n : Nat) : (be16 n).length = 2 := rfl

theorem readBe32_be32 (n : Nat) (rest : Bytes) (h : n < 4294967296) : readBe32 (be32 n ++ rest) = some (n, rest) := by
  simp only [be32, List.cons_append, List.nil_append, readBe32, UInt8.toNat_ofNat', Option.some.injEq, Prod.mk.injEq,
    and_true]
  omega

theorem be32_mod (n : Nat) : be32 (n % 4294967296) = be32 n := by
  have key : ∀ a b : Nat, a % 256 = b % 256 → UInt8.ofNat a = UInt8.ofNat b := by
    intro a b h
    apply UInt8.toNat_inj.mp
    simpa [UInt8.toNat_ofNat'] using h
  unfold be32
  rw [key (n % 4294967296 / 16777216) (n / 16777216) (by omega), key (n % 4294967296 / 65536) (n / 65536) (by omega),
    key (n % 4294967296 / 256) (n / 256) (by omega), key (n % 4294967296) n (by omega)]

theorem be32_inj {a b : Nat} (ha : a < 4294967296) (hb : b < 4294967296) (h : be32 a = be32 b) : a = b := by
  have h1 := readBe32_be32 a [] ha
  have h2 := readBe32_be32 b [] hb
  rw [h, h2] at h1
  simpa using h1.symm

theorem readBe32_none {bs : Bytes} : readBe32 bs = none ↔ bs.length < 4 := by
  match bs with
  | [] => simp [readBe32]
  | [_] => simp [readBe32]
  | [_, _] => simp [readBe32]
  | [_, _, _] => simp [readBe32]
  | _ :: _ :: _ :: _ :: _ => simp [readBe32]

theorem readBe32_prefix {bs : Bytes} {n : Nat} {r : Bytes} (h : readBe32 bs = some (n, r)) :
    bs = bs.take 4 ++ r ∧ n < 4294967296 := by
  match bs, h with
  | a :: b :: c :: d :: t, h =>
    simp [readBe32] at h
    have := a.toNat_lt; have := b.toNat_lt; have := c.toNat_lt; have := d.toNat_lt
    refine ⟨by simp [h.2], by omega⟩

theorem takeN_append (a b : Bytes) : takeN a.length (a ++ b) = some (a, b) := by
  simp [takeN]

theorem write_length {S : Schema} {t : MsgTy} {m : Msg} {bs : Bytes} (h : writeToBytes S t m = some bs) :
    computeSize S t m = bs.length := by
  unfold writeToBytes at h
  split at h
  · cases h; rfl
  · simp at h

namespace Codec

open Frame

theorem addU32_ok (oc : Bool) {a b : Nat} (h : a + b < 4294967296) : addU32 oc a b = .ok (a + b) := by
  simp [addU32, h]

theorem subU32_ok (oc : Bool) {a b : Nat} (h : b ≤ a) : subU32 oc a b = .ok (a - b) := by
  simp [subU32, h]

theorem asU32_ok {n : Nat} (h : n < 4294967296) : asU32 n = n := Nat.mod_eq_of_lt h

theorem encodePayload_eq (p : Payload) (md : Bytes) (h : writeToBytes pulsar .messageMetadata p.metadata = some md) :
    encodePayload p = .ok ([0x0e, 0x01] ++ be32 (Crc.crc32c (be32 md.length ++ md ++ p.data))
      ++ (be32 md.length ++ md ++ p.data)) := by
  unfold encodePayload
  rw [h, write_length h]
  simp only [Outcome.unwrap_some, Outcome.bind_ok, Outcome.pure_eq, asU32, be32_mod]
  have hd : (be16 0x0e01 ++ be32 0 ++ be32 md.length ++ md ++ p.data).drop 6 = be32 md.length ++ md ++ p.data := by
    simp [be16, be32]
  have ht : (be16 0x0e01 ++ be32 0 ++ be32 md.length ++ md ++ p.data).take 2 = [0x0e, 0x01] := by
    simp [be16]
  rw [hd, ht]

/-- Within the 32-bit limit the encoder writes exactly the specified layout. -/
theorem encode_layout (oc : Bool) (item : MessageCommand) (cmd : Bytes) (pl : Option (Bytes × Bytes))
    (hs : Serialises item cmd pl) (hf : size cmd pl < 4294967296) : encode oc item = .ok (layout cmd pl) := by
  obtain ⟨command, payload⟩ := item
  obtain ⟨hc, hp⟩ := hs
  simp only at hc hp
  unfold encode
  simp only [hc, Outcome.unwrap_some, Outcome.bind_ok, write_length hc]
  cases payload with
  | none =>
    cases pl with
    | some x => simp at hp
    | none =>
      simp only [size] at hf
      rw [asU32_ok (by omega)]
      simp only [Option.isSome_none, Bool.false_eq_true, if_false]
      rw [addU32_ok oc (by omega)]
      simp only [Outcome.bind_ok]
      rw [addU32_ok oc (by omega)]
      simp only [Outcome.bind_ok]
      rw [addU32_ok oc (by omega)]
      simp only [Outcome.bind_ok]
      rw [subU32_ok oc (by omega)]
      simp only [Outcome.bind_ok, Outcome.pure_eq, layout]
      rw [show cmd.length + 0 + 0 + 8 - 4 = 4 + cmd.length by omega]
  | some p =>
    cases pl with
    | none => simp at hp
    | some x =>
      obtain ⟨md, data⟩ := x
      simp only at hp
      obtain ⟨hm, rfl⟩ := hp
      simp only [size] at hf
      rw [asU32_ok (show cmd.length < 4294967296 by omega)]
      simp only [Option.isSome_some, if_true, write_length hm]
      rw [asU32_ok (show md.length < 4294967296 by omega), asU32_ok (show p.data.length < 4294967296 by omega)]
      rw [addU32_ok oc (by omega)]
      simp only [Outcome.bind_ok]
      rw [addU32_ok oc (by omega)]
      simp only [Outcome.bind_ok]
      rw [addU32_ok oc (by omega)]
      simp only [Outcome.bind_ok]
      rw [subU32_ok oc (by omega)]
      simp only [Outcome.bind_ok, encodePayload_eq p md hm, Outcome.pure_eq, layout]
      rw [show cmd.length + md.length + p.data.length + 18 - 4
        = 4 + cmd.length + 2 + 4 + (4 + md.length + p.data.length) by omega]
      simp

theorem layout_length (cmd : Bytes) (pl : Option (Bytes × Bytes)) : (layout cmd pl).length = size cmd pl := by
  cases pl with
  | none => simp [layout, size, be32]; omega
  | some x => obtain ⟨md, data⟩ := x; simp [layout, size, be32]; omega

/-- The first four bytes of a frame announce the number of bytes after them. -/
theorem layout_head (cmd : Bytes) (pl : Option (Bytes × Bytes)) :
    ∃ tail, layout cmd pl = be32 (size cmd pl - 4) ++ tail ∧ tail.length = size cmd pl - 4 := by
  cases pl with
  | none => exact ⟨be32 cmd.length ++ cmd, by
      simp only [layout, size, List.append_assoc]; rw [show 4 + cmd.length = 8 + cmd.length - 4 by omega], by
      simp [size, be32]; omega⟩
  | some x =>
    obtain ⟨md, data⟩ := x
    refine ⟨be32 cmd.length ++ cmd ++ [0x0e, 0x01] ++ be32 (Crc.crc32c (be32 md.length ++ md ++ data)) ++
      (be32 md.length ++ md ++ data), ?_, ?_⟩
    · simp only [layout, size, List.append_assoc]
      rw [show 4 + cmd.length + 2 + 4 + (4 + md.length + data.length) = 18 + cmd.length + md.length + data.length - 4 by
        omega]
    · simp [size, be32]; omega

theorem layout_eq_withChecksum (cmd md data : Bytes) :
    layout cmd (some (md, data)) = layoutWithChecksum (Crc.crc32c (be32 md.length ++ md ++ data)) cmd md data := rfl

attribute [local irreducible] parseFromBytes writeToBytes be32 be16

theorem readBe16_magic (rest : Bytes) : readBe16 ([0x0e, 0x01] ++ rest) = some (0x0e01, rest) := rfl

theorem payloadFrame_eq (c : Nat) (md data : Bytes) (hc : c < 4294967296) (hm : md.length < 4294967296) :
    payloadFrame ([0x0e, 0x01] ++ (be32 c ++ (be32 md.length ++ (md ++ data)))) =
      some (data, PayloadFrame.mk 0x0e01 c md.length md) := by
  unfold payloadFrame
  rw [readBe16_magic, Option.bind_eq_bind, Option.bind_some]
  simp only
  rw [readBe32_be32 _ _ hc, Option.bind_eq_bind, Option.bind_some]
  simp only
  rw [readBe32_be32 _ _ hm, Option.bind_some]
  simp only
  rw [takeN_append, Option.bind_some]
  rfl

/-- What the decoder makes of a payload frame, whatever its checksum field says. -/
theorem decodeFrame_withChecksum (c : Nat) (hc : c < 4294967296) (item : MessageCommand) (p : Payload) (cmd md : Bytes)
    (hp : item.payload = some p)
    (hcmd : parseFromBytes pulsar .baseCommand cmd = some item.command)
    (hmd : parseFromBytes pulsar .messageMetadata md = some p.metadata)
    (hf : size cmd (some (md, p.data)) < 4294967296) :
    decodeFrame (layoutWithChecksum c cmd md p.data) = .ok item := by
  obtain ⟨command, payload⟩ := item
  simp only at hp hcmd
  subst hp
  simp only [size] at hf
  have hcf : commandFrame (layoutWithChecksum c cmd md p.data) =
      .ok ([0x0e, 0x01] ++ (be32 c ++ (be32 md.length ++ (md ++ p.data))), cmd) := by
    unfold commandFrame layoutWithChecksum
    simp only [List.append_assoc]
    rw [readBe32_be32 _ _ (by omega), Outcome.unwrap_some, Outcome.bind_ok]
    simp only
    rw [readBe32_be32 _ _ (by omega), Outcome.unwrap_some, Outcome.bind_ok]
    simp only
    rw [takeN_append, Outcome.unwrap_some, Outcome.bind_ok]
    rfl
  unfold decodeFrame
  rw [hcf, Outcome.bind_ok]
  simp only
  rw [hcmd, Outcome.unwrap_some, Outcome.bind_ok]
  have hpf := payloadFrame_eq c md p.data hc (by omega)
  have hne : ([0x0e, 0x01] ++ (be32 c ++ (be32 md.length ++ (md ++ p.data))) : Bytes).isEmpty = false := by
    rw [List.cons_append]; exact List.isEmpty_cons
  generalize ([0x0e, 0x01] ++ (be32 c ++ (be32 md.length ++ (md ++ p.data))) : Bytes) = bs at hpf hne
  simp only [hpf, hne, Bool.false_eq_true, if_false]
  rw [hmd, Outcome.unwrap_some, Outcome.bind_ok]
  rfl

theorem decodeFrame_simple (item : MessageCommand) (cmd : Bytes) (hp : item.payload = none)
    (hcmd : parseFromBytes pulsar .baseCommand cmd = some item.command) (hf : size cmd none < 4294967296) :
    decodeFrame (layout cmd none) = .ok item := by
  obtain ⟨command, payload⟩ := item
  simp only at hp hcmd
  subst hp
  simp only [size] at hf
  have hcf : commandFrame (layout cmd none) = .ok ([], cmd) := by
    unfold commandFrame layout
    simp only [List.append_assoc]
    rw [readBe32_be32 _ _ (by omega), Outcome.unwrap_some, Outcome.bind_ok]
    simp only
    rw [readBe32_be32 _ _ (by omega), Outcome.unwrap_some, Outcome.bind_ok]
    simp only
    have : takeN cmd.length cmd = some (cmd, []) := by simpa using takeN_append cmd []
    rw [this, Outcome.unwrap_some, Outcome.bind_ok]
    rfl
  unfold decodeFrame
  rw [hcf, Outcome.bind_ok]
  simp only
  rw [hcmd, Outcome.unwrap_some, Outcome.bind_ok]
  rfl

/-- Decoding a complete frame followed by anything. -/
theorem decode_frame_append (frame rest : Bytes) (n : Nat) (tail : Bytes) (h : frame = be32 n ++ tail)
    (hl : tail.length = n) (hn : n < 4294967296) :
    decode (frame ++ rest) = (decodeFrame frame >>= fun m => .ok (some (m, rest))) := by
  subst h
  unfold decode
  rw [List.append_assoc, readBe32_be32 _ _ hn]
  simp only
  have hlen : (be32 n ++ tail).length = n + 4 := by simp [be32]; omega
  rw [← List.append_assoc, if_pos (by rw [List.length_append]; omega), List.take_left' hlen, List.drop_left' hlen]
  rfl

theorem decodeFrame_layout (item : MessageCommand) (cmd : Bytes) (pl : Option (Bytes × Bytes))
    (h : Sendable item cmd pl) : decodeFrame (layout cmd pl) = .ok item := by
  obtain ⟨h1, h2, ⟨h3, h3'⟩, h4⟩ := h
  have hcl : cmd.length < 18446744073709551616 := by
    cases pl with
    | none => simp only [size] at h4; omega
    | some x => obtain ⟨_, _⟩ := x; simp only [size] at h4; omega
  have hcmd := parse_write pulsar pulsar_good .baseCommand item.command cmd h1 h3 hcl
  obtain ⟨command, payload⟩ := item
  simp only at h2 h3' hcmd
  cases payload with
  | none =>
    cases pl with
    | some x => simp at h3'
    | none => exact decodeFrame_simple _ _ rfl hcmd h4
  | some p =>
    cases pl with
    | none => simp at h3'
    | some x =>
      obtain ⟨md, data⟩ := x
      simp only at h3'
      obtain ⟨hm, rfl⟩ := h3'
      simp only [size] at h4
      have hmd := parse_write pulsar pulsar_good .messageMetadata p.metadata md (h2 p rfl) hm (by omega)
      rw [layout_eq_withChecksum]
      exact decodeFrame_withChecksum _ (Crc.crc32c_lt _) _ p cmd md rfl hcmd hmd h4

theorem size_pos (cmd : Bytes) (pl : Option (Bytes × Bytes)) : 8 ≤ size cmd pl := by
  cases pl with
  | none => simp [size]
  | some x => obtain ⟨_, _⟩ := x; simp [size]; omega

theorem decode_layout (item : MessageCommand) (cmd : Bytes) (pl : Option (Bytes × Bytes))
    (h : Sendable item cmd pl) (rest : Bytes) : decode (layout cmd pl ++ rest) = .ok (some (item, rest)) := by
  obtain ⟨tail, ht, hl⟩ := layout_head cmd pl
  have := size_pos cmd pl
  rw [decode_frame_append (layout cmd pl) rest (size cmd pl - 4) tail ht hl (by have := h.fits; omega),
    decodeFrame_layout item cmd pl h]
  rfl

/-- Any strict prefix of a block is left alone. -/
theorem decode_prefix (body : Bytes) (hf : body.length < 4294967296) (p q : Bytes)
    (h : p ++ q = be32 body.length ++ body) (hq : q ≠ []) : decode p = .ok none := by
  have hlen : p.length + q.length = body.length + 4 := by
    rw [← List.length_append, h, List.length_append, be32_length]; omega
  have hqpos : 0 < q.length := List.length_pos_iff.mpr hq
  unfold decode
  cases hr : readBe32 p with
  | none => rfl
  | some x =>
    obtain ⟨n, r⟩ := x
    have h4 : 4 ≤ p.length := by
      rcases Nat.lt_or_ge p.length 4 with h | h
      · rw [readBe32_none.mpr h] at hr; simp at hr
      · exact h
    have hp : ∃ u, p = be32 body.length ++ u := by
      refine ⟨p.drop 4, ?_⟩
      have : p.take 4 = be32 body.length := by
        have h5 := congrArg (List.take 4) h
        rw [List.take_append_of_le_length h4] at h5
        rw [h5, List.take_left' (be32_length _)]
      rw [← this, List.take_append_drop]
    obtain ⟨u, hu⟩ := hp
    rw [hu, readBe32_be32 _ _ (by omega)] at hr
    simp only [Option.some.injEq, Prod.mk.injEq] at hr
    simp only
    rw [if_neg (by omega)]

theorem layout_block (cmd : Bytes) (pl : Option (Bytes × Bytes)) (hf : size cmd pl < 4294967296) :
    ∃ body : Bytes, body.length < 4294967296 ∧ layout cmd pl = be32 body.length ++ body := by
  obtain ⟨tail, h1, h2⟩ := layout_head cmd pl
  exact ⟨tail, by omega, by rw [h1, h2]⟩

theorem withChecksum_block (c : Nat) (cmd md data : Bytes) (hf : size cmd (some (md, data)) < 4294967296) :
    ∃ body : Bytes, body.length < 4294967296 ∧ layoutWithChecksum c cmd md data = be32 body.length ++ body := by
  simp only [size] at hf
  refine ⟨be32 cmd.length ++ cmd ++ [0x0e, 0x01] ++ be32 c ++ (be32 md.length ++ md ++ data), ?_, ?_⟩
  · simp [be32_length]; omega
  · have : (be32 cmd.length ++ cmd ++ [0x0e, 0x01] ++ be32 c ++ (be32 md.length ++ md ++ data)).length =
        4 + cmd.length + 2 + 4 + (4 + md.length + data.length) := by simp [be32_length]; omega
    rw [this]
    simp only [layoutWithChecksum, List.append_assoc]

end Codec
end Neutron
