import Verif.Proof.Framed
import Verif.Proof.Message
import Verif.Proof.Readable
import Verif.Proof.CrcSpec
import Verif.Proof.Sizes

/-!
# Properties of the wire format (C01-C10, C66)
-/

namespace Neutron.Props

open Proto Frame Framed Polynomial

/-! ## C01 Wire frames round-trip -/

/-- For every command the Rust types can hold and serialise within 32-bit sizes, whatever follows it on the stream: encoding
succeeds and decoding the encoded bytes gives exactly that command and exactly the bytes that followed. -/
theorem C01_frame_roundtrip (oc : Bool) (item : MessageCommand) (cmd : Bytes) (pl : Option (Bytes × Bytes))
    (h : Sendable item cmd pl) (rest : Bytes) :
    ∃ frame, Codec.encode oc item = .ok frame ∧ Codec.decode (frame ++ rest) = .ok (some (item, rest)) :=
  ⟨_, Codec.encode_layout oc item cmd pl h.serialises h.fits, Codec.decode_layout item cmd pl h rest⟩

/-- A concrete send command: producer 7, sequence number 300, payload "hi". -/
def exampleSend : MessageCommand := (Send.single "p" 7 300 [104, 105]).asCommand 1700000000000

theorem exampleSend_ser : Ser 101 .baseCommand exampleSend.command ∧
    ∀ p, exampleSend.payload = some p → Ser 101 .messageMetadata p.metadata :=
  ⟨send_ser _, by intro p hp; cases hp; exact metadata_ser _ _⟩

theorem exampleSend_size : size exampleSend.parts.1 exampleSend.parts.2 < 4294967296 := by decide +kernel

/-- A send of a message meets the hypothesis of C01_frame_roundtrip, C03_own_frames and C06_checksum_ignored (`Sendable`), and so those
of C04_layout, C05_checksum, C73_release, C73_debug and C73_fits (`Serialises`, and a size below 2^32: both are part of `Sendable`). -/
example : Sendable exampleSend exampleSend.parts.1 exampleSend.parts.2 :=
  parts_sendable _ exampleSend_ser.1 exampleSend_ser.2 exampleSend_size

/-! ## C02 / C66 Reassembly is independent of chunking; truncated streams -/

/-- For every list of frames, every partial tail, every way of cutting the bytes into reads, every interleaving of reads
arriving and the connection task polling, and every moment in between: what has been produced is a prefix of the
expected items (the commands in order, once each; then, if the peer closed, an error exactly when a partial frame was left,
and end of stream). -/
theorem C02_chunking_safety (frames : List (MessageCommand × Bytes)) (hf : ∀ f ∈ frames, IsFrame f) (part : Bytes)
    (hp : IsPartial part) (closed : Bool) (reads : List Read) (hr : ∀ r ∈ reads, IsData r)
    (hbytes : bytesOf reads = stream frames ++ part) (evs : List Ev)
    (hev : arrivals evs <+: reads ++ (if closed then [.eof] else [])) :
    (ReadSide.run evs).out <+: expected (frames.map (·.1)) part closed := by
  obtain ⟨fut, hfut⟩ := hev
  have h0 := inv_init (all := frames) (part := part) closed reads hr hbytes
  exact inv_prefix (inv_run hf hp evs fut {} (hfut ▸ h0))

/-- Once all bytes have arrived and the task has polled often enough, exactly the expected items have been produced. -/
theorem C02_chunking_complete (frames : List (MessageCommand × Bytes)) (hf : ∀ f ∈ frames, IsFrame f) (part : Bytes)
    (hp : IsPartial part) (closed : Bool) (reads : List Read) (hr : ∀ r ∈ reads, IsData r)
    (hbytes : bytesOf reads = stream frames ++ part) (evs : List Ev)
    (hev : arrivals evs = reads ++ (if closed then [.eof] else [])) (n : Nat) (hn : frames.length + 2 ≤ n) :
    (ReadSide.run (evs ++ List.replicate n .poll)).out = expected (frames.map (·.1)) part closed := by
  have h0 := inv_init (all := frames) (part := part) closed reads hr hbytes
  have h1 := inv_run hf hp evs [] {} (by rw [hev, List.append_nil]; exact h0)
  unfold ReadSide.run
  rw [List.foldl_append]
  refine inv_complete hf hp n _ h1 ?_
  have : (expected (frames.map (·.1)) part closed).length ≤ frames.length + 2 := by
    unfold expected; rw [List.length_append, List.length_map, List.length_map]; split <;> (try split) <;> simp
  omega

/-- C66: a peer that closes in the middle of a frame: all complete frames, one error, end of stream; on a frame boundary:
all frames and end of stream. -/
theorem C66_truncated_stream (frames : List (MessageCommand × Bytes)) (hf : ∀ f ∈ frames, IsFrame f) (part : Bytes)
    (hp : IsPartial part) (reads : List Read) (hr : ∀ r ∈ reads, IsData r)
    (hbytes : bytesOf reads = stream frames ++ part) (evs : List Ev) (hev : arrivals evs = reads ++ [.eof])
    (n : Nat) (hn : frames.length + 2 ≤ n) :
    (ReadSide.run (evs ++ List.replicate n .poll)).out =
      frames.map (fun f => .item f.1) ++ (if part = [] then [.ended] else [.failed, .ended]) := by
  rw [C02_chunking_complete frames hf part hp true reads hr hbytes evs hev n hn]
  unfold expected
  rw [List.map_map]
  cases part <;> simp [Function.comp_def]

theorem exampleSend_isFrame : IsFrame (exampleSend, layout exampleSend.parts.1 exampleSend.parts.2) :=
  Framed.isFrame_of (parts_sendable _ exampleSend_ser.1 exampleSend_ser.2 exampleSend_size)

/-- The hypotheses of C02/C66 are met by two frames followed by half a frame, cut into single-byte reads. -/
example : ∃ (frames : List (MessageCommand × Bytes)) (part : Bytes) (reads : List Read), frames.length = 2 ∧ part ≠ [] ∧
    (∀ f ∈ frames, IsFrame f) ∧ IsPartial part ∧ (∀ r ∈ reads, IsData r) ∧ bytesOf reads = stream frames ++ part := by
  have key : ∀ b : Bytes, bytesOf (b.map fun x => .data [x]) = b := by
    intro b; induction b with
    | nil => rfl
    | cons x b ih => simp [bytesOf, ih]
  let f := (exampleSend, layout exampleSend.parts.1 exampleSend.parts.2)
  have hlen := Codec.layout_length exampleSend.parts.1 exampleSend.parts.2
  have h8 := Codec.size_pos exampleSend.parts.1 exampleSend.parts.2
  refine ⟨[f, f], f.2.take 7, (stream [f, f] ++ f.2.take 7).map fun x => .data [x], rfl, ?_, ?_, ?_, ?_, key _⟩
  · intro h
    have := congrArg List.length h
    simp only [List.length_take, List.length_nil, f, hlen] at this
    omega
  · intro g hg
    simp at hg
    subst hg
    exact exampleSend_isFrame
  · refine ⟨f.2, f.2.drop 7, isBlock_layout _ _ exampleSend_size, ?_, List.take_append_drop _ _⟩
    intro h
    have := congrArg List.length h
    simp only [List.length_drop, List.length_nil, f, hlen] at this
    omega
  · intro r hr
    rw [List.mem_map] at hr
    obtain ⟨x, _, rfl⟩ := hr
    trivial

/-! ## C03 An incomplete frame is never consumed -/

/-- For every frame any peer may send (four bytes of size and that many bytes, whatever they are) and every strict prefix of it, the
decoder asks for more; and as it produced nothing, the connection's buffer keeps exactly those bytes (first conjunct: decoder; second:
the read side after any single read of that prefix). -/
theorem C03_prefix_untouched (frame : Bytes) (hf : IsBlock frame) (p q : Bytes) (hpq : p ++ q = frame) (hq : q ≠ []) :
    Codec.decode p = .ok none ∧
    pollNext {} [.data p] = (.pending, { buf := p }, []) := by
  have hd := IsPartial.decode ⟨frame, q, hf, hq, hpq⟩
  refine ⟨hd, ?_⟩
  simp [pollNext, attempt, hd]

/-- In particular for every frame this client's encoder writes. -/
theorem C03_own_frames (oc : Bool) (item : MessageCommand) (cmd : Bytes) (pl : Option (Bytes × Bytes))
    (h : Sendable item cmd pl) (frame : Bytes) (henc : Codec.encode oc item = .ok frame) (p q : Bytes) (hpq : p ++ q = frame)
    (hq : q ≠ []) :
    Codec.decode p = .ok none ∧
    pollNext {} [.data p] = (.pending, { buf := p }, []) := by
  rw [Codec.encode_layout oc item cmd pl h.serialises h.fits] at henc
  cases henc
  exact C03_prefix_untouched _ (isBlock_layout cmd pl h.fits) p q hpq hq

/-- A strict prefix as in C03_prefix_untouched and C03_own_frames. -/
example : IsBlock (layout exampleSend.parts.1 exampleSend.parts.2) ∧
    ∃ p q, p ++ q = layout exampleSend.parts.1 exampleSend.parts.2 ∧ q ≠ [] ∧ p ≠ [] := by
  refine ⟨isBlock_layout _ _ exampleSend_size, ?_⟩
  have hlen := Codec.layout_length exampleSend.parts.1 exampleSend.parts.2
  have h8 := Codec.size_pos exampleSend.parts.1 exampleSend.parts.2
  refine ⟨_, _, List.take_append_drop 5 _, ?_, ?_⟩ <;> intro h <;> have := congrArg List.length h <;>
    simp only [List.length_drop, List.length_take, List.length_nil, hlen] at this <;> omega

/-! ## C04 Frame layout -/

/-- The encoder writes exactly the protocol's layout (`Frame.layout`, written down in `Spec/Frame.lean`), and the first
four bytes announce exactly the number of bytes that follow them. -/
theorem C04_layout (oc : Bool) (item : MessageCommand) (cmd : Bytes) (pl : Option (Bytes × Bytes))
    (hs : Serialises item cmd pl) (hf : size cmd pl < 4294967296) :
    Codec.encode oc item = .ok (layout cmd pl) ∧
    ∃ rest, readBe32 (layout cmd pl) = some (rest.length, rest) := by
  refine ⟨Codec.encode_layout oc item cmd pl hs hf, ?_⟩
  obtain ⟨tail, ht, hl⟩ := Codec.layout_head cmd pl
  refine ⟨tail, ?_⟩
  rw [ht, readBe32_be32 _ _ (by omega), hl]

/-! ## C05 The checksum -/

/-- In every payload frame the four bytes after the magic number are the CRC-32C of everything after them. -/
theorem C05_checksum (oc : Bool) (item : MessageCommand) (cmd md data : Bytes)
    (hs : Serialises item cmd (some (md, data))) (hf : size cmd (some (md, data)) < 4294967296) :
    ∃ head region, Codec.encode oc item = .ok (head ++ [0x0e, 0x01] ++ be32 (Crc.crc32c region) ++ region) ∧
      head.length = 8 + cmd.length ∧ region = be32 md.length ++ md ++ data := by
  refine ⟨be32 (4 + cmd.length + 2 + 4 + (4 + md.length + data.length)) ++ be32 cmd.length ++ cmd, _, ?_, ?_, rfl⟩
  · rw [Codec.encode_layout oc item cmd _ hs hf]; rfl
  · simp [be32]; omega

/-- And that checksum is CRC-32C as RFC 3720 defines it: the complement of the remainder, by the Castagnoli generator, of the message
polynomial (bits of each byte from the least significant on) times `x^32` with its first 32 bits complemented. -/
theorem C05_is_crc32c (bs : Bytes) :
    ∃ r : BitVec 32, Crc.crc32c bs = (~~~ r).toNat ∧ Crc.ofWord r = Crc.dividend bs %ₘ Crc.generator :=
  ⟨Crc.run 0xFFFFFFFF#32 bs, by
    unfold Crc.crc32c
    congr 1
    exact BitVec.xor_allOnes, Crc.run_remainder bs⟩

/-- The remainder determines the checksum: distinct 32-bit words stand for distinct polynomials. -/
theorem C05_word_of_polynomial (r r' : BitVec 32) (h : Crc.ofWord r = Crc.ofWord r') : r = r' := Crc.ofWord_injective r r' h

/-- Changing at most four consecutive bytes anywhere in a byte string changes its checksum. -/
theorem C05_burst_detected (pre a b post : Bytes) (hl : a.length = b.length) (h4 : a.length ≤ 4) (hne : a ≠ b) :
    Crc.crc32c (pre ++ a ++ post) ≠ Crc.crc32c (pre ++ b ++ post) := Crc.crc_burst pre a b post hl h4 hne

/-- A change as in C05_burst_detected and C06_detectable_partial: the payload byte 2 of a message becomes 9. -/
example : ∃ pre a b post : Bytes, be32 ([1] : Bytes).length ++ [1] ++ ([2, 3] : Bytes) = pre ++ a ++ post ∧ a.length = b.length ∧
    a.length ≤ 4 ∧ a ≠ b :=
  ⟨[0, 0, 0, 1, 1], [2], [9], [3], by decide, rfl, by decide, by decide⟩

/-- C05_is_crc32c has no hypotheses; as a cross-check, the catalogue's check value of CRC-32C ("123456789") and a test vector of
RFC 3720 B.4 (32 zero bytes). -/
example : Crc.crc32c [49, 50, 51, 52, 53, 54, 55, 56, 57] = 0xE3069283 := by decide +kernel
example : Crc.crc32c (List.replicate 32 0) = 0x8A9136AA := by decide +kernel

/-! ## C06 Corrupted payloads are not delivered - false of the code -/

/-- Whatever the checksum field of a payload frame says, the frame is delivered as if the checksum were right. -/
theorem C06_checksum_ignored (item : MessageCommand) (p : Payload) (cmd md : Bytes) (hp : item.payload = some p)
    (h : Sendable item cmd (some (md, p.data))) (c : Nat) (hc : c < 4294967296) (rest : Bytes) :
    Codec.decode (layoutWithChecksum c cmd md p.data ++ rest) = .ok (some (item, rest)) := by
  have hf := h.fits
  simp only [size] at hf
  have hcmd := parse_write pulsar pulsar_good .baseCommand item.command cmd h.command_ok h.serialises.1 (by omega)
  have hser := h.serialises.2
  rw [hp] at hser
  have hmd := parse_write pulsar pulsar_good .messageMetadata p.metadata md (h.metadata_ok p hp) hser.1 (by omega)
  have hdec := Codec.decodeFrame_withChecksum c hc item p cmd md hp hcmd hmd h.fits
  rw [Codec.decode_frame_append (layoutWithChecksum c cmd md p.data) rest
    (4 + cmd.length + 2 + 4 + (4 + md.length + p.data.length))
    (be32 cmd.length ++ (cmd ++ ([0x0e, 0x01] ++ (be32 c ++ (be32 md.length ++ (md ++ p.data)))))) (by
      simp only [layoutWithChecksum, List.append_assoc]) (by simp [be32]; omega) (by omega), hdec]
  rfl

/-- The claim "a frame whose checksum does not match its contents is never delivered" is false. -/
theorem C06_refuted : ¬ ∀ (c : Nat) (cmd md data : Bytes), c < 4294967296 →
    c ≠ Crc.crc32c (be32 md.length ++ md ++ data) →
    ∀ item rest, Codec.decode (layoutWithChecksum c cmd md data) ≠ .ok (some (item, rest)) := by
  intro hall
  have hs := parts_sendable exampleSend exampleSend_ser.1 exampleSend_ser.2 exampleSend_size
  let md := encMsg pulsar (pulsar .messageMetadata) (Send.single "p" 7 300 [104, 105] |>.asCommand 1700000000000
    |>.payload.get rfl).metadata
  let w := Crc.crc32c (be32 md.length ++ md ++ [104, 105])
  have hw : w < 4294967296 := Crc.crc32c_lt _
  have hdec := C06_checksum_ignored exampleSend _ exampleSend.parts.1 md rfl hs (if w = 0 then 1 else 0)
    (by split <;> omega) []
  rw [List.append_nil] at hdec
  refine hall (if w = 0 then 1 else 0) exampleSend.parts.1 md [104, 105] (by split <;> omega) ?_ exampleSend [] hdec
  change (if w = 0 then 1 else 0) ≠ w
  split <;> omega

/-- What does hold (the full claim, that mismatching frames are rejected, is false: `C06_refuted`): a receiver that compared
the checksum field with the CRC-32C of the received region would notice any corruption of up to four consecutive bytes;
the client's own decoder does not compare. -/
theorem C06_detectable_partial (cmd md data pre a b post : Bytes) (hsplit : be32 md.length ++ md ++ data = pre ++ a ++ post)
    (hl : a.length = b.length) (h4 : a.length ≤ 4) (hne : a ≠ b) :
    layout cmd (some (md, data)) = be32 (4 + cmd.length + 2 + 4 + (4 + md.length + data.length)) ++ be32 cmd.length ++ cmd
      ++ [0x0e, 0x01] ++ be32 (Crc.crc32c (pre ++ a ++ post)) ++ (pre ++ a ++ post) ∧
    be32 (Crc.crc32c (pre ++ a ++ post)) ≠ be32 (Crc.crc32c (pre ++ b ++ post)) := by
  refine ⟨by simp only [layout, hsplit], ?_⟩
  intro h
  exact Crc.crc_burst pre a b post hl h4 hne (be32_inj (Crc.crc32c_lt _) (Crc.crc32c_lt _) h)

/-! ## C07/C72 Garbage from the network -/

/-- Exactly when the decoder panics: a complete block whose contents are not `Readable`.  It never returns an error. -/
theorem C72_panic_iff (src : Bytes) :
    (Codec.decode src = .panic ↔ ∃ body rest, src = be32 body.length ++ body ++ rest ∧ body.length < 4294967296 ∧ ¬ Readable body) ∧
    ∀ e, Codec.decode src ≠ .err e :=
  ⟨Framed.decode_panic_iff src, Codec.decode_no_err src⟩

theorem parse_garbage : parseFromBytes pulsar .baseCommand [255] = none := by
  have : readRaws [255] = none := rfl
  unfold parseFromBytes
  rw [show maxDepth = 100 + 1 from rfl, decodeF, this]

/-- The claim "decoding never panics" is false: an empty frame (four zero bytes) crashes the decoder, as does a command
that is not protobuf. -/
theorem C07_refuted : Codec.decode [0, 0, 0, 0] = .panic ∧ Codec.decode [0, 0, 0, 5, 0, 0, 0, 1, 255] = .panic ∧
    ¬ ∀ src, Codec.decode src ≠ .panic :=
  have h : Codec.decode [0, 0, 0, 0] = .panic := (Codec.decode_panic_iff _).mpr ⟨0, [], rfl, Nat.le_refl _, Or.inl (by decide)⟩
  ⟨h, (Codec.decode_panic_iff _).mpr ⟨5, _, rfl, by decide, Or.inr ⟨1, _, rfl, Or.inr (Or.inl parse_garbage)⟩⟩,
    fun hall => hall _ h⟩

/-- What does hold: if every complete frame's contents are well formed (`Readable`), decoding does not panic. -/
theorem C72_wellformed (src : Bytes) (h : ∀ body rest, src = be32 body.length ++ body ++ rest → body.length < 4294967296 → Readable body) :
    Codec.decode src = .ok none ∨ ∃ item rest, Codec.decode src = .ok (some (item, rest)) := by
  cases hd : Codec.decode src with
  | ok x =>
    cases x with
    | none => exact Or.inl rfl
    | some y => exact Or.inr ⟨y.1, y.2, rfl⟩
  | err e => exact absurd hd (Codec.decode_no_err src e)
  | panic =>
    obtain ⟨body, rest, h1, h2, h3⟩ := (Framed.decode_panic_iff src).mp hd
    exact absurd (h body rest h1 h2) h3

/-- In particular the contents of whatever frame a peer sends for a command are readable. -/
theorem C72_frames_readable (item : MessageCommand) (body : Bytes) (h : IsFrame (item, be32 body.length ++ body))
    (hl : body.length < 4294967296) : Readable body := by
  refine Classical.byContradiction fun hn => ?_
  have h1 := (Framed.decode_panic_iff _).mpr ⟨body, [], rfl, hl, hn⟩
  rw [h.decode []] at h1
  cases h1

/-- Contents as in C72_wellformed (C72_panic_iff has no hypotheses; C07_refuted shows both unreadable kinds). -/
example : ∃ body, Readable body ∧ 4 < body.length := by
  obtain ⟨body, h1, h2⟩ := exampleSend_isFrame.block
  have hf : IsFrame (exampleSend, be32 body.length ++ body) := h2 ▸ exampleSend_isFrame
  refine ⟨body, C72_frames_readable exampleSend body hf h1, ?_⟩
  have h3 := congrArg List.length h2
  rw [Codec.layout_length, List.length_append, be32_length] at h3
  have := Codec.size_pos exampleSend.parts.1 exampleSend.parts.2
  have : size exampleSend.parts.1 exampleSend.parts.2 ≥ 18 := by simp [exampleSend, Send.asCommand, MessageCommand.parts, size]; omega
  omega

/-! ## C08/C73 Oversized messages -/

/-- Release builds write every command, however large; the bytes are those of the layout with each size field reduced
modulo 2^32.  So the announced size is right exactly when the frame fits. -/
theorem C73_release (item : MessageCommand) (cmd : Bytes) (pl : Option (Bytes × Bytes)) (hs : Serialises item cmd pl) :
    ∃ frame, Codec.encode false item = .ok frame ∧ frame.length = size cmd pl ∧
      ((∃ rest, readBe32 frame = some (rest.length, rest)) ↔ size cmd pl < 4294967296 + 4) := by
  refine ⟨_, Codec.encode_release item cmd pl hs, Codec.layout_length cmd pl, ?_⟩
  obtain ⟨tail, ht, hl⟩ := Codec.layout_head cmd pl
  have h8 := Codec.size_pos cmd pl
  have hread : readBe32 (layout cmd pl) = some ((size cmd pl - 4) % 4294967296, tail) := by
    rw [ht, ← be32_mod, readBe32_be32 _ _ (by omega)]
  rw [hread]
  constructor
  · rintro ⟨rest, h⟩
    simp only [Option.some.injEq, Prod.mk.injEq] at h
    obtain ⟨h1, rfl⟩ := h
    omega
  · intro h
    refine ⟨tail, ?_⟩
    simp only [Option.some.injEq, Prod.mk.injEq, and_true]
    omega

/-- A send of `n` zero bytes. -/
def bigSend (n : Nat) : MessageCommand := (Send.single "p" 7 300 (List.replicate n 0)).asCommand 1700000000000

theorem bigSend_serialises (n : Nat) : Serialises (bigSend n) (bigSend n).parts.1 (bigSend n).parts.2 :=
  parts_serialises _ (send_ser _) (by intro p hp; cases hp; exact metadata_ser _ _)

theorem bigSend_size (n : Nat) : n ≤ size (bigSend n).parts.1 (bigSend n).parts.2 := by
  simp only [bigSend, Send.asCommand, MessageCommand.parts, Option.map_some, size, Send.payloadBytes, List.length_replicate]
  omega

/-- The claim is false: an 8 GiB payload is written "successfully" with a wrong size field (release build). -/
theorem C08_refuted : ∃ item frame, Codec.encode false item = .ok frame ∧
    ¬ ∃ rest, readBe32 frame = some (rest.length, rest) := by
  obtain ⟨frame, h1, -, h3⟩ := C73_release _ _ _ (bigSend_serialises 8589934592)
  refine ⟨_, frame, h1, fun h => ?_⟩
  have := h3.mp h
  have := bigSend_size 8589934592
  omega

/-- With overflow checks (debug builds) the only other outcome is a panic. -/
theorem C73_debug (item : MessageCommand) (cmd : Bytes) (pl : Option (Bytes × Bytes)) (hs : Serialises item cmd pl) :
    Codec.encode true item = .panic ∨ Codec.encode true item = Codec.encode false item := by
  rw [Codec.encode_release item cmd pl hs]
  exact Codec.encode_debug item cmd pl hs

/-- What does hold: a frame smaller than 2^32 bytes is written with correct size fields in every build. -/
theorem C73_fits (oc : Bool) (item : MessageCommand) (cmd : Bytes) (pl : Option (Bytes × Bytes))
    (hs : Serialises item cmd pl) (hf : size cmd pl < 4294967296) :
    ∃ frame rest, Codec.encode oc item = .ok frame ∧ readBe32 frame = some (rest.length, rest) := by
  obtain ⟨h1, rest, h2⟩ := C04_layout oc item cmd pl hs hf
  exact ⟨_, rest, h1, h2⟩

/-! ## C09 Protobuf bodies -/

/-- For every message type of pulsar.proto and every value the generated Rust type can hold: serialisation succeeds exactly
when the required fields are set, and parsing the bytes gives back the value. -/
theorem C09_protobuf_roundtrip (t : MsgTy) (m : Msg) (h : wellTyped pulsar maxDepth t m = true) :
    (HasRequired pulsar t m ↔ ∃ bs, writeToBytes pulsar t m = some bs) ∧
    ∀ bs, writeToBytes pulsar t m = some bs → bs.length < 18446744073709551616 → parseFromBytes pulsar t bs = some m := by
  refine ⟨?_, fun bs hb hl => parse_write pulsar pulsar_good t m bs h hb hl⟩
  rw [← hasRequired_iff]
  unfold writeToBytes
  by_cases hi : initMsg pulsar (pulsar t) m = true <;> simp [hi]

/-- What is written is a sequence of raw fields, and inserting a raw field whose number the type does not declare, anywhere
in such a sequence, does not change what is parsed. -/
theorem C09_unknown_fields (t : MsgTy) (a b : List (Nat × Raw)) (f : Nat × Raw)
    (ha : ∀ g ∈ a, rawOk g) (hb : ∀ g ∈ b, rawOk g) (hf : rawOk f) (hu : ∀ d ∈ pulsar t, d.num ≠ f.1) :
    parseFromBytes pulsar t (encRaws (a ++ f :: b)) = parseFromBytes pulsar t (encRaws (a ++ b)) := by
  unfold parseFromBytes
  rw [decodeF_unknown pulsar maxDepth t a b f ha hb hf hu]

/-- Whatever bytes are parsed, the result is a value the generated type can hold with its required fields set. -/
theorem C09_parsed_wellTyped (t : MsgTy) (bs : Bytes) (m : Msg) (h : parseFromBytes pulsar t bs = some m) :
    wellTyped pulsar maxDepth t m = true ∧ HasRequired pulsar t m :=
  have h := parse_wt pulsar t bs m h
  ⟨h.1, (hasRequired_iff _ _ _).mp h.2⟩

/-- The hypothesis of C09_protobuf_roundtrip, and (with it) a value as in C09_parsed_wellTyped. -/
example : wellTyped pulsar maxDepth .baseCommand exampleSend.command = true ∧
    HasRequired pulsar .baseCommand exampleSend.command := ⟨exampleSend_ser.1.1, (hasRequired_iff _ _ _).mp exampleSend_ser.1.2⟩

/-- A field as in C09_unknown_fields. -/
example : rawOk (1000, .varint 5) ∧ ∀ d ∈ pulsar .baseCommand, d.num ≠ 1000 := by
  refine ⟨?_, by decide⟩
  simp [rawOk, Raw.valid]

/-! ## C10 Sending never panics in the encoder -/

/-- Every command the public API can hand to a connection (acks carry ids that came from the broker, see
`C67`) is written: always in a release build, and in a debug build whenever its frame fits 32 bits. -/
theorem C10_encoder_never_panics (oc : Bool) (now : UInt64) (o : Outbound) (ho : o.Valid) :
    ∃ item, o.toCommand now = .ok item ∧
      (oc = false ∨ size item.parts.1 item.parts.2 < 4294967296 → ∃ frame, Codec.encode oc item = .ok frame) := by
  obtain ⟨item, h1, h2, h3⟩ := toCommand_ok now o ho
  refine ⟨item, h1, ?_⟩
  have hs := parts_serialises item h2 h3
  rintro (rfl | hf)
  · exact ⟨_, Codec.encode_release item _ _ hs⟩
  · exact ⟨_, Codec.encode_layout oc item _ _ hs hf⟩

/-- What fits: a frame is at most 300 bytes longer than the names, credentials, ids and payloads the application has put into the
command (34 bytes more for each message of a batch, 20 for each id).  So everything below 4 GiB less 300 bytes is written by any build. -/
theorem C10_what_fits (oc : Bool) (now : UInt64) (o : Outbound) (ho : o.Valid) (hv : o.volume + 300 < 4294967296) :
    ∃ item frame, o.toCommand now = .ok item ∧ Codec.encode oc item = .ok frame ∧ frame.length ≤ o.volume + 300 := by
  obtain ⟨item, h1, h2, h3⟩ := toCommand_ok now o ho
  have hl := size_le now o item h1
  exact ⟨item, _, h1, Codec.encode_layout oc item _ _ (parts_serialises item h2 h3) (by omega), by rw [Codec.layout_length]; exact hl⟩

/-- The hypotheses of C10_encoder_never_panics and C10_what_fits. -/
example : (Outbound.send (.batch "p" 3 7 [[1, 2], [3]])).Valid ∧ (Outbound.send (.batch "p" 3 7 [[1, 2], [3]])).volume = 72 :=
  ⟨trivial, by decide +kernel⟩

/-- The empty acknowledgement list, which no API call produces, would panic. -/
theorem C10_empty_ack_panics (now : UInt64) : (Outbound.ack []).toCommand now = .panic := rfl

/-- Another command as in C10_encoder_never_panics. -/
example : (Outbound.subscribe ⟨"persistent://a/b/c", "sub", 3, 1, .shared⟩).Valid := trivial

end Neutron.Props
