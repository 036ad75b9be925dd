import Verif.Model.Crc
import Verif.Model.ProtoSchema

/-!
# The frame codec (`src/codec.rs`)
-/

namespace Neutron

open Proto

/-- `src/codec.rs:46-52` `struct Payload`; `metadata` is a `MessageMetadata` value. -/
structure Payload where
  metadata : Msg
  data : Bytes

/-- `src/message.rs:39-43` `struct MessageCommand`; `command` is a `BaseCommand` value. -/
structure MessageCommand where
  command : Msg
  payload : Option Payload

namespace Codec

/-- `x as u32`. -/
def asU32 (n : Nat) : Nat := n % 4294967296

/-- `a + b` on `u32`: with overflow checks (debug builds) an overflow panics, without (release builds) it wraps. -/
def addU32 (overflowChecks : Bool) (a b : Nat) : Outcome Nat :=
  if a + b < 4294967296 then .ok (a + b)
  else if overflowChecks then .panic
  else .ok ((a + b) % 4294967296)

/-- `a - b` on `u32`. -/
def subU32 (overflowChecks : Bool) (a b : Nat) : Outcome Nat :=
  if b ≤ a then .ok (a - b)
  else if overflowChecks then .panic
  else .ok (a + 4294967296 - b)

/-- `src/codec.rs:97-108`: the payload part of a frame.  `payload_buf` is built with a zero checksum, the checksum of
everything from offset 6 is computed and copied over bytes 2..6. -/
def encodePayload (p : Payload) : Outcome Bytes := do
  let metadataBytes ← .unwrap (writeToBytes pulsar .messageMetadata p.metadata)
  let payloadBuf := be16 0x0e01 ++ be32 0 ++ be32 (asU32 (computeSize pulsar .messageMetadata p.metadata))
    ++ metadataBytes ++ p.data
  let checksum := Crc.crc32c (payloadBuf.drop 6)
  pure (payloadBuf.take 2 ++ be32 checksum ++ payloadBuf.drop 6)

/-- `src/codec.rs:79-115` `Encoder::encode`: the bytes appended to `dst` (`reserve`/`put_slice` append the whole
buffer).  `write_to_bytes().unwrap()` panics when a required field is missing. -/
def encode (overflowChecks : Bool) (item : MessageCommand) : Outcome Bytes := do
  let commandBytes ← .unwrap (writeToBytes pulsar .baseCommand item.command)
  let commandSize := asU32 (computeSize pulsar .baseCommand item.command)
  let headerSize := if item.payload.isSome then 18 else 8
  let metadataSize := match item.payload with
    | some p => asU32 (computeSize pulsar .messageMetadata p.metadata)
    | none => 0
  let payloadSize := match item.payload with
    | some p => asU32 p.data.length
    | none => 0
  let s1 ← addU32 overflowChecks commandSize metadataSize
  let s2 ← addU32 overflowChecks s1 payloadSize
  let s3 ← addU32 overflowChecks s2 headerSize
  let totalSize ← subU32 overflowChecks s3 4
  let buf := be32 totalSize ++ be32 commandSize ++ commandBytes
  match item.payload with
  | some p => do
    let pb ← encodePayload p
    pure (buf ++ pb)
  | none => pure buf

/-- `src/codec.rs:22-34` `command_frame`: total size, command size, command; every step is unwrapped.
Returns the rest and the command bytes. -/
def commandFrame (bytes : Bytes) : Outcome (Bytes × Bytes) := do
  let (_totalSize, bytes) ← .unwrap (readBe32 bytes)
  let (commandSize, bytes) ← .unwrap (readBe32 bytes)
  let (command, bytes) ← .unwrap (takeN commandSize bytes)
  pure (bytes, command)

/-- `src/codec.rs:36-44` `struct PayloadFrame`. -/
structure PayloadFrame where
  magicNumber : Nat
  checksum : Nat
  metadataSize : Nat
  metadata : Bytes

/-- `src/codec.rs:54-68` `payload_frame`; `none` is nom's `Err(Incomplete)`. -/
def payloadFrame (bytes : Bytes) : Option (Bytes × PayloadFrame) := do
  let (magicNumber, bytes) ← readBe16 bytes
  let (checksum, bytes) ← readBe32 bytes
  let (metadataSize, bytes) ← readBe32 bytes
  let (metadata, bytes) ← takeN metadataSize bytes
  pure (bytes, { magicNumber, checksum, metadataSize, metadata })

/-- `src/codec.rs:131-148`: the contents of one complete frame (`src[..message_size]`). -/
def decodeFrame (frame : Bytes) : Outcome MessageCommand := do
  let (bytes, commandBytes) ← commandFrame frame
  let command ← .unwrap (parseFromBytes pulsar .baseCommand commandBytes)
  -- lines 134-139: an unparsable payload frame is treated as no payload
  let pf : Bytes × Option PayloadFrame :=
    if bytes.isEmpty then (bytes, none)
    else match payloadFrame bytes with
      | some (rest, p) => (rest, some p)
      | none => (bytes, none)
  match pf.2 with
  | none => pure { command, payload := none }
  | some p => do
    let metadata ← .unwrap (parseFromBytes pulsar .messageMetadata p.metadata)
    pure { command, payload := some { metadata, data := pf.1 } }

/-- `src/codec.rs:122-157` `Decoder::decode`: `ok none` = need more bytes; `ok (some (frame, rest))` = one frame, `rest` is
what stays in the buffer.  The function never returns `Err`. -/
def decode (src : Bytes) : Outcome (Option (MessageCommand × Bytes)) :=
  match readBe32 src with
  | none => .ok none
  | some (size, _) =>
    let messageSize := size + 4
    if messageSize ≤ src.length then do
      let message ← decodeFrame (src.take messageSize)
      pure (some (message, src.drop messageSize))
    else .ok none

end Codec
end Neutron
