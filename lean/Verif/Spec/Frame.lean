import Verif.Model.Codec
import Verif.Spec.Proto

/-!
# Specification vocabulary for frames

The Pulsar binary protocol's framing, written down independently of the codec:

* simple command: `[total size][command size][command]`
* payload command: `[total size][command size][command][0x0e01][checksum][metadata size][metadata][payload]`

with 4-byte big-endian sizes, `total size` counting everything after itself, and the checksum covering everything
after itself.
-/

namespace Neutron.Frame

open Proto

/-- The bytes of a frame; `pl` holds the metadata bytes and the payload of a payload command. -/
def layout (cmd : Bytes) : Option (Bytes × Bytes) → Bytes
  | none => be32 (4 + cmd.length) ++ be32 cmd.length ++ cmd
  | some (md, data) =>
    be32 (4 + cmd.length + 2 + 4 + (4 + md.length + data.length)) ++ be32 cmd.length ++ cmd
      ++ [0x0e, 0x01] ++ be32 (Crc.crc32c (be32 md.length ++ md ++ data)) ++ (be32 md.length ++ md ++ data)

/-- A payload frame carrying an arbitrary checksum field. -/
def layoutWithChecksum (c : Nat) (cmd md data : Bytes) : Bytes :=
  be32 (4 + cmd.length + 2 + 4 + (4 + md.length + data.length)) ++ be32 cmd.length ++ cmd
      ++ [0x0e, 0x01] ++ be32 c ++ (be32 md.length ++ md ++ data)

/-- Length of a frame. -/
def size (cmd : Bytes) : Option (Bytes × Bytes) → Nat
  | none => 8 + cmd.length
  | some (md, data) => 18 + cmd.length + md.length + data.length

/-- `cmd` and `pl` are the serialisations of the parts of `item`. -/
def Serialises (item : MessageCommand) (cmd : Bytes) (pl : Option (Bytes × Bytes)) : Prop :=
  writeToBytes pulsar .baseCommand item.command = some cmd ∧
  match item.payload, pl with
  | none, none => True
  | some p, some (md, data) => writeToBytes pulsar .messageMetadata p.metadata = some md ∧ data = p.data
  | _, _ => False

/-- A command the generated Rust types can hold and serialise, whose frame fits 32-bit sizes. -/
structure Sendable (item : MessageCommand) (cmd : Bytes) (pl : Option (Bytes × Bytes)) : Prop where
  command_ok : wellTyped pulsar maxDepth .baseCommand item.command = true
  metadata_ok : ∀ p, item.payload = some p → wellTyped pulsar maxDepth .messageMetadata p.metadata = true
  serialises : Serialises item cmd pl
  fits : size cmd pl < 4294967296

end Neutron.Frame
