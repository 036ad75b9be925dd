import Verif.Model.Framed
import Verif.Spec.Frame
import Verif.Spec.ProtoFormat

/-!
# Specification vocabulary for streams of frames
-/

namespace Neutron.Framed

open Frame Proto

/-- `bytes` is a protobuf encoding - any one - of `m`, a message of type `t`, with all required fields set. -/
def IsMessage (t : MsgTy) (bytes : Bytes) (m : Msg) : Prop :=
  Format.Encodes pulsar maxDepth t bytes m ∧ HasRequired pulsar t m

/-- A command together with bytes a peer may send for it: framed as `Spec/Frame.lean` says, with any protobuf encoding of the command
and of the metadata, and any four bytes in the place of the checksum. -/
def IsFrame (f : MessageCommand × Bytes) : Prop :=
  ∃ cmd, IsMessage .baseCommand cmd f.1.command ∧
    match f.1.payload with
    | none => size cmd none < 4294967296 ∧ f.2 = layout cmd none
    | some p => ∃ md c, IsMessage .messageMetadata md p.metadata ∧ c < 4294967296 ∧ size cmd (some (md, p.data)) < 4294967296 ∧
        f.2 = layoutWithChecksum c cmd md p.data

/-- The contents of a block (what follows its first four bytes) make a frame a client can read: a size, that many bytes encoding a command,
and a rest; and if the rest has the shape of a payload section - two bytes, four bytes, a size, that many bytes, the payload - those
bytes encode the metadata. -/
def Readable (body : Bytes) : Prop :=
  ∃ cmd rest, body = be32 cmd.length ++ cmd ++ rest ∧ cmd.length < 4294967296 ∧ (∃ m, IsMessage .baseCommand cmd m) ∧
    ∀ magic checksum md data, rest = magic ++ checksum ++ be32 md.length ++ md ++ data → magic.length = 2 → checksum.length = 4 →
      md.length < 4294967296 → ∃ m, IsMessage .messageMetadata md m

/-- Four bytes saying how many follow, and that many bytes. -/
def IsBlock (f : Bytes) : Prop := ∃ body : Bytes, body.length < 4294967296 ∧ f = be32 body.length ++ body

/-- The beginning of a block, not the whole of it (possibly nothing). -/
def IsPartial (part : Bytes) : Prop := ∃ f q, IsBlock f ∧ q ≠ [] ∧ part ++ q = f

/-- The bytes a peer puts on the wire for a list of frames. -/
def stream (fs : List (MessageCommand × Bytes)) : Bytes := (fs.map (·.2)).flatten

/-- The data carried by a list of socket reads. -/
def bytesOf : List Read → Bytes
  | [] => []
  | .data b :: rs => b ++ bytesOf rs
  | _ :: rs => bytesOf rs

/-- A read that returned data. -/
def IsData : Read → Prop
  | .data _ => True
  | _ => False

/-- The reads among a list of events, in order. -/
def arrivals : List Ev → List Read
  | [] => []
  | .arrive r :: es => r :: arrivals es
  | .poll :: es => arrivals es

/-- Number of polls among a list of events. -/
def polls : List Ev → Nat
  | [] => 0
  | .arrive _ :: es => polls es
  | .poll :: es => polls es + 1

/-- What the connection task gets to see, given the complete frames, the partial tail and whether the peer closed. -/
def expected (items : List MessageCommand) (part : Bytes) (closed : Bool) : List Poll :=
  items.map .item ++ (if closed then (if part.isEmpty then [.ended] else [.failed, .ended]) else [])

end Neutron.Framed
