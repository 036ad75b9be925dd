import Verif.Model.Message
import Verif.Spec.Stream

/-!
# Specification vocabulary for commands
-/

namespace Neutron

open Proto

/-- Serialisable: well typed at depth `k` and initialised. -/
def Ser (k : Nat) (t : MsgTy) (m : Msg) : Prop :=
  wellTyped pulsar k t m = true ∧ initMsg pulsar (pulsar t) m = true

/-- The serialised parts of a command. -/
def MessageCommand.parts (mc : MessageCommand) : Bytes × Option (Bytes × Bytes) :=
  (encMsg pulsar (pulsar .baseCommand) mc.command,
   mc.payload.map fun p => (encMsg pulsar (pulsar .messageMetadata) p.metadata, p.data))

/-- A `MessageIdData` the generated Rust type can hold, with its required fields set (nested at most 99 levels: it sits
two levels below the command that carries it). -/
def ValidId (m : MessageId) : Prop :=
  wellTyped pulsar 99 .messageIdData m = true ∧ HasRequired pulsar .messageIdData m

/-- What the public API can hand to the engine: acks carry at least one, valid, message id; everything else is
unrestricted. -/
def Outbound.Valid : Outbound → Prop
  | .ack acks => acks ≠ [] ∧ ∀ a ∈ acks, ValidId a.messageId
  | _ => True

/-- The bytes an application has put into a command: names, topics, credentials, message ids and payloads, with 34 bytes for each
message of a batch and 20 for each id. -/
def Outbound.volume : Outbound → Nat
  | .connect c => (c.authData.getD []).length + (utf8 (c.authMethodName.getD "none")).length +
      (utf8 ((c.brokerAddress.bind BrokerAddress.getProxy).getD "")).length
  | .send (.single n _ _ p) => (utf8 n).length + p.length
  | .send (.batch n _ _ ps) => (utf8 n).length + (ps.map fun p => p.length + 34).sum
  | .ack l => (l.map fun a => (encMsg pulsar (pulsar .messageIdData) a.messageId).length + 20).sum
  | .lookupTopic l => (utf8 l.topic).length
  | .subscribe s => (utf8 s.topic).length + (utf8 s.subscription).length
  | .producer p => (utf8 p.topic).length + (utf8 (p.producerName.getD "")).length
  | .authChallenge a => (utf8 a.authMethodName).length + a.authData.length
  | _ => 0

/-- The bytes written for an outbound command at time `now`, when all is well. -/
def wireBytes (overflowChecks : Bool) (now : UInt64) (o : Outbound) : Outcome Bytes := do
  let item ← o.toCommand now
  Codec.encode overflowChecks item

/-- These bytes are a frame for the command `item`: what any conforming reader of the protocol gets from them. -/
def ReadsAs (frame : Bytes) (item : MessageCommand) : Prop := Framed.IsFrame (item, frame)

end Neutron
