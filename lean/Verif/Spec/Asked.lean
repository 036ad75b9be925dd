import Verif.Spec.App

/-!
# Vocabulary: what on the wire comes from which call
-/

namespace Neutron.App

open Proto

/-- `v` is what step `c` of a call on client number `i`, named `name`, puts on the wire: a `CONNECT` to the configured broker or, through it,
to the one the step names; otherwise the command of the step's arguments with the client's id, its name and a value of its counters. -/
inductive Carries (cfg : Sys.Cfg) (i : Nat) (name : String) : Call → MessageCommand → Prop where
  | connect (x : Connect) (ha : x.brokerAddress = some cfg.config.brokerAddress) (hm : x.authMethodName = cfg.authMethod) :
      Carries cfg i name .connect x.toCommand
  | proxied (p : String) (x : Connect) (ha : x.brokerAddress = some (.proxy cfg.config.brokerAddress.baseUrl p))
      (hm : x.authMethodName = cfg.authMethod) : Carries cfg i name (.connectToProxy p) x.toCommand
  | lookup (topic : String) (req : UInt64) : Carries cfg i name (.lookupTopic topic) (LookupTopic.toCommand ⟨req, topic⟩)
  | producer (topic : String) (req : UInt64) :
      Carries cfg i name (.producer topic) (ProducerCmd.toCommand ⟨topic, UInt64.ofNat i, req, some name⟩)
  | subscribe (topic sub : String) (req : UInt64) :
      Carries cfg i name (.subscribe topic sub) (Subscribe.toCommand ⟨topic, sub, UInt64.ofNat i, req, .shared⟩)
  | ack (m : MessageId) (req : UInt64) (v : MessageCommand) (hv : ackToCommand [⟨UInt64.ofNat i, m, req⟩] = .ok v) :
      Carries cfg i name (.ack m) v
  | send (payload : Bytes) (seq now : UInt64) (v : MessageCommand)
      (hv : Send.toCommand now (.single name (UInt64.ofNat i) seq payload) = .ok v) : Carries cfg i name (.sendMessage payload) v
  | sendBatch (payloads : List Bytes) (seq now : UInt64) (v : MessageCommand)
      (hv : Send.toCommand now (.batch name (UInt64.ofNat i) seq payloads) = .ok v) : Carries cfg i name (.sendBatch payloads) v

/-- A `PONG` (the connection answers the broker's `PING`s by itself). -/
def IsPong (v : MessageCommand) : Prop := commandType v.command = 19

/-- A `FLOW` of the consumer with this id. -/
def IsFlow (v : MessageCommand) (consumer : UInt64) : Prop :=
  commandType v.command = 11 ∧ ∃ m, getMsg .baseCommand v.command 11 = some m ∧ getU64 .commandFlow m 1 = consumer

/-- An `ACK` of the consumer with this id, for this message only. -/
def IsAck (v : MessageCommand) (consumer : UInt64) (id : MessageId) : Prop :=
  commandType v.command = 10 ∧ ∃ m, getMsg .baseCommand v.command 10 = some m ∧ getU64 .commandAck m 1 = consumer ∧
    getF .commandAck m 3 = [.msg id]

end Neutron.App
