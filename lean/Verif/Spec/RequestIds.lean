import Verif.Spec.Received

/-!
# Request ids on the wire

Stated on the commands a broker receives: which request id a command carries, and which producer or consumer it names.
-/

namespace Neutron

open Proto

/-- The command is a `PRODUCER`, `SUBSCRIBE` or `ACK` of producer or consumer `p` with request id `r`. -/
def IsRequestOf (v : MessageCommand) (p r : UInt64) : Prop :=
  (commandType v.command = 5 ∧ ∃ m, getMsg .baseCommand v.command 5 = some m ∧ getU64 .commandProducer m 2 = p ∧
    getU64 .commandProducer m 3 = r) ∨
  (commandType v.command = 4 ∧ ∃ m, getMsg .baseCommand v.command 4 = some m ∧ getU64 .commandSubscribe m 4 = p ∧
    getU64 .commandSubscribe m 5 = r) ∨
  (commandType v.command = 10 ∧ ∃ m, getMsg .baseCommand v.command 10 = some m ∧ getU64 .commandAck m 1 = p ∧
    getU64 .commandAck m 8 = r)

/-- The command is a `LOOKUP` with request id `r`; it names no producer or consumer. -/
def IsLookup (v : MessageCommand) (r : UInt64) : Prop :=
  commandType v.command = 23 ∧ ∃ m, getMsg .baseCommand v.command 23 = some m ∧ getU64 .commandLookupTopic m 2 = r

/-- The command carries request id `r`. -/
def HasRequestId (v : MessageCommand) (r : UInt64) : Prop := (∃ p, IsRequestOf v p r) ∨ IsLookup v r

end Neutron
