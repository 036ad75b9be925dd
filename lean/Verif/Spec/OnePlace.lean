import Verif.Spec.RequestIds
import Verif.Model.App

/-!
# Commands that name a producer or consumer, and the calls an application can make
-/

namespace Neutron

open Proto

/-- The command is a `PRODUCER`, `SUBSCRIBE`, `ACK`, `SEND` or `FLOW` of producer or consumer `p`: all commands of this library that
name one. -/
def NamesClient (v : MessageCommand) (p : UInt64) : Prop :=
  (commandType v.command = 5 ∧ ∃ m, getMsg .baseCommand v.command 5 = some m ∧ getU64 .commandProducer m 2 = p) ∨
  (commandType v.command = 4 ∧ ∃ m, getMsg .baseCommand v.command 4 = some m ∧ getU64 .commandSubscribe m 4 = p) ∨
  (commandType v.command = 10 ∧ ∃ m, getMsg .baseCommand v.command 10 = some m ∧ getU64 .commandAck m 1 = p) ∨
  (commandType v.command = 6 ∧ ∃ m, getMsg .baseCommand v.command 6 = some m ∧ getU64 .commandSend m 1 = p) ∨
  (commandType v.command = 11 ∧ ∃ m, getMsg .baseCommand v.command 11 = some m ∧ getU64 .commandFlow m 1 = p)

/-- The program is one of the calls `Producer` and `Consumer` offer: `send`, `send_batch`, `send_all`, `ack`, `ack_all`. -/
inductive Offered : Prog Unit → Prop where
  | send {M : Type} (serialize : M → Option Bytes) (m : M) : Offered (Session.send serialize m)
  | sendBatch {M : Type} (serialize : M → Option Bytes) (ms : List M) : Offered (Session.sendBatch serialize ms)
  | sendAll {M : Type} (serialize : M → Option Bytes) (ms : List M) : Offered (Session.sendAll serialize ms)
  | ack (id : MessageId) : Offered (Session.ack id)
  | ackAll (ids : List MessageId) : Offered (Session.ackAll ids)

/-- Every call the application made on a producer or consumer is one of those they offer. -/
def App.Offers {T : Type} (a : App.State T) : Prop := ∀ j ∈ a.jobs, ∀ i p, j.made = .call i p → Offered p

end Neutron
