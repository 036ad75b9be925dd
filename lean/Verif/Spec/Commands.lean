import Verif.Spec.Message
import Verif.Model.Client

/-!
# Specification of commands and broker messages, in terms of protobuf fields

Field numbers and types are those of `src/protos/pulsar.proto`.
-/

namespace Neutron

open Proto

/-- Message `m` of type `t` has exactly the listed fields set (by field number), with the listed values. -/
def HasExactly (t : MsgTy) (m : Msg) (fields : List (Nat × List Val)) : Prop :=
  ∀ n, getF t m n = (fields.lookup n).getD []

/-- The command is of type number `ty` and its only sub-command is the one for that type (in `pulsar.proto` a command's
type number and the field number of its sub-command coincide), of message type `t`, with exactly these fields. -/
def IsCommand (v : MessageCommand) (ty : Nat) (t : MsgTy) (fields : List (Nat × List Val)) : Prop :=
  ∃ sub, HasExactly .baseCommand v.command [(1, [.int ty]), (ty, [.msg sub])] ∧ HasExactly t sub fields

/-- A broker `MESSAGE` command for consumer `cid` carrying message id `mid`. -/
def IsMessage (v : MessageCommand) (cid : UInt64) (mid : MessageId) : Prop :=
  commandType v.command = 9 ∧ ∃ cm, getMsg .baseCommand v.command 9 = some cm ∧
    getU64 .commandMessage cm 1 = cid ∧ getMsg .commandMessage cm 2 = some mid

/-- What a broker does to a published message when it delivers it: the payload bytes and the announced number of
messages (metadata field 11) stay; other metadata may change. -/
def Relays (sent delivered : MessageCommand) : Prop :=
  ∃ p q, sent.payload = some p ∧ delivered.payload = some q ∧ q.data = p.data ∧
    getF .messageMetadata q.metadata 11 = getF .messageMetadata p.metadata 11

/-- `mid` with batch index `i` (field 4): the id a consumer uses for element `i` of a batch. -/
def IsBatchId (mid : MessageId) (i : Nat) (r : MessageId) : Prop :=
  getF .messageIdData r 4 = [.int i] ∧ ∀ n, n ≠ 4 → getF .messageIdData r n = getF .messageIdData mid n

/-- The concatenation of batch elements as `pulsar.proto`'s `SingleMessageMetadata` framing: for each element a size, that
many bytes of metadata, and the payload the metadata announces (field 3). -/
inductive BatchOf : Bytes → List BatchedPayload → Bytes → Prop where
  | done (rest : Bytes) : BatchOf rest [] rest
  | element (mb : Bytes) (md : Msg) (payload tail rest : Bytes) (bs : List BatchedPayload) :
      mb.length < 4294967296 → Framed.IsMessage .singleMessageMetadata mb md →
      (intOf (getF .singleMessageMetadata md 3)).getD 0 = payload.length → BatchOf tail bs rest →
      BatchOf (be32 mb.length ++ mb ++ payload ++ tail) (⟨md, payload⟩ :: bs) rest

/-- The command each API call is meant to put on the wire: type number, sub-command type, its fields. -/
def Call.wire (c : Client) : Call → Nat × MsgTy × List (Nat × List Val)
  | .connect => (2, .commandConnect, [(1, [.str "2.0.0-incubating"]), (4, [.int 21])])
  | .connectToProxy p => (2, .commandConnect, [(1, [.str "2.0.0-incubating"]), (4, [.int 21]), (6, [.str (String.ofList (trimStart "pulsar://".toList p.toList))])])
  | .lookupTopic t => (23, .commandLookupTopic, [(1, [.str t]), (2, [.int c.requestId.toNat])])
  | .producer t => (5, .commandProducer,
      [(2, [.int c.clientId.toNat]), (3, [.int c.requestId.toNat]), (1, [.str t]), (4, [.str c.clientName])])
  | .subscribe t s => (4, .commandSubscribe,
      [(1, [.str t]), (2, [.str s]), (3, [.int 1]), (4, [.int c.clientId.toNat]), (5, [.int c.requestId.toNat])])
  | .ack m => (10, .commandAck,
      [(1, [.int c.clientId.toNat]), (2, [.int 0]), (3, [.msg m]), (8, [.int c.requestId.toNat])])
  | .sendMessage _ => (6, .commandSend, [(1, [.int c.clientId.toNat]), (2, [.int c.sequenceId.toNat]), (3, [.int 1])])
  | .sendBatch ps => (6, .commandSend,
      [(1, [.int c.clientId.toNat]), (2, [.int c.sequenceId.toNat]), (3, [.int (asI32 ps.length)])])
  | .flow n => (11, .commandFlow, [(1, [.int c.clientId.toNat]), (2, [.int n.toNat])])

/-- Only sends carry a payload; its metadata names the producer, the sequence id, the time and the number of messages. -/
def Call.wirePayload (c : Client) (now : UInt64) (call : Call) (p : Option Payload) : Prop :=
  match call with
  | .sendMessage bytes => ∃ md, p = some ⟨md, bytes⟩ ∧ HasExactly .messageMetadata md
      [(1, [.str c.clientName]), (2, [.int c.sequenceId.toNat]), (3, [.int now.toNat]), (12, [.int now.toNat]), (11, [.int 1])]
  | .sendBatch ps => ∃ md data, p = some ⟨md, data⟩ ∧ HasExactly .messageMetadata md
      [(1, [.str c.clientName]), (2, [.int c.sequenceId.toNat]), (3, [.int now.toNat]), (12, [.int now.toNat]),
       (11, [.int (asI32 ps.length)])] ∧
      ((∀ p ∈ ps, p.length < 2147483648) → ∃ bs, BatchOf data bs [] ∧ bs.map (·.payload) = ps)
  | _ => p = none

end Neutron

namespace Neutron

open Proto

/-- Removing every leading `pulsar://`: `s` is some number of copies of it followed by `r`, and `r` does not start with it. -/
def IsStripped (s r : String) : Prop :=
  ∃ k, s.toList = (List.replicate k "pulsar://".toList).flatten ++ r.toList ∧ ¬ "pulsar://".toList <+: r.toList

/-- The command types the client understands: PING, PONG, CONNECTED, SEND_RECEIPT, ACK_RESPONSE, MESSAGE,
LOOKUP_RESPONSE, AUTH_CHALLENGE, SUCCESS, PRODUCER_SUCCESS. -/
def supportedTypes : List Int := [18, 19, 3, 7, 38, 9, 24, 36, 13, 17]

/-- What event a broker command stands for, field by field. -/
def Denotes (v : MessageCommand) : Inbound → Prop
  | .ping => commandType v.command = 18
  | .pong => commandType v.command = 19
  | .connected => commandType v.command = 3
  | .authChallengeRequest => commandType v.command = 36
  | .sendReceipt r => commandType v.command = 7 ∧ ∃ s, getMsg .baseCommand v.command 7 = some s ∧
      r.producerId = getU64 .commandSendReceipt s 1 ∧ r.sequenceId = getU64 .commandSendReceipt s 2 ∧
      getMsg .commandSendReceipt s 3 = some r.messageId
  | .ackReciept r => commandType v.command = 38 ∧ ∃ s, getMsg .baseCommand v.command 38 = some s ∧
      r.consumerId = getU64 .commandAckResponse s 1 ∧ r.requestId = getU64 .commandAckResponse s 6
  | .message (.single cid mid payload) => IsMessage v cid mid ∧
      ∃ md, v.payload = some ⟨md, payload⟩ ∧ ¬ 1 < (intOf (getF .messageMetadata md 11)).getD 1
  | .message (.batch cid mid payloads) => IsMessage v cid mid ∧ ∃ md data rest, v.payload = some ⟨md, data⟩ ∧
      1 < (intOf (getF .messageMetadata md 11)).getD 1 ∧
      (intOf (getF .messageMetadata md 11)).getD 1 = payloads.length ∧ BatchOf data payloads rest
  | .lookupTopicResponse r => commandType v.command = 24 ∧ ∃ s, getMsg .baseCommand v.command 24 = some s ∧
      r.requestId = getU64 .commandLookupTopicResponse s 4 ∧ r.brokerServiceUrl = getStr .commandLookupTopicResponse s 1 ∧
      r.brokerServiceUrlTls = getStr .commandLookupTopicResponse s 2 ∧
      (r.responseType = .connect ↔ getF .commandLookupTopicResponse s 3 = [.int 1]) ∧
      (r.responseType = .failed ↔ getF .commandLookupTopicResponse s 3 = [.int 2]) ∧
      (r.authoritative = true ↔ ∃ n, getF .commandLookupTopicResponse s 5 = [.int n] ∧ n ≠ 0) ∧
      (r.proxy = true ↔ ∃ n, getF .commandLookupTopicResponse s 8 = [.int n] ∧ n ≠ 0)
  | .success rid => commandType v.command = 13 ∧ ∃ s, getMsg .baseCommand v.command 13 = some s ∧
      rid = getU64 .commandSuccess s 1
  | .producerSuccess r => commandType v.command = 17 ∧ ∃ s, getMsg .baseCommand v.command 17 = some s ∧
      r.requestId = getU64 .commandProducerSuccess s 1 ∧ r.producerName = getStr .commandProducerSuccess s 2

/-- The parts the client dereferences are there: the sub-command of the announced type, a message id in receipts and
messages, a payload section in messages. -/
def Complete (v : MessageCommand) : Prop :=
  (commandType v.command = 7 → ∃ s mid, getMsg .baseCommand v.command 7 = some s ∧ getMsg .commandSendReceipt s 3 = some mid) ∧
  (commandType v.command = 38 → ∃ s, getMsg .baseCommand v.command 38 = some s) ∧
  (commandType v.command = 9 → (∃ s mid, getMsg .baseCommand v.command 9 = some s ∧ getMsg .commandMessage s 2 = some mid) ∧
    ∃ p, v.payload = some p) ∧
  (commandType v.command = 24 → ∃ s, getMsg .baseCommand v.command 24 = some s) ∧
  (commandType v.command = 13 → ∃ s, getMsg .baseCommand v.command 13 = some s) ∧
  (commandType v.command = 17 → ∃ s, getMsg .baseCommand v.command 17 = some s)

/-- `src/message.rs:26-36` `impl Hash for MessageIdData`: the fields fed to the hasher, in order. -/
def idHashInput (m : MessageId) : List (List Val) :=
  [getF .messageIdData m 1, getF .messageIdData m 2, getF .messageIdData m 3, getF .messageIdData m 4,
   getF .messageIdData m 5, getF .messageIdData m 6]

end Neutron
