import Verif.Model.Addr
import Verif.Model.Codec

/-!
# Commands (`src/message.rs`)

`Outbound` and `Inbound` are the client's own command types; `Outbound.toCommand` and `Inbound.ofCommand` are the
conversions to and from protobuf commands.  Ids (`u64`) are `UInt64`, message ids are protobuf `MessageIdData` values,
strings are `String`, byte vectors are `Bytes`.
-/

namespace Neutron

open Proto

/-- A message of type `t` whose listed fields (by field number) are set and all others unset: `T::new()` followed by setters. -/
def mkMsg (t : MsgTy) (fields : List (Nat × List Val)) : Msg :=
  (pulsar t).map fun d => (fields.lookup d.num).getD []

/-- Values of field `num` of a message of type `t`. -/
def getF (t : MsgTy) (m : Msg) (num : Nat) : List Val := lookupF (pulsar t) m num

def vU64 (n : UInt64) : List Val := [.int n.toNat]
def vStr (s : String) : List Val := [.str s]
def vBytes (b : Bytes) : List Val := [.byt b]
def vMsg (m : Msg) : List Val := [.msg m]

/-- `x as i32` of a `u32`/`usize` value: low 32 bits, two's complement. -/
def asI32 (n : Nat) : Int := signed32 n

/-- Generated `u64` getter: the value, 0 if unset. -/
def getU64 (t : MsgTy) (m : Msg) (num : Nat) : UInt64 := UInt64.ofNat ((intOf (getF t m num)).getD 0).toNat

/-- Generated string getter: the value, "" if unset. -/
def getStr (t : MsgTy) (m : Msg) (num : Nat) : String := (strOf (getF t m num)).getD ""

/-- Generated bool getter with default `d`. -/
def getBool (t : MsgTy) (m : Msg) (num : Nat) (d : Bool) : Bool :=
  match intOf (getF t m num) with
  | some n => decide (n ≠ 0)
  | none => d

/-- `MessageField::into_option`. -/
def getMsg (t : MsgTy) (m : Msg) (num : Nat) : Option Msg := msgOf (getF t m num)

/-- A protobuf `MessageIdData`. -/
abbrev MessageId := Msg

/-- `src/consumer.rs:123-128`: `MessageIdData { batch_index: Some(i as i32), ..message_id.clone() }` (`batch_index` is field 4). -/
def withBatchIndex (i : Nat) (m : MessageId) : MessageId := setF (pulsar .messageIdData) m 4 [.int (asI32 i)]

/-! ## Outbound commands -/

/-- `src/message.rs:325-330` `struct Connect`. -/
structure Connect where
  authData : Option Bytes
  authMethodName : Option String
  brokerAddress : Option BrokerAddress
  deriving DecidableEq, Repr

/-- `src/message.rs:393-407` `enum Send`. -/
inductive Send where
  | single (producerName : String) (producerId sequenceId : UInt64) (payload : Bytes)
  | batch (producerName : String) (producerId sequenceId : UInt64) (payloads : List Bytes)

/-- `src/message.rs:548-553` `struct Ack`. -/
structure Ack where
  consumerId : UInt64
  messageId : MessageId
  requestId : UInt64

/-- `src/message.rs:734-738` `struct LookupTopic`. -/
structure LookupTopic where
  requestId : UInt64
  topic : String
  deriving DecidableEq, Repr

/-- `src/message.rs:838-842` `struct AuthChallenge`. -/
structure AuthChallenge where
  authMethodName : String
  authData : Bytes
  deriving DecidableEq, Repr

/-- `src/message.rs:901-905` `struct Flow`. -/
structure Flow where
  consumerId : UInt64
  messagePermits : UInt32
  deriving DecidableEq, Repr

/-- `src/message.rs:932-938` `enum SubType`. -/
inductive SubType where
  | exclusive | shared | failover | keyShared
  deriving DecidableEq, Repr

/-- `src/message.rs:940-947` `struct Subscribe`. -/
structure Subscribe where
  topic : String
  subscription : String
  consumerId : UInt64
  requestId : UInt64
  subType : SubType
  deriving DecidableEq, Repr

/-- `src/message.rs:1015-1021` `struct Producer` (the registration command). -/
structure ProducerCmd where
  topic : String
  producerId : UInt64
  requestId : UInt64
  producerName : Option String
  deriving DecidableEq, Repr

/-- `src/message.rs:67-79` `enum Outbound`. -/
inductive Outbound where
  | pong
  | ping
  | connect (c : Connect)
  | send (s : Send)
  | ack (a : List Ack)
  | lookupTopic (l : LookupTopic)
  | subscribe (s : Subscribe)
  | authChallenge (a : AuthChallenge)
  | flow (f : Flow)
  | producer (p : ProducerCmd)

namespace Send

/-- `src/message.rs:416-421`. -/
def producerName : Send → String
  | .single n _ _ _ => n
  | .batch n _ _ _ => n

/-- `src/message.rs:423-428`. -/
def producerId : Send → UInt64
  | .single _ i _ _ => i
  | .batch _ i _ _ => i

/-- `src/message.rs:430-435`. -/
def sequenceId : Send → UInt64
  | .single _ _ s _ => s
  | .batch _ _ s _ => s

/-- `src/message.rs:437-442` `number_of_messages` (`payloads.len() as u32`). -/
def numberOfMessages : Send → Nat
  | .single .. => 1
  | .batch _ _ _ ps => Codec.asU32 ps.length

/-- `src/message.rs:451-457`: one entry of a batch payload. -/
def batchEntry (payload : Bytes) : Outcome Bytes := do
  let metadata := mkMsg .singleMessageMetadata [(3, [.int (asI32 payload.length)])]
  let metadataSize := Codec.asU32 (computeSize pulsar .singleMessageMetadata metadata)
  let metadataBytes ← .unwrap (writeToBytes pulsar .singleMessageMetadata metadata)
  pure (be32 metadataSize ++ metadataBytes ++ payload)

/-- `src/message.rs:450-458`: the loop over the payloads. -/
def batchEntries : List Bytes → Outcome Bytes
  | [] => pure []
  | p :: ps => do
    let e ← batchEntry p
    let es ← batchEntries ps
    pure (e ++ es)

/-- `src/message.rs:444-463` `payload`. -/
def payload : Send → Outcome Bytes
  | .single _ _ _ p => pure p
  | .batch _ _ _ ps => batchEntries ps

end Send

/-- The common tail of every `From<..> for MessageCommand`: a `BaseCommand` with `type` (field 1) and one sub-command set.
In `pulsar.proto` the sub-command's field number equals the value of its `Type`. -/
def baseCommand (ty : Int) (field : Nat) (sub : Msg) : Msg := mkMsg .baseCommand [(1, [.int ty]), (field, vMsg sub)]

/-- `src/message.rs:253-264`. -/
def pingCommand : MessageCommand := ⟨baseCommand 18 18 (mkMsg .commandPing []), none⟩

/-- `src/message.rs:299-310`. -/
def pongCommand : MessageCommand := ⟨baseCommand 19 19 (mkMsg .commandPong []), none⟩

/-- `src/message.rs:338-363` `From<Connect> for MessageCommand`. -/
def Connect.toCommand (c : Connect) : MessageCommand :=
  let auth : List (Nat × List Val) := match c.authData with
    | some v => [(5, vStr (c.authMethodName.getD "none")), (3, vBytes v)]
    | none => []
  let proxy : List (Nat × List Val) := match c.brokerAddress.bind BrokerAddress.getProxy with
    | some p => [(6, vStr p)]
    | none => []
  ⟨baseCommand 2 2 (mkMsg .commandConnect ([(1, vStr "2.0.0-incubating"), (4, [.int 21])] ++ auth ++ proxy)), none⟩

/-- `src/message.rs:472-506` `From<Send> for MessageCommand`; `now` is `Utc::now().timestamp_millis() as u64`. -/
def Send.toCommand (now : UInt64) (s : Send) : Outcome MessageCommand := do
  let command := baseCommand 6 6 (mkMsg .commandSend
    [(1, vU64 s.producerId), (2, vU64 s.sequenceId), (3, [.int (asI32 s.numberOfMessages)])])
  let metadata := mkMsg .messageMetadata
    [(1, vStr s.producerName), (2, vU64 s.sequenceId), (3, vU64 now), (12, vU64 now), (11, [.int (asI32 s.numberOfMessages)])]
  let data ← s.payload
  pure ⟨command, some ⟨metadata, data⟩⟩

/-- `src/message.rs:567-591` `From<Vec<Ack>> for MessageCommand`: panics on an empty vector. -/
def ackToCommand (val : List Ack) : Outcome MessageCommand := do
  let first ← .unwrap val.head?
  let ackType : Int := if val.length > 1 then 1 else 0
  pure ⟨baseCommand 10 10 (mkMsg .commandAck [(1, vU64 first.consumerId), (2, [.int ackType]),
    (3, val.map fun a => .msg a.messageId), (8, vU64 first.requestId)]), none⟩

/-- `src/message.rs:746-761`. -/
def LookupTopic.toCommand (l : LookupTopic) : MessageCommand :=
  ⟨baseCommand 23 23 (mkMsg .commandLookupTopic [(1, vStr l.topic), (2, vU64 l.requestId)]), none⟩

/-- `src/message.rs:850-870` (sets the type `AUTH_CHALLENGE` on an `AuthResponse`). -/
def AuthChallenge.toCommand (a : AuthChallenge) : MessageCommand :=
  ⟨baseCommand 36 37 (mkMsg .commandAuthResponse
    [(2, vMsg (mkMsg .authData [(1, vStr a.authMethodName), (2, vBytes a.authData)]))]), none⟩

/-- `src/message.rs:913-928`. -/
def Flow.toCommand (f : Flow) : MessageCommand :=
  ⟨baseCommand 11 11 (mkMsg .commandFlow [(1, vU64 f.consumerId), (2, [.int f.messagePermits.toNat])]), none⟩

/-- `src/message.rs:960-965`. -/
def SubType.number : SubType → Int
  | .exclusive => 0
  | .shared => 1
  | .failover => 2
  | .keyShared => 3

/-- `src/message.rs:955-978`. -/
def Subscribe.toCommand (s : Subscribe) : MessageCommand :=
  ⟨baseCommand 4 4 (mkMsg .commandSubscribe [(1, vStr s.topic), (2, vStr s.subscription), (3, [.int s.subType.number]),
    (4, vU64 s.consumerId), (5, vU64 s.requestId)]), none⟩

/-- `src/message.rs:1029-1048`. -/
def ProducerCmd.toCommand (p : ProducerCmd) : MessageCommand :=
  let name : List (Nat × List Val) := match p.producerName with
    | some n => [(4, vStr n)]
    | none => []
  ⟨baseCommand 5 5 (mkMsg .commandProducer
    ([(2, vU64 p.producerId), (3, vU64 p.requestId), (1, vStr p.topic)] ++ name)), none⟩

/-- `src/message.rs:114-129` `From<Outbound> for MessageCommand`. -/
def Outbound.toCommand (now : UInt64) : Outbound → Outcome MessageCommand
  | .ping => pure pingCommand
  | .pong => pure pongCommand
  | .connect c => pure c.toCommand
  | .send s => s.toCommand now
  | .ack a => ackToCommand a
  | .lookupTopic l => pure l.toCommand
  | .subscribe s => pure s.toCommand
  | .authChallenge a => pure a.toCommand
  | .flow f => pure f.toCommand
  | .producer p => pure p.toCommand

/-! ## Inbound commands -/

/-- `src/message.rs:510-515` `struct SendReceipt`. -/
structure SendReceipt where
  producerId : UInt64
  sequenceId : UInt64
  messageId : MessageId

/-- `src/message.rs:595-599` `struct AckReciept`. -/
structure AckReciept where
  consumerId : UInt64
  requestId : UInt64
  deriving DecidableEq, Repr

/-- `src/message.rs:409-413` `struct BatchedPayload`. -/
structure BatchedPayload where
  metadata : Msg
  payload : Bytes

/-- `src/message.rs:629-647` `SingleMessage`, `BatchMessage`, `enum Message`. -/
inductive Message where
  | single (consumerId : UInt64) (messageId : MessageId) (payload : Bytes)
  | batch (consumerId : UInt64) (messageId : MessageId) (payloads : List BatchedPayload)

/-- `src/message.rs:650-655` `Message::consumer_id`. -/
def Message.consumerId : Message → UInt64
  | .single c _ _ => c
  | .batch c _ _ => c

/-- `src/message.rs:765-770` `enum LookupResponseType`. -/
inductive LookupResponseType where
  | connect | redirect | failed
  deriving DecidableEq, Repr

/-- `src/message.rs:772-780` `struct LookupTopicResponse`. -/
structure LookupTopicResponse where
  requestId : UInt64
  brokerServiceUrl : String
  brokerServiceUrlTls : String
  responseType : LookupResponseType
  authoritative : Bool
  proxy : Bool
  deriving DecidableEq, Repr

/-- `src/message.rs:783-789` `get_broker_service_url`. -/
def LookupTopicResponse.getBrokerServiceUrl (r : LookupTopicResponse) : String :=
  if r.brokerServiceUrl ≠ "" then r.brokerServiceUrl else r.brokerServiceUrlTls

/-- `src/message.rs:1051-1055` `struct ProducerSuccess`. -/
structure ProducerSuccess where
  requestId : UInt64
  producerName : String
  deriving DecidableEq, Repr

/-- `src/message.rs:131-143` `enum Inbound` (`Connected` and `AuthChallengeRequest` carry nothing, `Success` a request id). -/
inductive Inbound where
  | ping
  | pong
  | connected
  | sendReceipt (r : SendReceipt)
  | ackReciept (r : AckReciept)
  | message (m : Message)
  | lookupTopicResponse (r : LookupTopicResponse)
  | authChallengeRequest
  | success (requestId : UInt64)
  | producerSuccess (s : ProducerSuccess)

/-- `src/message.rs:163-170` `try_consumer_or_producer_id`. -/
def Inbound.tryConsumerOrProducerId : Inbound → Option UInt64
  | .sendReceipt r => some r.producerId
  | .ackReciept r => some r.consumerId
  | .message m => some m.consumerId
  | _ => none

/-- `src/message.rs:670-687` `batched_payload`; `none` is any nom error. -/
def batchedPayload (i : Bytes) : Option (Bytes × BatchedPayload) := do
  let (metadataSize, i) ← readBe32 i
  let (mb, i) ← takeN metadataSize i
  let metadata ← parseFromBytes pulsar .singleMessageMetadata mb
  let payloadSize := (intOf (getF .singleMessageMetadata metadata 3)).getD 0
  if 0 ≤ payloadSize then do
    let (payload, i) ← takeN payloadSize.toNat i
    pure (i, ⟨metadata, payload⟩)
  else none

/-- `nom::multi::count(batched_payload, n)`. -/
def countBatched : Nat → Bytes → Option (Bytes × List BatchedPayload)
  | 0, i => some (i, [])
  | n + 1, i => do
    let (i, b) ← batchedPayload i
    let (i, bs) ← countBatched n i
    pure (i, b :: bs)

/-- `src/message.rs:690-697` `parse_batched_message`. -/
def parseBatchedMessage (count : Nat) (payload : Bytes) : Outcome (List BatchedPayload) :=
  match countBatched count payload with
  | some (_, r) => .ok r
  | none => .err .decodeFailed

/-- `MessageMetadata::num_messages_in_batch()` (proto default 1). -/
def numMessagesInBatch (metadata : Msg) : Int := (intOf (getF .messageMetadata metadata 11)).getD 1

/-- `src/message.rs:699-730` `TryFrom<MessageCommand> for Message` (the `MESSAGE` arm). -/
def Message.ofCommand (v : MessageCommand) : Outcome Message := do
  -- `value.command.message` dereferences to the default message when unset
  let cm := (getMsg .baseCommand v.command 9).getD (newMsg pulsar .commandMessage)
  let messageId ← .unwrap (getMsg .commandMessage cm 2)
  let p ← .unwrap v.payload
  let consumerId := getU64 .commandMessage cm 1
  let n := numMessagesInBatch p.metadata
  if n > 1 then do
    let payloads ← parseBatchedMessage n.toNat p.data
    pure (.batch consumerId messageId payloads)
  else pure (.single consumerId messageId p.data)

/-- `src/message.rs:533-540` (the `SEND_RECEIPT` arm). -/
def SendReceipt.ofCommand (v : MessageCommand) : Outcome SendReceipt := do
  let s ← .unwrap (getMsg .baseCommand v.command 7)
  let mid ← .unwrap (getMsg .commandSendReceipt s 3)
  pure ⟨getU64 .commandSendReceipt s 1, getU64 .commandSendReceipt s 2, mid⟩

/-- `src/message.rs:617-623` (the `ACK_RESPONSE` arm). -/
def AckReciept.ofCommand (v : MessageCommand) : Outcome AckReciept := do
  let a ← .unwrap (getMsg .baseCommand v.command 38)
  pure ⟨getU64 .commandAckResponse a 1, getU64 .commandAckResponse a 6⟩

/-- `src/message.rs:810-820`: `response()` returns the default (first) variant, `Redirect`, for an unset or unknown number. -/
def lookupTypeOf (n : Option Int) : LookupResponseType :=
  if n = some 1 then .connect else if n = some 2 then .failed else .redirect

/-- `src/message.rs:808-830` (the `LOOKUP_RESPONSE` arm). -/
def LookupTopicResponse.ofCommand (v : MessageCommand) : Outcome LookupTopicResponse := do
  let r ← .unwrap (getMsg .baseCommand v.command 24)
  pure ⟨getU64 .commandLookupTopicResponse r 4, getStr .commandLookupTopicResponse r 1,
    getStr .commandLookupTopicResponse r 2, lookupTypeOf (intOf (getF .commandLookupTopicResponse r 3)),
    getBool .commandLookupTopicResponse r 5 false, getBool .commandLookupTopicResponse r 8 false⟩

/-- `src/message.rs:1003-1008` (the `SUCCESS` arm). -/
def successOfCommand (v : MessageCommand) : Outcome UInt64 := do
  let s ← .unwrap (getMsg .baseCommand v.command 13)
  pure (getU64 .commandSuccess s 1)

/-- `src/message.rs:1073-1079` (the `PRODUCER_SUCCESS` arm). -/
def ProducerSuccess.ofCommand (v : MessageCommand) : Outcome ProducerSuccess := do
  let s ← .unwrap (getMsg .baseCommand v.command 17)
  pure ⟨getU64 .commandProducerSuccess s 1, getStr .commandProducerSuccess s 2⟩

/-- `BaseCommand::type_()`: unset or unknown numbers read as `CONNECT` (2), which the caller treats like any other
unsupported type, so the model keeps the number. -/
def commandType (command : Msg) : Int := (intOf (getF .baseCommand command 1)).getD 2

/-- `src/message.rs:191-229` `TryFrom<MessageCommand> for Inbound`. -/
def Inbound.ofCommand (v : MessageCommand) : Outcome Inbound :=
  let ty := commandType v.command
  if ty = 18 then pure .ping
  else if ty = 19 then pure .pong
  else if ty = 3 then pure .connected
  else if ty = 7 then do pure (.sendReceipt (← SendReceipt.ofCommand v))
  else if ty = 38 then do pure (.ackReciept (← AckReciept.ofCommand v))
  else if ty = 9 then do pure (.message (← Message.ofCommand v))
  else if ty = 24 then do pure (.lookupTopicResponse (← LookupTopicResponse.ofCommand v))
  else if ty = 36 then pure .authChallengeRequest
  else if ty = 13 then do pure (.success (← successOfCommand v))
  else if ty = 17 then do pure (.producerSuccess (← ProducerSuccess.ofCommand v))
  else .err .unsupportedCommand

/-! ## Resolver keys -/

/-- The keys used to match responses with requests, as data; `Key.render` gives the string the code uses. -/
inductive Key where
  | connect | send (sequenceId : UInt64) | ack | lookup | subscribe | authChallenge | flow | producer | message
  deriving DecidableEq, Repr

/-- The strings of `src/message.rs:98-112` and `173-189`. -/
def Key.render : Key → String
  | .connect => "CONNECT"
  | .send n => "SEND:" ++ Nat.repr n.toNat
  | .ack => "ACK"
  | .lookup => "LOOKUP"
  | .subscribe => "SUBSCRIBE"
  | .authChallenge => "AUTH_CHALLENGE"
  | .flow => "FLOW"
  | .producer => "PRODUCER"
  | .message => "MESSAGE"

/-- `src/message.rs:98-112` `try_key` of an outbound command. -/
def Outbound.tryKey : Outbound → Option Key
  | .connect _ => some .connect
  | .send s => some (.send s.sequenceId)
  | .ack _ => some .ack
  | .lookupTopic _ => some .lookup
  | .subscribe _ => some .subscribe
  | .authChallenge _ => some .authChallenge
  | .flow _ => some .flow
  | .producer _ => some .producer
  | _ => none

/-- `src/message.rs:173-189` `try_key` of an inbound command. -/
def Inbound.tryKey : Inbound → Option Key
  | .connected => some .connect
  | .sendReceipt r => some (.send r.sequenceId)
  | .ackReciept _ => some .ack
  | .message _ => some .message
  | .lookupTopicResponse _ => some .lookup
  | .authChallengeRequest => some .authChallenge
  | .success _ => some .subscribe
  | .producerSuccess _ => some .producer
  | _ => none

end Neutron
