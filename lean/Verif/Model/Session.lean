import Verif.Model.Client

/-!
# What the public calls of producers and consumers do, step by step

Programs over the two things a call can do with the engine: hand over a command (`send_command`,
`send_command_and_resolve` up to the channel send) and wait for the response.  The results of both come from outside, so a
program is a tree and its executions are paths (`Runs`).  Panics end the program.

Not modelled here: receiving messages (`Model/Consumer.lean`) and what the engine does with the commands (`Model/Sys.lean`).
-/

namespace Neutron

/-- The typed responses: `Connected`, `LookupTopicResponse`, `ProducerSuccess`, `Success`, `AckReciept`, `SendReceipt`. -/
inductive Response where
  | connected
  | lookup (r : LookupTopicResponse)
  | producerSuccess (p : ProducerSuccess)
  | success (requestId : UInt64)
  | ack (a : AckReciept)
  | receipt (r : SendReceipt)

/-- `Response::try_from(inbound)` at the response type of each call: `src/message.rs:370-379` (`Connected`), `517-526`
(`SendReceipt`), `601-610` (`AckReciept`), `792-801` (`LookupTopicResponse`), `987-996` (`Success`), `1057-1066`
(`ProducerSuccess`).  `flow` has no response. -/
def Call.accept : Call → Inbound → Option Response
  | .connect, .connected => some .connected
  | .connectToProxy _, .connected => some .connected
  | .lookupTopic _, .lookupTopicResponse r => some (.lookup r)
  | .producer _, .producerSuccess p => some (.producerSuccess p)
  | .subscribe _ _, .success n => some (.success n)
  | .ack _, .ackReciept a => some (.ack a)
  | .sendMessage _, .sendReceipt r => some (.receipt r)
  | .sendBatch _, .sendReceipt r => some (.receipt r)
  | _, _ => none

/-- `src/client.rs:107-122`: what the caller gets when the `oneshot` ends: a response, or the sender was dropped (`none`).
(`Ok(Err(_))` is never sent: `src/command_resolver.rs:43` sends only `Ok`.) -/
def Call.resolve (c : Call) : Option Inbound → Outcome Response
  | some i => match c.accept i with
    | some r => .ok r
    | none => .err .unresolvable
  | none => .err .channelTerminated

/-- A program: ended; hand over a command and go on with the ticket of its response or an error; wait for a response. -/
inductive Prog (α : Type) where
  | ret (o : Outcome α)
  | hand (c : Call) (k : Outcome Nat → Prog α)
  | wait (ticket : Nat) (c : Call) (k : Outcome Response → Prog α)

namespace Prog

/-- Sequencing that sees errors: `match p.await { … }`.  A panic ends the program. -/
def andThen {α β : Type} : Prog α → (Outcome α → Prog β) → Prog β
  | .ret .panic, _ => .ret .panic
  | .ret o, f => f o
  | .hand c k, f => .hand c fun r => (k r).andThen f
  | .wait t c k, f => .wait t c fun r => (k r).andThen f

/-- The `?` operator. -/
def bind {α β : Type} (p : Prog α) (f : α → Prog β) : Prog β :=
  p.andThen fun o => match o with
    | .ok a => f a
    | .err e => .ret (.err e)
    | .panic => .ret .panic

instance : Monad Prog where
  pure a := .ret (.ok a)
  bind := bind

end Prog

/-- One observable step of a program. -/
inductive Ev where
  | handed (c : Call) (r : Outcome Nat)
  | waited (ticket : Nat) (c : Call) (r : Outcome Response)

/-- What can come from outside: a hand-over succeeds or fails with `ChannelTerminated` (`src/engine.rs:38-43`); a wait ends as
`Call.resolve` says. -/
inductive Possible : Ev → Prop where
  | handed (c : Call) (ticket : Nat) : Possible (.handed c (.ok ticket))
  | refused (c : Call) : Possible (.handed c (.err .channelTerminated))
  | waited (t : Nat) (c : Call) (i : Option Inbound) : Possible (.waited t c (c.resolve i))

/-- `Runs p tr o`: the program can do the steps `tr` and end in `o`. -/
inductive Runs {α : Type} : Prog α → List Ev → Outcome α → Prop where
  | ret (o : Outcome α) : Runs (.ret o) [] o
  | hand (c : Call) (k : Outcome Nat → Prog α) (r : Outcome Nat) (tr : List Ev) (o : Outcome α)
      (h : Possible (.handed c r)) (hk : Runs (k r) tr o) : Runs (.hand c k) (.handed c r :: tr) o
  | wait (t : Nat) (c : Call) (k : Outcome Response → Prog α) (r : Outcome Response) (tr : List Ev) (o : Outcome α)
      (h : Possible (.waited t c r)) (hk : Runs (k r) tr o) : Runs (.wait t c k) (.waited t c r :: tr) o

/-- `Steps p tr`: the program can do the steps `tr` and then be anywhere, e.g. dropped or still waiting. -/
inductive Steps {α : Type} : Prog α → List Ev → Prop where
  | nil (p : Prog α) : Steps p []
  | hand (c : Call) (k : Outcome Nat → Prog α) (r : Outcome Nat) (tr : List Ev)
      (h : Possible (.handed c r)) (hk : Steps (k r) tr) : Steps (.hand c k) (.handed c r :: tr)
  | wait (t : Nat) (c : Call) (k : Outcome Response → Prog α) (r : Outcome Response) (tr : List Ev)
      (h : Possible (.waited t c r)) (hk : Steps (k r) tr) : Steps (.wait t c k) (.waited t c r :: tr)

namespace Session

open Prog

/-- The channel send of `src/client.rs:84-92` and `94-105`: a ticket for the response (meaningless for `flow`). -/
def handOver (c : Call) : Prog Nat := .hand c fun r => .ret r

/-- Waiting on the future `src/client.rs:107-122`. -/
def await (t : Nat) (c : Call) : Prog Response := .wait t c fun r => .ret r

/-- `.await?.await`. -/
def call (c : Call) : Prog Response := do
  let t ← handOver c
  await t c

/-- `src/client.rs:155-184` `lookup_topic`; line 180 is `unimplemented!`. -/
def lookupTopic (topic : String) : Prog Unit := do
  let r ← call (.lookupTopic topic)
  match r with
  | .lookup l =>
    match l.responseType with
    | .connect =>
      if l.proxy then do
        let _ ← call (.connectToProxy l.brokerServiceUrl)
        let _ ← call (.lookupTopic topic)
        pure ()
      else pure ()
    | .redirect => .ret .panic
    | .failed => .ret (.err .connectionFailed)
  | _ => .ret (.err .unresolvable)

/-- `src/producer.rs:48-52` `Producer::connect`. -/
def producerConnect (topic : String) : Prog Unit := do
  let _ ← call .connect
  lookupTopic topic
  let _ ← call (.producer topic)
  pure ()

/-- `src/consumer.rs:230-247` `Consumer::connect`; `permits` is the field `message_permits` (250, `src/consumer.rs:378`), and
line 244 multiplies in `u32`. -/
def consumerConnect (topic subscription : String) (permits : UInt32) : Prog Unit := do
  let _ ← call .connect
  lookupTopic topic
  let _ ← call (.subscribe topic subscription)
  let _ ← handOver (.flow (permits * 2))
  pure ()

/-- `src/producer.rs:63-70` `Producer::send`; `serialize` is `serde_json::to_vec` or `Into<Vec<u8>>`. -/
def send {T : Type} (serialize : T → Option Bytes) (message : T) : Prog Unit := do
  match serialize message with
  | none => .ret (.err .serializationFailed)
  | some payload => do
    let _ ← call (.sendMessage payload)
    pure ()

/-- `src/producer.rs:95-112` `Producer::send_batch`; line 100 unwraps. -/
def sendBatch {T : Type} (serialize : T → Option Bytes) (messages : List T) : Prog Unit := do
  match messages.mapM serialize with
  | none => .ret .panic
  | some payloads => do
    let _ ← call (.sendBatch payloads)
    pure ()

/-- `join_all` on futures that hand over one command each, then `partition_result` keeping the tickets: the futures are polled
in order and none of them waits. -/
def handAll : List (Outcome Call) → Prog (List (Nat × Call))
  | [] => pure []
  | .ok c :: cs => (handOver c).andThen fun r => do
    let ts ← handAll cs
    match r with
    | .ok t => pure ((t, c) :: ts)
    | _ => pure ts
  | _ :: cs => handAll cs

/-- `join_all(receipts).await`: waits for all of them and ignores what they are.  Waiting concurrently is waiting in any order,
as the results are only looked at when all are there. -/
def waitAll : List (Nat × Call) → Prog Unit
  | [] => pure ()
  | (t, c) :: ts => (await t c).andThen fun _ => waitAll ts

/-- `src/producer.rs:72-93` `Producer::send_all`. -/
def sendAll {T : Type} (serialize : T → Option Bytes) (messages : List T) : Prog Unit := do
  let tickets ← handAll (messages.map fun m => match serialize m with
    | some payload => .ok (.sendMessage payload)
    | none => .err .serializationFailed)
  waitAll tickets
  pure ()

/-- `src/consumer.rs:192-195` `Consumer::ack`. -/
def ack (id : MessageId) : Prog Unit := do
  let _ ← call (.ack id)
  pure ()

/-- `src/consumer.rs:197-211` `Consumer::ack_all`. -/
def ackAll (ids : List MessageId) : Prog Unit := do
  let tickets ← handAll (ids.map fun id => .ok (.ack id))
  waitAll tickets
  pure ()

end Session

end Neutron
