import Verif.Model.Sys
import Verif.Model.Session

/-!
# Vocabulary for the properties of the running system

What an observer of the API and of the sockets can see, in terms of the actions of a run and of the queues; nothing here
depends on how the engine matches or routes.
-/

namespace Neutron.Sys

open Neutron

/-- Executing a list of actions. -/
def exec (cfg : Cfg) : State → List Act → Option State
  | s, [] => some s
  | s, a :: as => match step cfg s a with
    | some s' => exec cfg s' as
    | none => none

/-- The broker's response a caller's result stands for. -/
def _root_.Neutron.Response.inbound : Response → Inbound
  | .connected => .connected
  | .lookup r => .lookupTopicResponse r
  | .producerSuccess p => .producerSuccess p
  | .success n => .success n
  | .ack a => .ackReciept a
  | .receipt r => .sendReceipt r

/-- The response a command asks for, by the Pulsar protocol. -/
def Answers : Outbound → Inbound → Prop
  | .connect _, .connected => True
  | .lookupTopic _, .lookupTopicResponse _ => True
  | .subscribe _, .success _ => True
  | .producer _, .producerSuccess _ => True
  | .ack _, .ackReciept _ => True
  | .send s, .sendReceipt r => r.sequenceId = s.sequenceId
  | _, _ => False

/-- The socket of `b` delivered `inb` during the run `as`, meant (by the broker) as the answer to `ans`. -/
def ReadFrom (as : List Act) (b : BrokerAddress) (inb : Inbound) (ans : Option Tok) : Prop :=
  ∃ v, Act.connRead b (.command v ans) ∈ as ∧ Inbound.ofCommand v = .ok inb

/-- A continuation of a run: states `s` to `s'` by actions `as`, every state on the way (including both ends) satisfying `P`. -/
inductive Path (cfg : Cfg) (P : State → Prop) : State → List Act → State → Prop where
  | nil {s : State} (h : P s) : Path cfg P s [] s
  | snoc {s s' s'' : State} {as : List Act} {a : Act} (hp : Path cfg P s as s') (hs : step cfg s' a = some s'') (h : P s'') :
      Path cfg P s (as ++ [a]) s''

/-- Messages (not other commands) among events. -/
def messagesIn (l : List Event) : List Message :=
  l.filterMap fun e => match e.inb with
    | .message m => some m
    | _ => none

/-- Messages addressed to the consumer with this id. -/
def addressedTo (id : UInt64) (l : List Message) : List Message := l.filter fun m => decide (m.consumerId = id)

/-- The messages the socket of `b` delivers during `as`, in order. -/
def socketMessages (as : List Act) (b : BrokerAddress) : List Message :=
  as.filterMap fun a => match a with
    | .connRead b' (.command v _) => if b' = b then (match Inbound.ofCommand v with
      | .ok (.message m) => some m
      | _ => none) else none
    | _ => none

/-- The requests of client `i` not yet taken by the engine: being handed over, or in the client's channel. -/
def withClient (s : State) (i : Nat) : List Tok :=
  (s.clients i).starting.filterMap (·.tok) ++ (s.clients i).queue.filterMap (·.tok)

/-- The places a request can be: with the client that made it, waiting for its response, completed. -/
def whereabouts (s : State) : List Tok :=
  (List.range s.nClients).flatMap (withClient s) ++ s.resolver.map (·.2) ++ s.outcomes.map (·.1)

/-- A request was made and has not completed. -/
def Outstanding (s : State) (t : Nat) : Prop := t < s.issued.length ∧ ∀ r, (t, r) ∉ s.outcomes

/-- No write has failed on the way to `as`. -/
def NoWriteFailure (as : List Act) : Prop := ∀ b w, Act.connCmd b w ∈ as → w = .ok

/-- Ids handed out with a client's commands, in order of issue. -/
def idsOf (f : Outbound → Option UInt64) (l : List (Nat × Outbound)) (i : Nat) : List UInt64 :=
  l.filterMap fun p => if p.1 = i then f p.2 else none

/-- The sequence id of a send. -/
def sequenceIdOf : Outbound → Option UInt64
  | .send s => some s.sequenceId
  | _ => none

/-- The request id of a lookup, producer registration, subscription or ack. -/
def requestIdOf : Outbound → Option UInt64
  | .lookupTopic l => some l.requestId
  | .producer p => some p.requestId
  | .subscribe p => some p.requestId
  | .ack l => l.head?.map (·.requestId)
  | _ => none

/-- `0, 1, …, n - 1`. -/
def countUp (n : Nat) : List UInt64 := (List.range n).map UInt64.ofNat

/-- The commands of client `i` among commands on a connection. -/
def ofClient (i : Nat) (l : List ConnCmd) : List ClientCmd :=
  l.filterMap fun c => match c.origin with
    | some (j, cmd) => if j = i then some cmd else none
    | none => none

/-- Pongs among commands on a connection. -/
def pongCount (l : List ConnCmd) : Nat := l.countP fun c => match c.out with
  | .pong => true
  | _ => false

/-- Pings among events. -/
def pingCount (l : List Event) : Nat := l.countP fun e => match e.inb with
  | .ping => true
  | _ => false

/-- The commands of client `i` the engine has passed on, with the connection each went to. -/
def passedOn (l : List (BrokerAddress × ConnCmd)) (i : Nat) : List (BrokerAddress × ClientCmd) :=
  l.filterMap fun p => match p.2.origin with
    | some (j, cmd) => if j = i then some (p.1, cmd) else none
    | none => none

end Neutron.Sys
