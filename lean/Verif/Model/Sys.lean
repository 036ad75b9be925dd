import Verif.Model.Client
import Verif.Model.Connect

/-!
# The running system: clients, engine task, connection tasks, broker

A transition system for `src/engine.rs`, `src/client_manager.rs`, `src/connection_manager.rs`, `src/command_resolver.rs`,
`src/connection.rs:122-206`, `src/pulsar.rs:50-422` and the client side of `src/client.rs:84-130`.

Every action is one scheduling step of one task (or one step of the environment: the application, the broker, the network,
the clock).  Any interleaving of actions is allowed.  What is atomic and why:

* the channels (`async_channel::unbounded`) never block the sender, and `recv` is cancel-safe, so sending and receiving are
  single steps;
* the mutexes around the resolvers and managers are only ever locked by the task that owns them, so locking never waits;
* while the engine handles one event (authenticating, dialling) it does nothing else, and nothing else reads its state, so
  handling one event is one step, except that waiting for the answer to a `Connect` (`src/pulsar.rs:111`) is its own mode.

Choices the code leaves open are left open here: which ready channel the engine serves next (`tokio::select!`,
`select_all`), and everything the environment does.

Simplifications: fewer than 2^64 clients are created, so a client's index and its `u64` id determine each other
(`Props/Sys`, C29); dropping an `async_channel` receiver closes the channel but leaves queued items in it as long as the
sender lives (async-channel 2.x), so `oneshot` senders inside queued items are not dropped.
-/

namespace Neutron.Sys

open Neutron

/-- A `oneshot` channel made by `send_command_and_resolve`; numbered in order of creation. -/
abbrev Tok := Nat

/-- An inbound command on its way through the client.  `answers` is a ghost: the request the broker meant to answer, if any;
no transition looks at it. -/
structure Event where
  inb : Inbound
  answers : Option Tok := none

/-- How a `oneshot` ends: a value was sent, or the sender was dropped. -/
inductive TokResult where
  | resolved (e : Event)
  | cancelled

/-- `src/message.rs:45-58` `enum Command` as sent by a client: `RequestResponse` has a token, `Request` has none. -/
structure ClientCmd where
  out : Outbound
  tok : Option Tok

/-- `enum Command` as sent by the engine to a connection; `reply` is the engine's own `oneshot` (`src/pulsar.rs:107-110`).
`origin` is a ghost: the client and the command it had submitted (`none` for a `Pong`). -/
structure ConnCmd where
  out : Outbound
  reply : Option Nat
  origin : Option (Nat × ClientCmd)

/-- Where a client object is in its life: id allocated; registration sent, waiting for the reply; usable; dropped. -/
inductive Phase where
  | fresh | waiting | ready | gone
  deriving DecidableEq, Repr

/-- A client: the `Client` object, both channels between it and the engine, and the engine's routing entry
(`src/client_manager.rs:19-25` `ClientConnection`).  The last three fields are ghosts: everything ever put in `queue`, taken
from it by the engine, and taken from `inbox`. -/
structure ClientSt where
  core : Client
  phase : Phase
  broker : BrokerAddress
  /-- calls between `fetch_add` and the channel send -/
  starting : List ClientCmd
  queue : List ClientCmd
  inbox : List Event
  submitted : List ClientCmd
  handled : List ClientCmd
  taken : List Event

/-- `CommandResolver` (`src/command_resolver.rs:8-14`): a map from keys to `oneshot` senders, as an association list. -/
abbrev Resolver := List (Key × Nat)

/-- A connection: task state, both channels between it and the engine, its own resolver (`src/connection.rs:22-25`).
Ghosts: everything ever put in `queue`; taken from it; written to the socket; every event read from the socket and forwarded
to the engine; every one the engine took; every event that answered the engine's own `Connect` wait. -/
structure ConnSt where
  alive : Bool
  queue : List ConnCmd
  resolver : Resolver
  outbox : List Event
  accepted : List ConnCmd
  processed : List ConnCmd
  written : List ConnCmd
  reads : List Event
  dispatched : List Event
  connected : List Event

/-- What the engine task is doing: connecting at start; waiting in `get_next`; waiting for the answer to a `Connect` on a
connection; ended. -/
inductive Mode where
  | starting
  | idle
  | awaitConnect (reply : Nat) (b : BrokerAddress)
  | stopped
  deriving DecidableEq, Repr

/-- What the engine did with an event: answered a ping; completed a request; sent it to the listed clients. -/
inductive Dest where
  | pong
  | waiter (t : Tok)
  | clients (is : List Nat)
  deriving DecidableEq, Repr

/-- Ghost record of one event handled by the engine: the connection it came from, the event as handled, whether it was the
answer to the engine's own `Connect` wait, and what was done with it. -/
structure Dispatch where
  broker : BrokerAddress
  event : Event
  viaConnect : Bool
  dest : Dest

/-- Static configuration: `PulsarConfig` and the auth plugin's method name, if there is a plugin. -/
structure Cfg where
  config : PulsarConfig
  authMethod : Option String

/-- The state of the whole system. -/
structure State where
  mode : Mode
  managerAlive : Bool
  nClients : Nat
  clients : Nat → ClientSt
  /-- registrations sent and not yet handled, and replies not yet taken (`src/pulsar.rs:402-421`) -/
  regQueue : List Nat
  replies : Nat
  /-- `ClientManager.clients` -/
  vec : List Nat
  /-- `ConnectionManager.connections`: its keys, and what each key maps to -/
  addrs : List BrokerAddress
  conns : BrokerAddress → ConnSt
  /-- `ClientManager.command_resolver` -/
  resolver : Resolver
  nextReply : Nat
  replyDone : List (Nat × TokResult)
  /-- ghosts: every request ever made (a token is an index here); how each ended; commands refused by a closed channel;
  sockets opened; what happened to each handled event; commands the engine put on connections' channels, in order -/
  issued : List (Nat × Outbound)
  outcomes : List (Tok × TokResult)
  refused : List (Nat × ClientCmd)
  dials : List BrokerAddress
  dispatches : List Dispatch
  sent : List (BrokerAddress × ConnCmd)

/-- Functional update of one client. -/
def State.setClient (s : State) (i : Nat) (c : ClientSt) : State :=
  { s with clients := fun j => if j = i then c else s.clients j }

/-- Functional update of one connection. -/
def State.setConn (s : State) (b : BrokerAddress) (c : ConnSt) : State :=
  { s with conns := fun x => if x = b then c else s.conns x }

/-! ## Resolvers -/

/-- Looking up a key. -/
def Resolver.find (r : Resolver) (k : Key) : Option Nat := (List.find? (fun p => p.1 == k) r).map (·.2)

/-- Removing a key. -/
def Resolver.erase (r : Resolver) (k : Key) : Resolver := List.eraseP (fun p => p.1 == k) r

/-- `src/command_resolver.rs:30-38` `put`: the new map and the sender dropped by this (the one overwritten, or the new one if
the command has no key). -/
def Resolver.put (r : Resolver) (o : Outbound) (t : Nat) : Resolver × Option Nat :=
  match o.tryKey with
  | some k => (r.erase k ++ [(k, t)], r.find k)
  | none => (r, some t)

/-- `src/command_resolver.rs:40-48` `try_resolve`: the sender the event was sent to, and the map without it. -/
def Resolver.tryResolve (r : Resolver) (i : Inbound) : Option (Nat × Resolver) :=
  match i.tryKey with
  | some k => match r.find k with
    | some t => some (t, r.erase k)
    | none => none
  | none => none

/-! ## The engine (`src/pulsar.rs`) -/

/-- The engine task ends, normally or by a panic, and everything it owns is dropped: pending requests in its resolver are
cancelled, its channel ends close (see `engineEnd`). -/
def stop (s : State) : State :=
  { s with mode := .stopped, resolver := [], outcomes := s.outcomes ++ s.resolver.map fun p => (p.2, .cancelled) }

/-- How handling an event ends: the loop goes on, or breaks (`src/pulsar.rs:316-321`). -/
def finish (r : State × Outcome Unit) : State :=
  match r.2 with
  | .ok _ => r.1
  | _ => stop r.1

/-- `src/client_manager.rs:102-114`: the clients an event from broker `b` is for: those on this broker whose id matches, or all
of them if the event carries no id. -/
def recipients (s : State) (e : Event) (b : BrokerAddress) : List Nat :=
  s.vec.filter fun i => decide ((s.clients i).broker = b) &&
    (match e.inb.tryConsumerOrProducerId with
     | some id => decide ((s.clients i).core.clientId = id)
     | none => true)

/-- `src/client_manager.rs:93-123` `ClientManager::send`: first the resolver, then the recipients.  A send to a dropped client
fails and is ignored. -/
def managerSend (s : State) (e : Event) (b : BrokerAddress) (viaConnect : Bool) : State :=
  match s.resolver.tryResolve e.inb with
  | some (t, r) => { s with resolver := r, outcomes := s.outcomes ++ [(t, .resolved e)],
                            dispatches := s.dispatches ++ [⟨b, e, viaConnect, .waiter t⟩] }
  | none =>
    { s with clients := fun i => if i ∈ recipients s e b ∧ (s.clients i).phase ≠ .gone
                                 then { s.clients i with inbox := (s.clients i).inbox ++ [e] } else s.clients i,
             dispatches := s.dispatches ++ [⟨b, e, viaConnect, .clients (recipients s e b)⟩] }

/-- Pushing a command on a connection's channel: fails if the connection task has ended. -/
def pushConn (s : State) (b : BrokerAddress) (c : ConnCmd) : State × Outcome Unit :=
  if b ∉ s.addrs then (s, .err .disconnected)
  else if ¬ (s.conns b).alive then (s, .err .channelTerminated)
  else ({ s.setConn b { s.conns b with queue := (s.conns b).queue ++ [c], accepted := (s.conns b).accepted ++ [c] } with
          sent := s.sent ++ [(b, c)] }, .ok ())

/-- `src/pulsar.rs:95-124` `send_to_connection` (up to the wait for the answer to a `Connect`, which is
`Mode.awaitConnect`). -/
def sendToConnection (s : State) (b : BrokerAddress) (out : Outbound) (origin : Nat × ClientCmd) : State × Outcome Unit :=
  match out with
  | .connect c =>
    match pushConn s b ⟨.connect c, some s.nextReply, some origin⟩ with
    | (s', .ok _) => ({ s' with nextReply := s.nextReply + 1, mode := .awaitConnect s.nextReply b }, .ok ())
    | r => r
  | out => pushConn s b ⟨out, none, some origin⟩

/-- A connection as `src/connection.rs:198-205` `run` starts it. -/
def freshConn : ConnSt := ⟨true, [], [], [], [], [], [], [], [], []⟩

/-- `src/pulsar.rs:280-293` `new_connection`; `net` is the world during the dial. -/
def newConnection (s : State) (net : Net) (b : BrokerAddress) : State × Outcome Unit :=
  if b ∈ s.addrs then (s, .ok ())
  else match openConnection net b with
    | .ok _ => ({ s.setConn b freshConn with addrs := s.addrs ++ [b], dials := s.dials ++ [b] }, .ok ())
    | .err e => (s, .err e)
    | .panic => (s, .panic)

/-- `src/client_manager.rs:140-146` `move_client_to_broker`. -/
def moveClient (s : State) (id : UInt64) (b : BrokerAddress) : State :=
  { s with clients := fun i => if i ∈ s.vec ∧ (s.clients i).core.clientId = id
                               then { s.clients i with broker := b } else s.clients i }

/-- `src/pulsar.rs:138-154`: the address a `Connect` is for. -/
def connectAddress (cfg : Cfg) : Option BrokerAddress → Option BrokerAddress
  | some (.proxy url p) => some (.proxy (if url ≠ "" then url else cfg.config.brokerAddress.baseUrl) p)
  | none => some cfg.config.brokerAddress
  | some (.direct url) => some (.direct url)

/-- `src/pulsar.rs:135-161`: the `Connect` that is sent on: address filled in, credentials of the plugin added; `auth` is what
the plugin's `auth_data` answers. -/
def connectFor (cfg : Cfg) (c : Connect) (auth : Outcome Bytes) : Outcome Connect :=
  let c1 : Connect := { c with brokerAddress := connectAddress cfg c.brokerAddress }
  match cfg.authMethod with
  | some m => match auth with
    | .ok d => .ok { c1 with authData := some d, authMethodName := some m }
    | .err e => .err e
    | .panic => .panic
  | none => .ok c1

/-- `src/pulsar.rs:179-188`: the command goes to the connection of the client's current broker. -/
def forward (s : State) (i : Nat) (cmd : ClientCmd) (out : Outbound) : State × Outcome Unit :=
  match s.vec.find? fun j => decide ((s.clients j).core.clientId = (s.clients i).core.clientId) with
  | some j => sendToConnection s (s.clients j).broker out (i, cmd)
  | none => (s, .panic)

/-- `src/pulsar.rs:126-195` `handle_client_outbound`, `Ok` case. -/
def handleOutbound (cfg : Cfg) (s : State) (i : Nat) (cmd : ClientCmd) (auth : Outcome Bytes) (net : Net) :
    State × Outcome Unit :=
  match cmd.out with
  | .connect c =>
    match connectFor cfg c auth with
    | .err e => (s, .err e)
    | .panic => (s, .panic)
    | .ok c2 =>
      match c2.brokerAddress with
      | none => (s, .panic)
      | some b =>
        match newConnection s net b with
        | (s, .ok _) =>
          forward (if b ≠ cfg.config.brokerAddress then moveClient s (s.clients i).core.clientId b else s) i cmd (.connect c2)
        | r => r
  | out => forward s i cmd out

/-- `src/client_manager.rs:79-88`: the command `cmd` is taken from client `i`'s channel (`q` stays) and, if it expects a
response, put in the resolver. -/
def takeCmd (s : State) (i : Nat) (cmd : ClientCmd) (q : List ClientCmd) : State :=
  let s := s.setClient i { s.clients i with queue := q, handled := (s.clients i).handled ++ [cmd] }
  match cmd.tok with
  | some t =>
    { s with resolver := (s.resolver.put cmd.out t).1,
             outcomes := s.outcomes ++ ((s.resolver.put cmd.out t).2.toList.map fun d => (d, .cancelled)) }
  | none => s

/-- `src/client_manager.rs:68-91` `ClientManager::next` for client `i`, then `handle_client_outbound`; an empty queue whose
client was dropped is an error, and the engine stops. -/
def engOut (cfg : Cfg) (s : State) (i : Nat) (auth : Outcome Bytes) (net : Net) : Option State :=
  if s.mode = .idle ∧ i ∈ s.vec ∧ s.addrs ≠ [] then
    match (s.clients i).queue with
    | [] => if (s.clients i).phase = .gone then some (stop s) else none
    | cmd :: q => some (finish (handleOutbound cfg (takeCmd s i cmd q) i cmd auth net))
  else none

/-- `src/pulsar.rs:204-210`: a lookup response is marked as proxied only if it names another broker. -/
def adjust (b : BrokerAddress) : Inbound → Inbound
  | .lookupTopicResponse r => .lookupTopicResponse { r with proxy := r.proxy && r.brokerServiceUrl != b.display }
  | i => i

/-- `src/pulsar.rs:197-232` `handle_connection_inbound`, `Ok` case. -/
def handleInbound (s : State) (b : BrokerAddress) (e : Event) : State × Outcome Unit :=
  match e.inb with
  | .ping => pushConn { s with dispatches := s.dispatches ++ [⟨b, e, false, .pong⟩] } b ⟨.pong, none, none⟩
  | i => (managerSend s { e with inb := adjust b i } b false, .ok ())

/-- The event `e` is taken from connection `b`'s channel (`q` stays). -/
def takeEvent (s : State) (b : BrokerAddress) (e : Event) (q : List Event) : State :=
  s.setConn b { s.conns b with outbox := q, dispatched := (s.conns b).dispatched ++ [e] }

/-- The engine takes the next event of connection `b` (`src/connection_manager.rs:40-52`, `src/engine.rs:45-50`); a connection whose task has ended and whose channel is empty is an
error, and the engine stops. -/
def engIn (s : State) (b : BrokerAddress) : Option State :=
  if s.mode = .idle ∧ b ∈ s.addrs ∧ s.vec ≠ [] then
    match (s.conns b).outbox with
    | [] => if (s.conns b).alive then none else some (stop s)
    | e :: q => some (finish (handleInbound (takeEvent s b e q) b e))
  else none

/-- `src/pulsar.rs:234-253` `handle_registration`; the reply fails, and the engine stops, if the `PulsarManager` is gone. -/
def engReg (cfg : Cfg) (s : State) : Option State :=
  if s.mode = .idle ∧ (s.vec = [] ∨ s.addrs ≠ []) then
    match s.regQueue with
    | [] => none
    | i :: q =>
      let s := s.setClient i { s.clients i with broker := cfg.config.brokerAddress }
      let s := { s with regQueue := q, vec := s.vec ++ [i] }
      if s.managerAlive then some { s with replies := s.replies + 1 } else some (stop s)
  else none

/-- The registration channel is closed (the `PulsarManager` was dropped) and empty: with no clients the engine stops
(`src/pulsar.rs:85`), otherwise it logs an error and goes on (`src/pulsar.rs:271-273`). -/
def engRegClosed (s : State) : Option State :=
  if s.mode = .idle ∧ s.regQueue = [] ∧ s.managerAlive = false then
    if s.vec = [] then some (stop s) else if s.addrs ≠ [] then some s else none
  else none

/-- `src/pulsar.rs:88-91`: clients but no connection. -/
def engNoConn (s : State) : Option State :=
  if s.mode = .idle ∧ s.vec ≠ [] ∧ s.addrs = [] then some (stop s) else none

/-- `src/pulsar.rs:111-116`: the wait for the answer to a `Connect` is over. -/
def engConnectDone (s : State) : Option State :=
  match s.mode with
  | .awaitConnect r b =>
    match s.replyDone.find? fun p => p.1 == r with
    | some (_, .resolved e) => some (managerSend { s with mode := .idle } e b true)
    | some (_, .cancelled) => some (stop s)
    | none => none
  | _ => none

/-- `src/pulsar.rs:301-315` `start_pulsar` up to the loop. -/
def engStart (cfg : Cfg) (s : State) (net : Net) : Option State :=
  match s.mode with
  | .starting =>
    match newConnection s net cfg.config.brokerAddress with
    | (s, .ok _) => some { s with mode := .idle }
    | (s, _) => some (stop s)
  | _ => none

/-! ## Connections (`src/connection.rs:122-194`) -/

/-- The connection task ends, normally or by a panic: its resolver is dropped. -/
def endConn (s : State) (b : BrokerAddress) : State :=
  { s.setConn b { s.conns b with alive := false, resolver := [] } with
    replyDone := s.replyDone ++ (s.conns b).resolver.map fun p => (p.2, .cancelled) }

/-- What happens to one command written to the socket: written; I/O error (ignored, `src/connection.rs:137-138`); panic in the
encoder. -/
inductive Write where
  | ok | failed | panicked
  deriving DecidableEq, Repr

/-- `src/connection.rs:130-135`: the command `c` is taken from the channel (`q` stays) and, if it expects a response, put in the
connection's resolver. -/
def connTake (s : State) (b : BrokerAddress) (c : ConnCmd) (q : List ConnCmd) : State :=
  let conn := { s.conns b with queue := q, processed := (s.conns b).processed ++ [c] }
  match c.reply with
  | some r => { s.setConn b { conn with resolver := (conn.resolver.put c.out r).1 } with
                replyDone := s.replyDone ++ ((conn.resolver.put c.out r).2.toList.map fun d => (d, .cancelled)) }
  | none => s.setConn b conn

/-- `src/connection.rs:128-147`: the next queued command; or, if the queue is empty and the engine is gone, the end. -/
def connCmd (s : State) (b : BrokerAddress) (w : Write) : Option State :=
  if (s.conns b).alive ∧ b ∈ s.addrs then
    match (s.conns b).queue with
    | [] => if s.mode = .stopped then some (if NeutronError.channelTerminated.isDisconnect then endConn s b else s) else none
    | c :: q =>
      let s := connTake s b c q
      match w with
      | .ok => some (s.setConn b { s.conns b with written := (s.conns b).written ++ [c] })
      | .failed => some s
      | .panicked => some (endConn s b)
  else none

/-- What the socket yields (`src/connection.rs:46-72`): end of stream; an error; a command; or a panic in the decoder.  The
ghost `answers` is the request a command is meant to answer. -/
inductive Item where
  | closed
  | error
  | panicked
  | command (v : MessageCommand) (answers : Option Tok)

/-- `src/connection.rs:148-191`. -/
def connRead (s : State) (b : BrokerAddress) (x : Item) : Option State :=
  if (s.conns b).alive ∧ b ∈ s.addrs then
    match x with
    | .closed => some (endConn s b)
    | .error => some s
    | .panicked => some (endConn s b)
    | .command v answers =>
      match Inbound.ofCommand v with
      | .err _ => some s
      | .panic => some (endConn s b)
      | .ok inb =>
        let e : Event := ⟨inb, answers⟩
        match (s.conns b).resolver.tryResolve inb with
        | some (r, res) =>
          some { s.setConn b { s.conns b with resolver := res, connected := (s.conns b).connected ++ [e] } with replyDone := s.replyDone ++ [(r, .resolved e)] }
        | none =>
          if s.mode = .stopped then some (endConn s b)
          else some (s.setConn b { s.conns b with outbox := (s.conns b).outbox ++ [e], reads := (s.conns b).reads ++ [e] })
  else none

/-! ## Clients and the manager -/

/-- The client's channel to the engine is open: the engine owns the receiving end, or it is still inside a registration that
no one took. -/
def engineEnd (s : State) (i : Nat) : Bool :=
  match s.mode with
  | .stopped => s.managerAlive && i ∈ s.regQueue
  | _ => true

/-- `src/pulsar.rs:397-400` `new_client_id` and `src/client.rs:70-82` `Client::new`. -/
def newClient (cfg : Cfg) (s : State) (name : String) : Option State :=
  if s.managerAlive then
    some { s.setClient s.nClients ⟨⟨UInt64.ofNat s.nClients, name, 0, 0⟩, .fresh, cfg.config.brokerAddress, [], [], [], [], [], []⟩
           with nClients := s.nClients + 1 }
  else none

/-- `src/pulsar.rs:408-417`: the registration is sent, or refused because the engine is gone. -/
def sendReg (s : State) (i : Nat) : Option State :=
  if s.managerAlive ∧ i < s.nClients ∧ (s.clients i).phase = .fresh then
    if s.mode = .stopped then some (s.setClient i { s.clients i with phase := .gone })
    else some { s.setClient i { s.clients i with phase := .waiting } with regQueue := s.regQueue ++ [i] }
  else none

/-- `src/pulsar.rs:419-420`: a reply is taken (any waiting `register` call may take any reply), or the engine is gone. -/
def recvReply (s : State) (i : Nat) : Option State :=
  if s.managerAlive ∧ i < s.nClients ∧ (s.clients i).phase = .waiting then
    if s.replies > 0 then some { s.setClient i { s.clients i with phase := .ready } with replies := s.replies - 1 }
    else if s.mode = .stopped then some (s.setClient i { s.clients i with phase := .gone }) else none
  else none

/-- The application drops a `register` call that has not returned: the client end of the channels is dropped. -/
def cancelReg (s : State) (i : Nat) : Option State :=
  if i < s.nClients ∧ ((s.clients i).phase = .fresh ∨ (s.clients i).phase = .waiting) then
    some (s.setClient i { s.clients i with phase := .gone })
  else none

/-- An API call up to the channel send: counters are incremented, the `oneshot` is created. -/
def beginCall (s : State) (i : Nat) (call : Call) : Option State :=
  if i < s.nClients ∧ (s.clients i).phase = .ready then
    let c := s.clients i
    let (core, out) := c.core.issue call
    if call.expectsResponse then
      some { s.setClient i { c with core := core, starting := c.starting ++ [⟨out, some s.issued.length⟩] } with
             issued := s.issued ++ [(i, out)] }
    else some (s.setClient i { c with core := core, starting := c.starting ++ [⟨out, none⟩] })
  else none

/-- `src/engine.rs:38-43`: the channel send of the `k`-th started call (calls on one client may run concurrently). -/
def submit (s : State) (i : Nat) (k : Nat) : Option State :=
  if i < s.nClients then
    let c := s.clients i
    match c.starting[k]? with
    | none => none
    | some cmd =>
      let c := { c with starting := c.starting.eraseIdx k }
      if engineEnd s i then
        some (s.setClient i { c with queue := c.queue ++ [cmd], submitted := c.submitted ++ [cmd] })
      else
        some { s.setClient i c with refused := s.refused ++ [(i, cmd)],
                                    outcomes := s.outcomes ++ (cmd.tok.toList.map fun t => (t, .cancelled)) }
  else none

/-- `src/engine.rs:45-50` on the client side (`src/client.rs:128-130`): one event is taken from the inbox. -/
def clientNext (s : State) (i : Nat) : Option State :=
  if i < s.nClients ∧ (s.clients i).phase = .ready then
    match (s.clients i).inbox with
    | [] => none
    | e :: q => some (s.setClient i { s.clients i with inbox := q, taken := (s.clients i).taken ++ [e] })
  else none

/-- `src/engine.rs:45-50` on the client side, as the caller sees it: an event; `ChannelTerminated` if nothing is queued and the
engine's end is gone; otherwise (`none`) the call waits. -/
def clientRecv (s : State) (i : Nat) : Option (Outcome Event) :=
  match (s.clients i).inbox with
  | e :: _ => some (.ok e)
  | [] => if engineEnd s i then none else some (.err .channelTerminated)

/-- The application drops a producer or consumer (no call on it is in progress between allocation and send). -/
def dropClient (s : State) (i : Nat) : Option State :=
  if i < s.nClients ∧ (s.clients i).phase = .ready ∧ (s.clients i).starting = [] then
    some (s.setClient i { s.clients i with phase := .gone })
  else none

/-- Both ends of a client's channel are gone: what is still queued in it is dropped, including the `oneshot` senders. -/
def freeQueue (s : State) (i : Nat) : Option State :=
  if i < s.nClients ∧ (s.clients i).phase = .gone ∧ engineEnd s i = false then
    some { s.setClient i { s.clients i with queue := [] } with
           outcomes := s.outcomes ++ ((s.clients i).queue.filterMap (·.tok)).map fun t => (t, .cancelled) }
  else none

/-- The application drops the `PulsarManager` (no `register` call is in progress). -/
def dropManager (s : State) : Option State :=
  if s.managerAlive ∧ ∀ i, i < s.nClients → (s.clients i).phase ≠ .fresh ∧ (s.clients i).phase ≠ .waiting then
    some { s with managerAlive := false }
  else none

/-- All actions. -/
inductive Act where
  | engStart (net : Net)
  | engOut (i : Nat) (auth : Outcome Bytes) (net : Net)
  | engIn (b : BrokerAddress)
  | engReg
  | engRegClosed
  | engNoConn
  | engConnectDone
  | connCmd (b : BrokerAddress) (w : Write)
  | connRead (b : BrokerAddress) (x : Item)
  | newClient (name : String)
  | sendReg (i : Nat)
  | recvReply (i : Nat)
  | cancelReg (i : Nat)
  | beginCall (i : Nat) (call : Call)
  | submit (i : Nat) (k : Nat)
  | clientNext (i : Nat)
  | dropClient (i : Nat)
  | freeQueue (i : Nat)
  | dropManager

/-- One step; `none` if the action is not possible now. -/
def step (cfg : Cfg) (s : State) : Act → Option State
  | .engStart net => engStart cfg s net
  | .engOut i auth net => engOut cfg s i auth net
  | .engIn b => engIn s b
  | .engReg => engReg cfg s
  | .engRegClosed => engRegClosed s
  | .engNoConn => engNoConn s
  | .engConnectDone => engConnectDone s
  | .connCmd b w => connCmd s b w
  | .connRead b x => connRead s b x
  | .newClient name => newClient cfg s name
  | .sendReg i => sendReg s i
  | .recvReply i => recvReply s i
  | .cancelReg i => cancelReg s i
  | .beginCall i call => beginCall s i call
  | .submit i k => submit s i k
  | .clientNext i => clientNext s i
  | .dropClient i => dropClient s i
  | .freeQueue i => freeQueue s i
  | .dropManager => dropManager s

/-- `src/pulsar.rs:324-332` `run` and `src/pulsar.rs:390-395` `PulsarManager::new`. -/
def init (cfg : Cfg) : State where
  mode := .starting
  managerAlive := true
  nClients := 0
  clients := fun _ => ⟨⟨0, "", 0, 0⟩, .fresh, cfg.config.brokerAddress, [], [], [], [], [], []⟩
  regQueue := []
  replies := 0
  vec := []
  addrs := []
  conns := fun _ => freshConn
  resolver := []
  nextReply := 0
  replyDone := []
  issued := []
  outcomes := []
  refused := []
  dials := []
  dispatches := []
  sent := []

/-- A run: a list of actions, each possible in turn. -/
inductive Run (cfg : Cfg) : List Act → State → Prop where
  | nil : Run cfg [] (init cfg)
  | snoc {as : List Act} {s s' : State} {a : Act} : Run cfg as s → step cfg s a = some s' → Run cfg (as ++ [a]) s'

/-- Reachable states. -/
def Reachable (cfg : Cfg) (s : State) : Prop := ∃ as, Run cfg as s

end Neutron.Sys
