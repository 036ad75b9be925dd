import Verif.Model.World
import Verif.Model.Builder

/-!
# The application's calls on the whole client

Composition of `Model/World.lean` (sockets, connection tasks, engine, clients and the receiving calls of one consumer) with the
programs of `Model/Builder.lean` and `Model/Session.lean`: `connect` of the builders, `send`, `send_batch`, `send_all`, `ack`,
`ack_all`.  Each call in progress is a task of the application.  Here the responses a call waits for are those of the engine, and a
command handed over is put in the client's channel; nothing comes "from outside" any more.
-/

namespace Neutron.App

open Neutron World

variable {T : Type}

/-- Forgets the object a `connect` returns. -/
def void {α : Type} : Setup α → Setup Unit
  | .ret (.ok _) => .ret (.ok ())
  | .ret (.err e) => .ret (.err e)
  | .ret .panic => .ret .panic
  | .newId k => .newId fun id => void (k id)
  | .register topic id k => .register topic id fun r => void (k r)
  | .session c p k => .session c p fun r => void (k r)

/-- The calls of the application: `src/consumer.rs:358-389` and `src/producer.rs:159-184` `connect`; calls on a client that exists
(`p` is one of the programs of `Session`, or several one after the other in one task). -/
inductive Start where
  | consumer (b : ConsumerBuilder Unit)
  | producer (b : ProducerBuilder)
  | call (i : Nat) (p : Prog Unit)

/-- A call in progress, or ended (`prog` is `ret`), or dropped by the application (`live` is false).  `name` is the name a `connect`
gives its client; `owns` says that the client belongs to the call itself (`connect`).  `handing` says that the command the call is
about to hand over is made, with the request it belongs to (none for commands without response), but is not in the channel yet:
calls on the same client in other tasks can do the same in the meantime.  `made`, `start` and `trace` are ghosts: the
call as it was made, its program, and what it did so far. -/
structure Job where
  name : String
  client : Option Nat
  owns : Bool
  live : Bool
  prog : Setup Unit
  handing : Option (Option Nat)
  made : Start
  start : Setup Unit
  trace : List SetupEv

/-- The call as a task. -/
def Start.job (s : Sys.State) : Start → Job
  | .consumer b => ⟨b.consumerName.getD "", none, true, true, void b.connect, none, .consumer b, void b.connect, []⟩
  | .producer b => ⟨b.producerName.getD "", none, true, true, void b.connect, none, .producer b, void b.connect, []⟩
  | .call i p => ⟨(s.clients i).core.clientName, some i, false, true, .session (s.clients i).core p .ret, none,
      .call i p, .session (s.clients i).core p .ret, []⟩

/-- The state of everything. -/
structure State (T : Type) where
  world : World T
  jobs : List Job

/-- The start: `Pulsar::run` has been called. -/
def init (cfg : World.Cfg T) : State T := ⟨World.init cfg, []⟩

/-- How the `oneshot` of request `t` ended, if it has: with a response, or dropped (`none`). -/
def outcome (s : Sys.State) (t : Nat) : Option (Option Inbound) :=
  match s.outcomes.find? fun p => p.1 == t with
  | some (_, .resolved e) => some (some e.inb)
  | some (_, .cancelled) => some none
  | none => none

/-- The first of the commands about to be put in the channel that belongs to this request (requests have one command each). -/
def slot (s : Sys.State) (i : Nat) (tok : Option Nat) : Nat := (s.clients i).starting.findIdx fun c => c.tok == tok

/-- What the next step of a call does to the rest; `none` if the call cannot go on now.  Allocating the id of the new client is
`src/pulsar.rs:397-400`; registering it is `src/pulsar.rs:402-421`: sending the registration, then waiting for a reply; a command is
made, taking its numbers from the client's counters, and then put in the channel, without waiting (`src/client.rs:84-105`); a `connect` that fails drops its client (`src/consumer.rs:387`,
`src/producer.rs:182`). -/
def Job.acts (s : Sys.State) (j : Job) : Option (List Sys.Act) :=
  match j.prog, j.client with
  | .newId _, _ => some [.newClient j.name]
  | .register _ _ _, some i => some [if (s.clients i).phase = .fresh then .sendReg i else .recvReply i]
  | .session _ (.hand c _) _, some i => match j.handing with
    | none => some [.beginCall i c]
    | some tok => some [.submit i (slot s i tok)]
  | .session _ (.wait t _ _) _, some _ => if (outcome s t).isSome then some [] else none
  | .session _ (.ret (.ok _)) _, some _ => some []
  | .session _ (.ret _) _, some i => some (if j.owns then [.dropClient i] else [])
  | _, _ => none

/-- The call after this step; `s` and `s'` are the states of the instance before and after it. -/
def Job.after (s s' : Sys.State) (j : Job) : Job :=
  match j.prog, j.client with
  | .newId k, _ => { j with client := some s.nClients, prog := k (UInt64.ofNat s.nClients),
                            trace := j.trace ++ [.allocated (UInt64.ofNat s.nClients)] }
  | .register topic id k, some i =>
    match (s'.clients i).phase with
    | .ready => { j with prog := k (.ok ()), trace := j.trace ++ [.registered topic id (.ok ())] }
    | .gone => { j with prog := k (.err .channelTerminated),
                        trace := j.trace ++ [.registered topic id (.err .channelTerminated)] }
    | _ => j
  | .session c (.hand call k) k', some i =>
    match j.handing with
    | none => { j with handing := some (if call.expectsResponse then some s.issued.length else none) }
    | some tok =>
      let r : Outcome Nat := if Sys.engineEnd s i then .ok (tok.getD 0) else .err .channelTerminated
      { j with handing := none, prog := .session c (k r) k', trace := j.trace ++ [.did c (.handed call r)] }
  | .session c (.wait t call k) k', some _ =>
    match outcome s t with
    | some i => { j with prog := .session c (k (call.resolve i)) k', trace := j.trace ++ [.did c (.waited t call (call.resolve i))] }
    | none => j
  | .session _ (.ret o) k', some _ => { j with prog := k' o }
  | _, _ => j

/-- The call has ended. -/
def Job.ended (j : Job) : Option (Outcome Unit) :=
  match j.prog with
  | .ret o => some o
  | _ => none

/-- The call borrows client `i`. -/
def Job.uses (j : Job) (i : Nat) : Bool := j.live && j.ended.isNone && j.client = some i

/-- Several actions of the instance in a row. -/
def worldSteps (cfg : World.Cfg T) (w : World T) : List World.Act → Option (World T)
  | [] => some w
  | a :: as => match World.step cfg w a with
    | some w' => worldSteps cfg w' as
    | none => none

/-- What dropping a call does: a client that is not there yet, or belongs to the call, is dropped with it. -/
def Job.dropActs (s : Sys.State) (j : Job) : List Sys.Act :=
  match j.client with
  | some i => if j.owns then (if (s.clients i).phase = .fresh ∨ (s.clients i).phase = .waiting then [.cancelReg i]
      else if (s.clients i).phase = .ready then [.dropClient i] else []) else []
  | none => []

/-- A `connect` in progress has client `i`, which the application does not have yet. -/
def building (jobs : List Job) (i : Nat) : Bool := jobs.any fun j => j.owns && j.uses i

/-- A call can be made: `connect` while the `PulsarManager` is there; a call on a client once the application has it. -/
def Start.possible (a : State T) : Start → Bool
  | .consumer _ => a.world.sys.managerAlive
  | .producer _ => a.world.sys.managerAlive
  | .call i _ => i < a.world.sys.nClients && (a.world.sys.clients i).phase = .ready && !building a.jobs i

/-- The steps that are not made by calls.  A client is dropped by the application only while no call borrows it, the
`PulsarManager` while no `connect` does; receiving calls are made on a consumer the application has. -/
def free (cfg : World.Cfg T) (a : State T) : World.Act → Bool
  | .sys (.newClient _) => false
  | .sys (.sendReg _) => false
  | .sys (.recvReply _) => false
  | .sys (.cancelReg _) => false
  | .sys (.beginCall _ _) => false
  | .sys (.submit _ _) => false
  | .sys (.dropClient i) => a.jobs.all fun j => !j.uses i
  | .sys .dropManager => a.jobs.all fun j => !(j.owns && j.live && j.ended.isNone)
  | .app (.spawn _) => !building a.jobs cfg.me
  | _ => true

/-- Actions: anything but calls; a call is made; a call makes a step; a call is dropped (while it waits: putting a command in the
channel, which is unbounded, does not wait, `src/engine.rs:38-43`). -/
inductive Act where
  | world (a : World.Act)
  | start (c : Start)
  | run (k : Nat)
  | drop (k : Nat)

/-- What an action does to the instance. -/
def induced (a : State T) : Act → List World.Act
  | .world x => [x]
  | .start _ => []
  | .run k => match a.jobs[k]? with
    | some j => ((j.acts a.world.sys).getD []).map .sys
    | none => []
  | .drop k => match a.jobs[k]? with
    | some j => (j.dropActs a.world.sys).map .sys
    | none => []

/-- The action is one the application, its calls or the rest can do now (apart from what it does to the instance). -/
def possible (cfg : World.Cfg T) (a : State T) : Act → Bool
  | .world x => free cfg a x
  | .start c => c.possible a
  | .run k => match a.jobs[k]? with
    | some j => j.live && (j.acts a.world.sys).isSome
    | none => false
  | .drop k => match a.jobs[k]? with
    | some j => j.live && j.ended.isNone && j.handing.isNone
    | none => false

/-- The calls after an action that left the instance in state `s'`. -/
def jobsAfter (a : State T) (s' : Sys.State) : Act → List Job
  | .world _ => a.jobs
  | .start c => a.jobs ++ [c.job a.world.sys]
  | .run k => a.jobs.modify k fun j => j.after a.world.sys s'
  | .drop k => a.jobs.modify k fun j => { j with live := false }

/-- One step; `none` if the action is not possible now. -/
def step (cfg : World.Cfg T) (a : State T) (x : Act) : Option (State T) :=
  if possible cfg a x then
    match worldSteps cfg a.world (induced a x) with
    | some w => some ⟨w, jobsAfter a w.sys x⟩
    | none => none
  else none

/-- A run: a list of actions, each possible in turn, and (a ghost) what they did to the instance. -/
inductive Run (cfg : World.Cfg T) : List Act → List World.Act → State T → Prop where
  | nil : Run cfg [] [] (init cfg)
  | snoc {as : List Act} {log : List World.Act} {a a' : State T} {x : Act} : Run cfg as log a → step cfg a x = some a' →
      Run cfg (as ++ [x]) (log ++ induced a x) a'

end Neutron.App
