import Verif.Model.Sys
import Verif.Model.Framed
import Verif.Model.Consumer

/-!
# The whole client: sockets, connection tasks, engine and one consumer with its calls

Composition of `Model/Framed.lean` (bytes read from each socket), the write side of the same `Framed` (bytes written to each
socket), `Model/Sys.lean` (connection tasks, engine, clients) and `Model/Consumer.lean` (the calls on one consumer).  The parts are
joined where the code joins them: `ConnectionStream::next` and `send` (`src/connection.rs:28-72`), and the consumer's channel pair
(`src/client.rs:84-92,128-130`).  Other clients of the instance do whatever `Model/Sys.lean` allows.
-/

namespace Neutron.World

open Neutron

variable {T : Type}

/-- What is fixed: the configuration of the instance, of the consumer, the index of the consumer among the clients, and whether
the build checks for arithmetic overflow. -/
structure Cfg (T : Type) where
  sys : Sys.Cfg
  app : Consumer.Cfg T
  me : Nat
  overflowChecks : Bool

/-- Write side of a connection (tokio-util `FramedImpl` as a `Sink`): bytes encoded and not yet accepted by the socket, bytes the
socket has accepted. -/
structure Tx where
  buffer : Bytes := []
  sent : Bytes := []

/-- The state of everything.  `held b`: the connection task of `b` is inside `stream.send(msg).await`
(`src/connection.rs:137-138`), waiting for a socket that takes no more bytes for now.  `serving = some i`: the engine has taken a
`Connect` from client `i` and is authenticating or dialling for it (`src/pulsar.rs:156-164`). -/
structure World (T : Type) where
  sys : Sys.State
  rx : BrokerAddress → Framed.ReadSide
  tx : BrokerAddress → Tx
  held : BrokerAddress → Bool
  serving : Option Nat
  app : Consumer.State T

/-- The start: `Pulsar::run` has been called, the consumer does not exist yet. -/
def init (cfg : Cfg T) : World T := ⟨Sys.init cfg.sys, fun _ => {}, fun _ => {}, fun _ => false, none, Consumer.init cfg.app⟩

/-- How the socket treats `stream.send(msg).await` (`src/connection.rs:30-43`; `SinkExt::send` is `poll_ready`, `start_send`,
`poll_flush`): everything is accepted; the flush fails after `k` bytes; or the buffer was over its limit (8 KiB), and flushing it
beforehand (`poll_ready`) fails after `k` bytes, so the command is never encoded. -/
inductive Io where
  | ok
  | failed (k : Nat)
  | full (k : Nat)

/-- The socket accepts the first `k` bytes of what is buffered. -/
def Tx.push (t : Tx) (k : Nat) : Tx := ⟨t.buffer.drop k, t.sent ++ t.buffer.take k⟩

/-- `src/connection.rs:136-138`: the command is converted and sent, errors are ignored.  A panic in the conversion or the encoder
ends the task; the encoder never returns an error (`src/codec.rs:114`). -/
def Tx.send (overflowChecks : Bool) (now : UInt64) (t : Tx) (out : Outbound) : Io → Option (Tx × Sys.Write)
  | .ok => match (out.toCommand now).bind (Codec.encode overflowChecks) with
    | .ok bytes => some (⟨[], t.sent ++ t.buffer ++ bytes⟩, .ok)
    | .err _ => some (t, .failed)
    | .panic => some (t, .panicked)
  | .failed k => match (out.toCommand now).bind (Codec.encode overflowChecks) with
    | .ok bytes => some ((⟨t.buffer ++ bytes, t.sent⟩ : Tx).push k, .failed)
    | .err _ => some (t, .failed)
    | .panic => some (t, .panicked)
  | .full k => if 8192 ≤ t.buffer.length then match out.toCommand now with
      | .panic => some (t, .panicked)
      | _ => some (t.push k, .failed)
    else none

/-- What the connection task makes of one poll of the socket (`src/connection.rs:148-176`); `answers` is the ghost of
`Model/Sys.lean`. -/
def item (answers : Option Sys.Tok) : Poll → Option Sys.Item
  | .pending => none
  | .item m => some (.command m answers)
  | .failed => some .error
  | .ended => some .closed
  | .panicked => some .panicked

/-- Actions: the socket of `b` has something more to return to a read; the connection task polls it; the connection task writes
its next command (at time `now`), or finds its channel closed; the socket holds up the writing of the next command, which will
end, if ever, with a `write`; the engine begins to authenticate or dial for a `Connect` of client `i`, which will end, if ever, with
an `engOut i`; any other action of the instance and of the other clients; an
action of the consumer's calls. -/
inductive Act where
  | arrive (b : BrokerAddress) (r : Read)
  | poll (b : BrokerAddress) (answers : Option Sys.Tok)
  | write (b : BrokerAddress) (now : UInt64) (io : Io)
  | hold (b : BrokerAddress)
  | serve (i : Nat)
  | sys (a : Sys.Act)
  | app (a : Consumer.Act)

/-- The actions of the engine task. -/
def engine : Sys.Act → Bool
  | .engStart _ | .engOut _ _ _ | .engIn _ | .engReg | .engRegClosed | .engNoConn | .engConnectDone => true
  | _ => false

/-- The next command is a `Connect`. -/
def connects : List Sys.ClientCmd → Bool
  | ⟨.connect _, _⟩ :: _ => true
  | _ => false

/-- While the engine authenticates or dials for a client it does nothing else (`src/pulsar.rs:316-321`: one event after the
other). -/
def turn (w : World T) : Sys.Act → Bool
  | .engOut i _ _ => w.serving = none || w.serving = some i
  | a => !engine a || w.serving.isNone

/-- The actions of `Model/Sys.lean` that are not refined here: the sockets are, and so is the consumer's reading of its channel.
The consumer can be dropped only while no call borrows it. -/
def free (cfg : Cfg T) (w : World T) : Sys.Act → Bool
  | .connRead _ _ => false
  | .connCmd _ _ => false
  | .clientNext i => i ≠ cfg.me
  | .dropClient i => i ≠ cfg.me || w.app.tasks.all fun t => match t.stage with
    | .ended => true
    | _ => false
  | a => turn w a

/-- The actions of `Model/Consumer.lean` the calls do themselves; a call can be made once the consumer exists and is not
dropped. -/
def own (cfg : Cfg T) (w : World T) : Consumer.Act → Bool
  | .deliver _ => false
  | .close => false
  | .spawn _ => cfg.me < w.sys.nClients && (w.sys.clients cfg.me).phase = .ready
  | _ => true

/-- What a step of the consumer's calls does to the channels shared with the engine: taking an event, or handing over a `flow`
(`src/client.rs:262-268`; between `beginCall` and `submit` the call does not wait). -/
def induced (cfg : Cfg T) (w : World T) (a : Consumer.Act) : List Sys.Act :=
  match a with
  | .run i => match w.app.tasks[i]? with
    | some ⟨_, .running (.recv _)⟩ => if w.app.inbox.isEmpty then [] else [.clientNext cfg.me]
    | some ⟨_, .running (.flow n _)⟩ => [.beginCall cfg.me (.flow n), .submit cfg.me (w.sys.clients cfg.me).starting.length]
    | _ => []
  | .refuse i => match w.app.tasks[i]? with
    | some ⟨_, .running (.flow n _)⟩ => [.beginCall cfg.me (.flow n), .submit cfg.me (w.sys.clients cfg.me).starting.length]
    | _ => []
  | _ => []

/-- Several actions of `Model/Sys.lean` in a row. -/
def sysSteps (cfg : Sys.Cfg) (s : Sys.State) : List Sys.Act → Option Sys.State
  | [] => some s
  | a :: as => match Sys.step cfg s a with
    | some s' => sysSteps cfg s' as
    | none => none

/-- The consumer's end of the channel is the client's: what is queued, and whether the engine's end is there. -/
def sync (cfg : Cfg T) (w : World T) (s : Sys.State) : World T :=
  { w with sys := s, app := { w.app with inbox := (s.clients cfg.me).inbox.map (·.inb), isOpen := Sys.engineEnd s cfg.me } }

/-- The connection task of `b` runs. -/
def running (w : World T) (b : BrokerAddress) : Bool := (w.sys.conns b).alive && b ∈ w.sys.addrs

/-- The connection task of `b` waits in `tokio::select!` (`src/connection.rs:127`): while it is inside a write it does not read. -/
def reading (w : World T) (b : BrokerAddress) : Bool := running w b && !w.held b

/-- One step; `none` if the action is not possible now.  Simplification: what the socket accepted of a command whose writing is
held up is counted when the writing ends, and what the engine does for a `Connect` takes effect when it has authenticated and dialled;
until then it looks at nothing else. -/
def step (cfg : Cfg T) (w : World T) : Act → Option (World T)
  | .arrive b r => if b ∈ w.sys.addrs then
      some { w with rx := fun x => if x = b then (w.rx b).step (.arrive r) else w.rx x }
    else none
  | .poll b answers => if reading w b then
      match sysSteps cfg.sys w.sys
          ((item answers (Framed.pollNext (w.rx b).framed (w.rx b).socket).1).toList.map (Sys.Act.connRead b)) with
      | some s => some (sync cfg { w with rx := fun x => if x = b then (w.rx b).step .poll else w.rx x } s)
      | none => none
    else none
  | .write b now io => if running w b then
      match (w.sys.conns b).queue with
      | [] => match Sys.step cfg.sys w.sys (.connCmd b .ok) with
        | some s => some (sync cfg w s)
        | none => none
      | c :: _ => match (w.tx b).send cfg.overflowChecks now c.out io with
        | some (t, r) => match Sys.step cfg.sys w.sys (.connCmd b r) with
          | some s => some (sync cfg { w with
              tx := fun x => if x = b then t else w.tx x
              held := fun x => if x = b then false else w.held x } s)
          | none => none
        | none => none
    else none
  | .hold b => if reading w b && !(w.sys.conns b).queue.isEmpty then
      some { w with held := fun x => if x = b then true else w.held x }
    else none
  | .serve i => if w.serving = none ∧ w.sys.mode = .idle ∧ i ∈ w.sys.vec ∧ w.sys.addrs ≠ [] ∧
        connects (w.sys.clients i).queue then
      some { w with serving := some i }
    else none
  | .sys a => if free cfg w a then
      match Sys.step cfg.sys w.sys a with
      | some s => some (sync cfg { w with serving := if engine a then none else w.serving } s)
      | none => none
    else none
  | .app a => if own cfg w a then
      match Consumer.step cfg.app w.app a with
      | some app => match sysSteps cfg.sys w.sys (induced cfg w a) with
        | some s => some { w with sys := s, app := app }
        | none => none
      | none => none
    else none

/-- A run: a list of actions, each possible in turn. -/
inductive Run (cfg : Cfg T) : List Act → World T → Prop where
  | nil : Run cfg [] (init cfg)
  | snoc {as : List Act} {w w' : World T} {a : Act} : Run cfg as w → step cfg w a = some w' → Run cfg (as ++ [a]) w'

end Neutron.World
