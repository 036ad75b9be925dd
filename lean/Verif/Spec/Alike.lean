import Verif.Spec.App

/-!
# Behaving alike

Two states of an application with its instance behave alike if nobody can tell them apart, now or later: the calls of the application and
their results, what the consumer handed out and holds, and the bytes on every socket are the same, and whatever one of them can go on to do, the
other can do as well, repeating an action where events that are no messages are to be skipped, so that the two still cannot be told apart.
-/

namespace Neutron.App

variable {T : Type}

/-- The event is a message. -/
def _root_.Neutron.Inbound.isMessage : Inbound → Bool
  | .message _ => true
  | _ => false

/-- The messages among the events. -/
def messageEvents (es : List Sys.Event) : List Sys.Event := es.filter fun e => e.inb.isMessage

/-- What can be seen of one state is what can be seen of the other: the calls, the consumer but for events in its channel that are no
messages, the sockets and what is to be written to them, whether the engine and the connections run, who is registered, how every request
ended, and what is on its way to whom. -/
structure Same (x y : State T) : Prop where
  jobs : x.jobs = y.jobs
  consumer : { x.world.app with inbox := [] } = { y.world.app with inbox := [] }
  rx : x.world.rx = y.world.rx
  tx : x.world.tx = y.world.tx
  held : x.world.held = y.world.held
  serving : x.world.serving = y.world.serving
  mode : x.world.sys.mode = y.world.sys.mode
  manager : x.world.sys.managerAlive = y.world.sys.managerAlive
  registered : x.world.sys.vec = y.world.sys.vec
  addrs : x.world.sys.addrs = y.world.sys.addrs
  requests : x.world.sys.issued = y.world.sys.issued
  outcomes : x.world.sys.outcomes = y.world.sys.outcomes
  phase : ∀ i, (x.world.sys.clients i).phase = (y.world.sys.clients i).phase
  broker : ∀ i, (x.world.sys.clients i).broker = (y.world.sys.clients i).broker
  submitted : ∀ i, (x.world.sys.clients i).submitted = (y.world.sys.clients i).submitted
  messages : ∀ i, messageEvents (x.world.sys.clients i).inbox = messageEvents (y.world.sys.clients i).inbox
  messagesTaken : ∀ i, messageEvents (x.world.sys.clients i).taken = messageEvents (y.world.sys.clients i).taken
  alive : ∀ b, (x.world.sys.conns b).alive = (y.world.sys.conns b).alive
  queue : ∀ b, (x.world.sys.conns b).queue = (y.world.sys.conns b).queue
  outbox : ∀ b, (x.world.sys.conns b).outbox = (y.world.sys.conns b).outbox
  written : ∀ b, (x.world.sys.conns b).written = (y.world.sys.conns b).written

/-- The action is done `k` times. -/
inductive Repeat (cfg : World.Cfg T) (a : Act) : Nat → State T → State T → Prop where
  | zero (x : State T) : Repeat cfg a 0 x x
  | succ {k : Nat} {x y z : State T} : step cfg x a = some y → Repeat cfg a k y z → Repeat cfg a (k + 1) x z

/-- The two states behave alike, now and forever. -/
def Alike (cfg : World.Cfg T) (x y : State T) : Prop :=
  ∃ R : State T → State T → Prop, R x y ∧ ∀ x y, R x y → Same x y ∧
    (∀ a x', step cfg x a = some x' → ∃ k y', Repeat cfg a k y y' ∧ R x' y') ∧
    (∀ a y', step cfg y a = some y' → ∃ k x', Repeat cfg a k x x' ∧ R x' y')

/-- Some request waits for such a response: the engine has it, it has not completed, and the response is what it asks for. -/
def Awaited (s : Sys.State) (inb : Inbound) : Prop :=
  ∃ t i out, s.issued[t]? = some (i, out) ∧ Sys.Outstanding s t ∧ (∀ j, j < s.nClients → t ∉ Sys.withClient s j) ∧ Sys.Answers out inb

/-- Some actions lead from one state to the other. -/
inductive CanReach (cfg : World.Cfg T) : State T → State T → Prop where
  | refl (x : State T) : CanReach cfg x x
  | step {x y z : State T} {a : Act} : CanReach cfg x y → step cfg y a = some z → CanReach cfg x z

/-- The state in which the event at the head of the connection's channel had not been there. -/
def without (x : State T) (b : BrokerAddress) : State T :=
  { x with world := { x.world with sys := x.world.sys.setConn b { x.world.sys.conns b with outbox := (x.world.sys.conns b).outbox.tail } } }

/-- The same state, but that the connection has been handed a `PONG` to write (and the records say so). -/
def withPong (x : State T) (b : BrokerAddress) : State T :=
  { x with world := { x.world with sys := { x.world.sys.setConn b { x.world.sys.conns b with
      queue := (x.world.sys.conns b).queue ++ [⟨.pong, none, none⟩], accepted := (x.world.sys.conns b).accepted ++ [⟨.pong, none, none⟩] } with
      sent := x.world.sys.sent ++ [(b, ⟨.pong, none, none⟩)] } } }

/-- No consumer with this id is there on this broker. -/
def NoConsumer (s : Sys.State) (b : BrokerAddress) (cid : UInt64) : Prop :=
  ∀ i ∈ s.vec, (s.clients i).broker = b → (s.clients i).core.clientId = cid → (s.clients i).phase = .gone

end Neutron.App
