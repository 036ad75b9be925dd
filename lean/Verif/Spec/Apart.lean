import Verif.Spec.Alike

/-!
# What one consumer can tell

Two states behave alike for one consumer and for all calls of the application if these cannot tell them apart, now or later, whatever the
channels of the other consumers hold.
-/

namespace Neutron.App

variable {T : Type}

/-- What can be seen of one state but for the channels of clients other than `me` is what can be seen of the other. -/
structure SameFor (me : Nat) (x y : State T) : Prop where
  jobs : x.jobs = y.jobs
  consumer : x.world.app = y.world.app
  rx : x.world.rx = y.world.rx
  tx : x.world.tx = y.world.tx
  held : x.world.held = y.world.held
  serving : x.world.serving = y.world.serving
  mode : x.world.sys.mode = y.world.sys.mode
  manager : x.world.sys.managerAlive = y.world.sys.managerAlive
  registered : x.world.sys.vec = y.world.sys.vec
  addrs : x.world.sys.addrs = y.world.sys.addrs
  requests : x.world.sys.issued = y.world.sys.issued
  outcomes : x.world.sys.outcomes = y.world.sys.outcomes
  phase : ∀ i, (x.world.sys.clients i).phase = (y.world.sys.clients i).phase
  broker : ∀ i, (x.world.sys.clients i).broker = (y.world.sys.clients i).broker
  submitted : ∀ i, (x.world.sys.clients i).submitted = (y.world.sys.clients i).submitted
  mine : (x.world.sys.clients me).inbox = (y.world.sys.clients me).inbox
  taken : (x.world.sys.clients me).taken = (y.world.sys.clients me).taken
  alive : ∀ b, (x.world.sys.conns b).alive = (y.world.sys.conns b).alive
  queue : ∀ b, (x.world.sys.conns b).queue = (y.world.sys.conns b).queue
  outbox : ∀ b, (x.world.sys.conns b).outbox = (y.world.sys.conns b).outbox
  written : ∀ b, (x.world.sys.conns b).written = (y.world.sys.conns b).written

/-- The action is another client's taking an event from its channel. -/
def OthersTake (me : Nat) (a : Act) : Prop := ∃ i, i ≠ me ∧ a = .world (.sys (.clientNext i))

/-- The two states behave alike for the consumer `cfg.me` and the calls of the application, now and forever: what the one can do, the other can
do as well; only what another client takes from its channel may not be there. -/
def AlikeFor (cfg : World.Cfg T) (x y : State T) : Prop :=
  ∃ R : State T → State T → Prop, R x y ∧ ∀ x y, R x y → SameFor cfg.me x y ∧
    (∀ a x', step cfg x a = some x' → (∃ y', step cfg y a = some y' ∧ R x' y') ∨ (OthersTake cfg.me a ∧ R x' y)) ∧
    (∀ a y', step cfg y a = some y' → (∃ x', step cfg x a = some x' ∧ R x' y') ∨ (OthersTake cfg.me a ∧ R x y'))

/-- The state in which the first `n` events in the connection's channel had not been there. -/
def withoutFirst (n : Nat) (x : State T) (b : BrokerAddress) : State T :=
  { x with world := { x.world with sys := x.world.sys.setConn b { x.world.sys.conns b with outbox := (x.world.sys.conns b).outbox.drop n } } }

/-- The engine takes `n` events of the connection, one after the other. -/
inductive Handles (cfg : World.Cfg T) (b : BrokerAddress) : Nat → State T → State T → Prop where
  | zero (x : State T) : Handles cfg b 0 x x
  | succ {n : Nat} {x y z : State T} : step cfg x (.world (.sys (.engIn b))) = some y → Handles cfg b n y z → Handles cfg b (n + 1) x z

end Neutron.App
