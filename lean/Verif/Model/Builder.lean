import Verif.Model.Session
import Verif.Model.Addr

/-!
# Builders (`PulsarBuilder`, `ProducerBuilder`, `ConsumerBuilder`) and `connect`

`connect` as a program over what it does with the `PulsarManager` (allocate an id, register) and, on the new client, the calls
of `Model/Session.lean`.
-/

namespace Neutron

/-- A `connect` in progress: ended; `new_client_id` (`src/pulsar.rs:397-400`); `register` (`src/pulsar.rs:402-421`); the calls on
the new client. -/
inductive Setup (α : Type) where
  | ret (o : Outcome α)
  | newId (k : UInt64 → Setup α)
  | register (topic : String) (id : UInt64) (k : Outcome Unit → Setup α)
  | session (client : Client) (p : Prog Unit) (k : Outcome Unit → Setup α)

/-- One observable step of a `connect`. -/
inductive SetupEv where
  | allocated (id : UInt64)
  | registered (topic : String) (id : UInt64) (r : Outcome Unit)
  | did (client : Client) (ev : Ev)

/-- Complete executions.  `register` succeeds or fails with `ChannelTerminated` (`src/pulsar.rs:417`; line 419: `recv` on a closed
channel, `src/engine.rs:45-50`). -/
inductive Setup.Runs {α : Type} : Setup α → List SetupEv → Outcome α → Prop where
  | ret (o : Outcome α) : Setup.Runs (.ret o) [] o
  | newId (k : UInt64 → Setup α) (id : UInt64) (tr : List SetupEv) (o : Outcome α) (hk : Setup.Runs (k id) tr o) :
      Setup.Runs (.newId k) (.allocated id :: tr) o
  | register (topic : String) (id : UInt64) (k : Outcome Unit → Setup α) (r : Outcome Unit) (tr : List SetupEv) (o : Outcome α)
      (hr : r = .ok () ∨ r = .err .channelTerminated) (hk : Setup.Runs (k r) tr o) :
      Setup.Runs (.register topic id k) (.registered topic id r :: tr) o
  | session (client : Client) (p : Prog Unit) (k : Outcome Unit → Setup α) (evs : List Ev) (r : Outcome Unit) (tr : List SetupEv)
      (o : Outcome α) (hp : Neutron.Runs p evs r) (hk : Setup.Runs (k r) tr o) :
      Setup.Runs (.session client p k) (evs.map (.did client) ++ tr) o

/-- Executions up to any point: the caller can drop the `connect` wherever it waits. -/
inductive Setup.Steps {α : Type} : Setup α → List SetupEv → Prop where
  | nil (p : Setup α) : Setup.Steps p []
  | newId (k : UInt64 → Setup α) (id : UInt64) (tr : List SetupEv) (hk : Setup.Steps (k id) tr) :
      Setup.Steps (.newId k) (.allocated id :: tr)
  | register (topic : String) (id : UInt64) (k : Outcome Unit → Setup α) (r : Outcome Unit) (tr : List SetupEv)
      (hr : r = .ok () ∨ r = .err .channelTerminated) (hk : Setup.Steps (k r) tr) :
      Setup.Steps (.register topic id k) (.registered topic id r :: tr)
  | inSession (client : Client) (p : Prog Unit) (k : Outcome Unit → Setup α) (evs : List Ev) (hp : Neutron.Steps p evs) :
      Setup.Steps (.session client p k) (evs.map (.did client))
  | session (client : Client) (p : Prog Unit) (k : Outcome Unit → Setup α) (evs : List Ev) (r : Outcome Unit) (tr : List SetupEv)
      (hp : Neutron.Runs p evs r) (hk : Setup.Steps (k r) tr) :
      Setup.Steps (.session client p k) (evs.map (.did client) ++ tr)

/-- The tail of both `connect`s: an error of the session is the result, otherwise the object is returned. -/
def Setup.finish {α : Type} (a : α) : Outcome Unit → Setup α
  | .ok _ => .ret (.ok a)
  | .err e => .ret (.err e)
  | .panic => .ret .panic

/-! ## Consumers -/

/-- `src/consumer.rs:302-311`; `P` stands for boxed plugins. -/
structure ConsumerBuilder (P : Type) where
  plugins : List P
  consumerName : Option String
  topic : Option String
  subscription : Option String

/-- `src/consumer.rs:45-58` `Consumer`, as far as it is fixed: config, `message_permits`, plugins and client. -/
structure ConsumerObj (P : Type) where
  topic : String
  subscription : String
  messagePermits : UInt32
  currentPermits : UInt32
  plugins : List P
  client : Client

namespace ConsumerBuilder

variable {P : Type}

/-- `src/consumer.rs:313-333` `default`, `new`. -/
def new : ConsumerBuilder P := ⟨[], none, none, none⟩

/-- `src/consumer.rs:335-338`. -/
def withConsumerName (b : ConsumerBuilder P) (name : String) : ConsumerBuilder P := { b with consumerName := some name }

/-- `src/consumer.rs:340-343`. -/
def withTopic (b : ConsumerBuilder P) (topic : String) : ConsumerBuilder P := { b with topic := some topic }

/-- `src/consumer.rs:345-348`. -/
def withSubscription (b : ConsumerBuilder P) (s : String) : ConsumerBuilder P := { b with subscription := some s }

/-- `src/consumer.rs:350-356`. -/
def addPlugin (b : ConsumerBuilder P) (p : P) : ConsumerBuilder P := { b with plugins := b.plugins ++ [p] }

/-- `src/consumer.rs:358-389` `connect`: three `unwrap`s, then the id, the registration and `Consumer::connect`.  The counters
of a new client start at 0 (`src/client.rs:70-82`). -/
def connect (b : ConsumerBuilder P) : Setup (ConsumerObj P) :=
  match b.consumerName with
  | none => .ret .panic
  | some name => match b.topic with
    | none => .ret .panic
    | some topic => match b.subscription with
      | none => .ret .panic
      | some subscription =>
        .newId fun id => .register topic id fun r => match r with
          | .err e => .ret (.err e)
          | .panic => .ret .panic
          | .ok _ => .session ⟨id, name, 0, 0⟩ (Session.consumerConnect topic subscription 250)
              (Setup.finish ⟨topic, subscription, 250, 0, b.plugins, ⟨id, name, 0, 0⟩⟩)

end ConsumerBuilder

/-! ## Producers -/

/-- `src/producer.rs:115-124`. -/
structure ProducerBuilder where
  producerName : Option String
  topic : Option String

/-- `src/producer.rs:32-41` `Producer`, as far as it is fixed. -/
structure ProducerObj where
  topic : String
  client : Client

namespace ProducerBuilder

/-- `src/producer.rs:126-147` `default`, `new`. -/
def new : ProducerBuilder := ⟨none, none⟩

/-- `src/producer.rs:149-152`. -/
def withProducerName (b : ProducerBuilder) (name : String) : ProducerBuilder := { b with producerName := some name }

/-- `src/producer.rs:154-157`. -/
def withTopic (b : ProducerBuilder) (topic : String) : ProducerBuilder := { b with topic := some topic }

/-- `src/producer.rs:159-184` `connect`. -/
def connect (b : ProducerBuilder) : Setup ProducerObj :=
  match b.producerName with
  | none => .ret .panic
  | some name => match b.topic with
    | none => .ret .panic
    | some topic =>
      .newId fun id => .register topic id fun r => match r with
        | .err e => .ret (.err e)
        | .panic => .ret .panic
        | .ok _ => .session ⟨id, name, 0, 0⟩ (Session.producerConnect topic) (Setup.finish ⟨topic, ⟨id, name, 0, 0⟩⟩)

end ProducerBuilder

/-! ## The instance -/

/-- `src/pulsar.rs:342-345`; `A` stands for boxed auth plugins. -/
structure PulsarBuilder (A : Type) where
  config : Option PulsarConfig
  authPlugin : Option A

/-- `src/pulsar.rs:32-39` `Pulsar`: config and plugin (the managers start empty, `Sys.init`). -/
structure PulsarObj (A : Type) where
  config : PulsarConfig
  authPlugin : Option A

namespace PulsarBuilder

variable {A : Type}

/-- `src/pulsar.rs:347-359` `default`, `new`. -/
def new : PulsarBuilder A := ⟨none, none⟩

/-- `src/pulsar.rs:361-364`. -/
def withConfig (b : PulsarBuilder A) (c : PulsarConfig) : PulsarBuilder A := { b with config := some c }

/-- `src/pulsar.rs:366-372`. -/
def withAuthPlugin (b : PulsarBuilder A) (a : A) : PulsarBuilder A := { b with authPlugin := some a }

/-- `src/pulsar.rs:374-382`. -/
def build (b : PulsarBuilder A) : Outcome (PulsarObj A) :=
  match b.config with
  | none => .panic
  | some c => .ok ⟨c, b.authPlugin⟩

end PulsarBuilder

end Neutron
