import Verif.Model.Builder

/-!
# What a sequence of builder calls says

Setter calls as a list; what was said last; the observable steps of `connect`.
-/

namespace Neutron

/-- A call on a `ConsumerBuilder`. -/
inductive ConsumerSetting (P : Type) where
  | name (s : String)
  | topic (s : String)
  | subscription (s : String)
  | plugin (p : P)

namespace ConsumerSetting

variable {P : Type}

/-- Making the call. -/
def apply (b : ConsumerBuilder P) : ConsumerSetting P → ConsumerBuilder P
  | .name s => b.withConsumerName s
  | .topic s => b.withTopic s
  | .subscription s => b.withSubscription s
  | .plugin p => b.addPlugin p

/-- `ConsumerBuilder::new()` followed by these calls. -/
def built (l : List (ConsumerSetting P)) : ConsumerBuilder P := l.foldl apply .new

/-- The values given, in order, kind by kind. -/
def names (l : List (ConsumerSetting P)) : List String := l.filterMap fun x => match x with | .name s => some s | _ => none
def topics (l : List (ConsumerSetting P)) : List String := l.filterMap fun x => match x with | .topic s => some s | _ => none
def subscriptions (l : List (ConsumerSetting P)) : List String := l.filterMap fun x => match x with | .subscription s => some s | _ => none
def plugins (l : List (ConsumerSetting P)) : List P := l.filterMap fun x => match x with | .plugin p => some p | _ => none

end ConsumerSetting

/-- A call on a `ProducerBuilder`. -/
inductive ProducerSetting where
  | name (s : String)
  | topic (s : String)

namespace ProducerSetting

/-- Making the call. -/
def apply (b : ProducerBuilder) : ProducerSetting → ProducerBuilder
  | .name s => b.withProducerName s
  | .topic s => b.withTopic s

/-- `ProducerBuilder::new()` followed by these calls. -/
def built (l : List ProducerSetting) : ProducerBuilder := l.foldl apply .new

/-- The values given, in order, kind by kind. -/
def names (l : List ProducerSetting) : List String := l.filterMap fun x => match x with | .name s => some s | _ => none
def topics (l : List ProducerSetting) : List String := l.filterMap fun x => match x with | .topic s => some s | _ => none

end ProducerSetting

/-- A call on a `PulsarBuilder`. -/
inductive PulsarSetting (A : Type) where
  | config (c : PulsarConfig)
  | auth (a : A)

namespace PulsarSetting

variable {A : Type}

/-- Making the call. -/
def apply (b : PulsarBuilder A) : PulsarSetting A → PulsarBuilder A
  | .config c => b.withConfig c
  | .auth a => b.withAuthPlugin a

/-- `PulsarBuilder::new()` followed by these calls. -/
def built (l : List (PulsarSetting A)) : PulsarBuilder A := l.foldl apply .new

/-- The values given, in order, kind by kind. -/
def configs (l : List (PulsarSetting A)) : List PulsarConfig := l.filterMap fun x => match x with | .config c => some c | _ => none
def auths (l : List (PulsarSetting A)) : List A := l.filterMap fun x => match x with | .auth a => some a | _ => none

end PulsarSetting

/-- The steps of setting up client `name` under `topic`: one id, one registration of it under the topic; then, only if that
succeeded, the steps of `session`, all on the client with that id and name and with fresh counters. -/
inductive SetsUp (name topic : String) (session : List Ev → Prop) : List SetupEv → Prop where
  | nothing : SetsUp name topic session []
  | allocated (id : UInt64) : SetsUp name topic session [.allocated id]
  | refused (id : UInt64) : SetsUp name topic session [.allocated id, .registered topic id (.err .channelTerminated)]
  | registered (id : UInt64) (evs : List Ev) (h : session evs) :
      SetsUp name topic session (.allocated id :: .registered topic id (.ok ()) :: evs.map (.did ⟨id, name, 0, 0⟩))

end Neutron
