import Verif.Spec.Asked
import Verif.Spec.World

/-!
# Vocabulary: which messages the application has been given, and which acknowledgements it asks for
-/

namespace Neutron

/-- The ids that come with a message of a broker: the message's own id; for a batch, that id with the number of each payload. -/
def Message.ids : Message → List MessageId
  | .single _ id _ => [id]
  | .batch _ id ps => (List.range ps.length).map fun i => withBatchIndex i id

/-- A receiving call has returned a message with this id to the application (the field `ack` of the message). -/
def Consumer.State.Given {T : Type} (s : Consumer.State T) (id : MessageId) : Prop :=
  ∃ (k : Nat) (ms : List (Consumer.Received T)) (m : Consumer.Received T), (k, .ok ms) ∈ s.results ∧ m ∈ ms ∧ m.ack = id

namespace App

variable {T : Type}

/-- A call with this program can ask for an acknowledgement of the message with this id. -/
def Acks (p : Prog Unit) (id : MessageId) : Prop := ∃ tr r, Steps p tr ∧ .handed (.ack id) r ∈ tr

/-- The application acknowledges, on the consumer, only messages the consumer had returned when the call was made (`Ack` has no public
constructor: an application has no others). -/
def AcksOnlyGiven (cfg : World.Cfg T) (acts : List Act) : Prop :=
  ∀ pre p post log a, acts = pre ++ .start (.call cfg.me p) :: post → Run cfg pre log a → ∀ id, Acks p id → a.world.app.Given id

end App

end Neutron
