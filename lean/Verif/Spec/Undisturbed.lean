import Verif.Spec.AutoAck
import Verif.Spec.OnePlace

/-!
# Acknowledging in turn
-/

namespace Neutron.App

variable {T : Type}

/-- The application never calls `ack_all`, and whenever it calls `ack`, on whatever consumer of the instance, every `ack` it has called
before has returned. -/
def AcksInTurn (σ : Nat → State T) (acts : Nat → Act) : Prop :=
  (∀ n i ids, acts n ≠ .start (.call i (Session.ackAll ids))) ∧
  ∀ n i id, acts n = .start (.call i (Session.ack id)) → ∀ j ∈ (σ n).jobs, (∃ i' id', j.made = .call i' (Session.ack id')) → j.ended ≠ none

/-- Plugin `p` never refuses a message. -/
def NeverRefuses (σ : Nat → State T) (acts : Nat → Act) (p : Nat) : Prop :=
  ∀ n i y r, InPlugin (σ n) i p y → acts n = .world (.app (.offer i r)) → r = .ok ()

end Neutron.App
