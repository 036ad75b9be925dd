import Verif.Model.App

/-!
# What a call can wait for
-/

namespace Neutron.App

/-- The call waits for the response to request `t`. -/
def Job.Awaits (j : Job) (t : Nat) : Prop :=
  ∃ core call k k', j.prog = .session core (.wait t call k) k'

/-- The call is a `connect` that registers client `i` with the engine. -/
def Job.Registers (j : Job) (i : Nat) : Prop :=
  j.client = some i ∧ ∃ topic id k, j.prog = .register topic id k

/-- Request `t` has neither been answered nor dropped. -/
def Unsettled (s : Sys.State) (t : Nat) : Prop := ∀ res, (t, res) ∉ s.outcomes

/-- The call waits: for the response to a request that has neither been answered nor dropped; or for the reply to its registration,
while there is none and the engine runs. -/
def Held (s : Sys.State) (j : Job) : Prop :=
  (∃ t, j.Awaits t ∧ Unsettled s t) ∨
  ∃ i, j.Registers i ∧ (s.clients i).phase = .waiting ∧ s.replies = 0 ∧ s.mode ≠ .stopped

end Neutron.App
