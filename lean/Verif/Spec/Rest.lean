import Verif.Spec.Sys

/-!
# Counting what the engine does and what it is given

In terms of the actions of a run only.
-/

namespace Neutron.Sys

/-- A step of the engine task. -/
def Act.isEngine : Act → Bool
  | .engStart _ | .engOut .. | .engIn _ | .engReg | .engRegClosed | .engNoConn | .engConnectDone => true
  | _ => false

/-- A step of the engine task other than finding the registration channel closed. -/
def Act.isWork : Act → Bool
  | .engRegClosed => false
  | a => a.isEngine

/-- What an action may give the engine to do: two steps for a command handed over (the second is for the answer, if the command is a
`Connect`), one for a registration, one for a command read from a socket. -/
def Act.given : Act → Nat
  | .submit .. => 2
  | .sendReg _ => 1
  | .connRead .. => 1
  | _ => 0

/-- How many actions of a run satisfy `p`. -/
def countActs (p : Act → Bool) (as : List Act) : Nat := (as.filter p).length

/-- How much a run has given the engine to do. -/
def givenIn (as : List Act) : Nat := (as.map Act.given).sum

/-- The application has dropped the `PulsarManager` and every client. -/
def AllDropped (s : State) : Prop := s.managerAlive = false ∧ ∀ i, i < s.nClients → (s.clients i).phase = .gone

/-- Nothing is waiting for the engine: no command, no event, no registration, no lost connection, no dropped client. -/
def NothingToDo (s : State) : Prop :=
  (∀ i, i < s.nClients → (s.clients i).queue = [] ∧ (s.clients i).phase = .ready) ∧
  (∀ b, b ∈ s.addrs → (s.conns b).outbox = [] ∧ (s.conns b).alive = true) ∧ s.regQueue = []

end Neutron.Sys
