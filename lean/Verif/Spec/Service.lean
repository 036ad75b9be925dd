import Verif.Spec.Rest

/-!
# Serving a channel

Which actions serve which channel, in terms of the actions only.
-/

namespace Neutron.Sys

/-- The engine serves the commands of client `i`. -/
def Act.servesClient (i : Nat) : Act → Bool
  | .engOut j _ _ => decide (j = i)
  | _ => false

/-- The engine serves what was read from the socket of `b`. -/
def Act.servesReads (b : BrokerAddress) : Act → Bool
  | .engIn b' => decide (b' = b)
  | _ => false

/-- The connection task of `b` serves the commands to be written. -/
def Act.servesWrites (b : BrokerAddress) : Act → Bool
  | .connCmd b' _ => decide (b' = b)
  | _ => false

/-- The engine serves registrations. -/
def Act.servesRegs : Act → Bool
  | .engReg => true
  | _ => false

/-- A request has completed. -/
def Done (s : State) (t : Nat) : Prop := ∃ r, (t, r) ∈ s.outcomes

/-- Any continuation. -/
abbrev Continues (cfg : Cfg) (s : State) (as : List Act) (s' : State) : Prop := Path cfg (fun _ => True) s as s'

/-- The engine looks at the channels of the clients in the order of their registration (`futures::select_all` polls its futures
in order) and takes the first that has something. -/
def FirstReady (s : State) : Act → Prop
  | .engOut i _ _ => ∃ before after, s.vec = before ++ i :: after ∧
      ∀ j, j ∈ before → (s.clients j).queue = [] ∧ (s.clients j).phase ≠ .gone
  | _ => True

/-- A continuation all of whose steps respect that order. -/
inductive InOrder (cfg : Cfg) : State → List Act → State → Prop where
  | nil {s : State} : InOrder cfg s [] s
  | snoc {s s' s'' : State} {as : List Act} {a : Act} (hp : InOrder cfg s as s') (ho : FirstReady s' a) (hs : step cfg s' a = some s'') :
      InOrder cfg s (as ++ [a]) s''

/-- The engine serves some client. -/
def Act.servesSomeone : Act → Bool
  | .engOut _ _ _ => true
  | _ => false

/-- Client `i` hands a command over. -/
def Act.submits (i : Nat) : Act → Bool
  | .submit j _ => decide (j = i)
  | _ => false

end Neutron.Sys
