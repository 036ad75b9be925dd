import Verif.Spec.World
import Verif.Spec.Service

/-!
# Which steps take something further: from a socket to the engine, or from a client to a socket
-/

namespace Neutron.World

/-- The connection task of `b` polls its socket. -/
def Act.polls (b : BrokerAddress) : Act → Bool
  | .poll b' _ => decide (b' = b)
  | _ => false

/-- The engine handles something the connection task of `b` has passed to it. -/
def Act.handles (b : BrokerAddress) : Act → Bool
  | .sys (.engIn b') => decide (b' = b)
  | _ => false

/-- The engine takes the next command of client `i`. -/
def Act.takes (i : Nat) : Act → Bool
  | .sys (.engOut j _ _) => decide (j = i)
  | _ => false

/-- The connection task of `b` writes its next command. -/
def Act.writes (b : BrokerAddress) : Act → Bool
  | .write b' _ _ => decide (b' = b)
  | _ => false

/-- Nothing kept the socket of `b` from accepting what was written to it. -/
def WritesSucceed (b : BrokerAddress) (acts : List Act) : Prop := ∀ now io, .write b now io ∈ acts → io = .ok

end Neutron.World
