import Verif.Spec.App

/-!
# However the bytes are cut

TCP may deliver the bytes of a broker in pieces of any size. Two states of an application with its instance that differ only in how the bytes
that are under way are cut cannot be told apart if whatever one can do the other can do as well, step by step and with the same result.
-/

namespace Neutron.App

variable {T : Type}

/-- From `x` to `y` the pieces arrive, one after the other, on the socket of the broker `b`. -/
inductive Arrives (cfg : World.Cfg T) (b : BrokerAddress) : State T → List Bytes → State T → Prop where
  | nil (x : State T) : Arrives cfg b x [] x
  | cons {x y z : State T} {p : Bytes} {ps : List Bytes} : step cfg x (.world (.arrive b (.data p))) = some y → Arrives cfg b y ps z →
      Arrives cfg b x (p :: ps) z

/-- Everything in the two states is the same but what waits to be read; and what has been read is the same. -/
structure SameButUnread (x y : State T) : Prop where
  jobs : y.jobs = x.jobs
  world : y.world = { x.world with rx := y.world.rx }
  read : ∀ b, (y.world.rx b).out = (x.world.rx b).out
  stopped : ∀ b, (y.world.rx b).stopped = (x.world.rx b).stopped

/-- The two states go the same way, step by step, for ever. -/
def SameWay (cfg : World.Cfg T) (x y : State T) : Prop :=
  ∃ R : State T → State T → Prop, R x y ∧ ∀ x y, R x y → SameButUnread x y ∧
    (∀ a x', step cfg x a = some x' → ∃ y', step cfg y a = some y' ∧ R x' y') ∧
    (∀ a y', step cfg y a = some y' → ∃ x', step cfg x a = some x' ∧ R x' y')

/-- The actions are done, one after the other. -/
inductive Does (cfg : World.Cfg T) : State T → List Act → State T → Prop where
  | nil (x : State T) : Does cfg x [] x
  | cons {x y z : State T} {a : Act} {as : List Act} : step cfg x a = some y → Does cfg y as z → Does cfg x (a :: as) z

end Neutron.App
