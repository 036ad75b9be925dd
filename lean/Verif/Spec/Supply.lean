import Verif.Spec.Carried
import Verif.Spec.Calls
import Verif.Spec.ReceiveForever
import Verif.Spec.ConsumerForever
import Verif.Spec.Subscribed

/-!
# A broker that serves the permits it is given
-/

namespace Neutron.App

variable {T : Type}

/-- The broker behind `b` holds at least `M` messages for consumer number `i` and serves its permits: as long as fewer than `M` messages
have been read for the consumer, and the broker has been given (in `FLOW` commands it has received whole) more permits than that, one more
is read later. -/
def Supplies (σ : Nat → State T) (i : Nat) (b : BrokerAddress) (M : Nat) : Prop :=
  ∀ n, (World.readFor (σ n).world i b).length < M →
    World.Given (σ n).world b (UInt64.ofNat i) ((World.readFor (σ n).world i b).length + 1) →
    ∃ m, n ≤ m ∧ (World.readFor (σ n).world i b).length < (World.readFor (σ m).world i b).length

/-- Brokers deliver only to consumers that have subscribed (`World.DeliversOnlySubscribed`, for an infinite execution). -/
def DeliverOnlySubscribed (σ : Nat → State T) (acts : Nat → Act) : Prop :=
  ∀ n b answers v p, acts n = .world (.poll b answers) →
    (Framed.pollNext ((σ n).world.rx b).framed ((σ n).world.rx b).socket).1 = .item v → IsMessageFor v p →
    ∃ m, Received ((σ n).world.tx b).sent m ∧ IsSubscribe m p

/-- Again and again there is a call that asks for a message (it is in `next_message`, or in the `next_message` of a `consume`) and is not
dropped any more. -/
def KeepsAsking (σ : Nat → State T) (acts : Nat → Act) : Prop :=
  Sys.AgainAndAgain fun n => ∃ i t c, (σ n).world.app.tasks[i]? = some t ∧ t.stage = .running c ∧
    ∀ m, n ≤ m → acts m ≠ .world (.app (.cancel i))

end Neutron.App
