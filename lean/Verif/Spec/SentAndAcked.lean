import Verif.Spec.AutoAck
import Verif.Spec.ReceiveForever
import Verif.Spec.ConsumerForever
import Verif.Spec.Undisturbed

/-!
# An application that consumes and acknowledges
-/

namespace Neutron.App

variable {T : Type}

/-- The application calls `consume` once on the consumer, before time `n0`, makes no other receiving call and does not drop it; the runtime
does not neglect the call; plugin number `p` of the consumer is the auto-ack plugin, the others (if any) return, and return `Ok`; and `ack`
is called in turn throughout the instance. -/
structure Consumes (cfg : World.Cfg T) (σ : Nat → State T) (acts : Nat → Act) (p n0 : Nat) : Prop where
  one : ∀ n, (σ n).world.app.tasks.map (·.job) <+: [.consume]
  started : (σ n0).world.app.alive 0
  kept : ∀ n, acts n ≠ .world (.app (.cancel 0))
  fair : ∀ i, FairToReceiver cfg σ acts i
  plugin : p < cfg.app.plugins
  acks : AutoAcks cfg σ acts p
  others : ∀ p', p' < cfg.app.plugins → p' ≠ p → ComesBack σ acts p' ∧ NeverRefuses σ acts p'
  inTurn : AcksInTurn σ acts

end Neutron.App
