import Verif.Spec.World
import Verif.Spec.Received

/-!
# Vocabulary: receiving calls in progress, permits on the wire
-/

namespace Neutron

open Proto

/-- The permits a command gives for the consumer with this id: those of a `FLOW` for it. -/
def permitsIn (consumer : UInt64) (v : MessageCommand) : Nat :=
  if commandType v.command = 11 then
    match getMsg .baseCommand v.command 11 with
    | some m => if getU64 .commandFlow m 1 = consumer then (getU64 .commandFlow m 2).toNat else 0
    | none => 0
  else 0

namespace World

variable {T : Type}

/-- Never during this run were there more than `n` receiving calls of the consumer at once. -/
def CallsAtMost (cfg : Cfg T) (n : Nat) (log : List Act) : Prop :=
  ∀ l w, l <+: log → Run cfg l w → w.app.live ≤ n

/-- Whoever is at the other end of the socket of `b` has been given at least `n` permits for the consumer with this id: the permits in the
whole commands it has received. -/
def Given (w : World T) (b : BrokerAddress) (consumer : UInt64) (n : Nat) : Prop :=
  ∃ fs, BeginsWith (w.tx b).sent fs ∧ n ≤ (fs.map fun f => permitsIn consumer f.1).sum

end World

end Neutron
