import Verif.Spec.Consumer
import Verif.Spec.Forever

/-!
# The receiving calls in executions that go on forever
-/

namespace Neutron.Consumer

open Neutron Neutron.Sys

variable {T : Type}

/-- An infinite execution of a consumer with its calls: in step `n` the action `acts n` is taken, or (`none`) nothing happens to the
consumer.  `past` is what happened before. -/
structure Forever (cfg : Cfg T) (past : List Act) (σ : Nat → State T) (acts : Nat → Option Act) : Prop where
  start : Run cfg past (σ 0)
  steps : ∀ n, match acts n with
    | some a => step cfg (σ n) a = some (σ (n + 1))
    | none => σ (n + 1) = σ n

/-- Everything that happened before step `n`. -/
def history (past : List Act) (acts : Nat → Option Act) : Nat → List Act
  | 0 => past
  | n + 1 => history past acts n ++ (acts n).toList

/-- The scheduler does not neglect call `i`: if it can make a step again and again, it makes one again and again. -/
def FairTo (cfg : Cfg T) (σ : Nat → State T) (acts : Nat → Option Act) (i : Nat) : Prop :=
  AgainAndAgain (fun n => ∃ s', step cfg (σ n) (.run i) = some s') → AgainAndAgain (fun n => acts n = some (.run i))

/-- The plugins called by call `i` come back: if it is inside a plugin again and again, a plugin answers it again and again. -/
def PluginsReturn (cfg : Cfg T) (σ : Nat → State T) (acts : Nat → Option Act) (i : Nat) : Prop :=
  AgainAndAgain (fun n => ∃ t m k, (σ n).tasks[i]? = some t ∧ t.stage = .offering m k ∧ k < cfg.plugins) →
    AgainAndAgain (fun n => ∃ r, acts n = some (.offer i r))

/-- No call is neglected, by the scheduler or by the plugins, and the engine's end of the channel stays there. -/
structure Attended (cfg : Cfg T) (σ : Nat → State T) (acts : Nat → Option Act) : Prop where
  isOpen : ∀ n, (σ n).isOpen = true
  calls : ∀ i, FairTo cfg σ acts i
  plugins : ∀ i, PluginsReturn cfg σ acts i

/-- Call `i` is there: it has been made, and it has neither returned nor been dropped. -/
def State.alive (s : State T) (i : Nat) : Prop := ∃ t, s.tasks[i]? = some t ∧ t.stage ≠ .ended

/-- Call `i` is not dropped from time `n` on. -/
def NotDropped (acts : Nat → Option Act) (i n : Nat) : Prop := ∀ m, n ≤ m → acts m ≠ some (.cancel i)

end Neutron.Consumer
