import Verif.Spec.Returns

/-!
# The calls on the consumer in executions of everything that go on forever
-/

namespace Neutron.App

variable {T : Type}

/-- The scheduler does not neglect receiving call `i`: if it can make a step again and again, it makes one again and again. -/
def FairToReceiver (cfg : World.Cfg T) (σ : Nat → State T) (acts : Nat → Act) (i : Nat) : Prop :=
  Sys.AgainAndAgain (fun n => ∃ a, step cfg (σ n) (.world (.app (.run i))) = some a) →
    Sys.AgainAndAgain (fun n => acts n = .world (.app (.run i)))

/-- The plugins receiving call `i` calls come back: if it is inside a plugin again and again, a plugin answers it again and again. -/
def PluginsReturn (cfg : World.Cfg T) (σ : Nat → State T) (acts : Nat → Act) (i : Nat) : Prop :=
  Sys.AgainAndAgain (fun n => ∃ t m k, (σ n).world.app.tasks[i]? = some t ∧ t.stage = .offering m k ∧ k < cfg.app.plugins) →
    Sys.AgainAndAgain (fun n => ∃ r, acts n = .world (.app (.offer i r)))

/-- The calls the application makes on the consumer are not neglected. -/
structure Attended (cfg : World.Cfg T) (σ : Nat → State T) (acts : Nat → Act) : Prop where
  calls : ∀ i, FairToReceiver cfg σ acts i
  plugins : ∀ i, PluginsReturn cfg σ acts i

/-- The application does not call `next_batch`. -/
def NoBatches (acts : Nat → Act) : Prop := ∀ n k, acts n ≠ .world (.app (.spawn (.batch k)))

end Neutron.App
