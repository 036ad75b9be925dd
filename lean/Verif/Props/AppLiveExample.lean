import Verif.Props.AppExample
import Verif.Props.AppLive

/-!
# C120 on a concrete `connect`
-/

namespace Neutron.Props.AppExample

open Neutron Neutron.World Neutron.App Frame Trace Proto EndToEndExample

set_option maxRecDepth 20000

theorem part1_run : ∃ log, App.Run wcfg part1 log a1 := run_exec (as := []) .nil step1

/-- The `connect` of `making`, after it handed over its first command: it waits for the response, and nothing else. -/
example : ∃ log j, App.Run wcfg part1 log a1 ∧ a1.jobs[0]? = some j ∧ j.live = true ∧ j.ended = none ∧ Held a1.world.sys j ∧
    (¬ ∃ a', App.step wcfg a1 (.run 0) = some a') ∧ ∃ a', App.step wcfg a1 (.drop 0) = some a' ∧ (a'.world.sys.clients 0).phase = .gone := by
  obtain ⟨log, h⟩ := part1_run
  have hk : a1.jobs[0]? = some (a1.jobs[0]'(by decide)) := rfl
  have hh : Held a1.world.sys (a1.jobs[0]'(by decide)) := .inl ⟨0, ⟨_, _, _, _, rfl⟩, outcome_none.mp rfl⟩
  obtain ⟨a', h1, h2⟩ := C120_can_drop h hk rfl hh
  exact ⟨log, _, h, hk, rfl, rfl, hh, fun hs => (C120_progress h hk rfl rfl).mp hs hh, a', h1, (h2 0 rfl).1 (.inl ⟨_, rfl⟩)⟩

/-- Once the response is there, it goes on. -/
example : ∃ j, a3.jobs[0]? = some j ∧ ∃ j', (after a4 [.world (.sys (.engIn b0))]).jobs[0]? = some j' ∧ j'.ended = none ∧
    ¬ Held (after a4 [.world (.sys (.engIn b0))]).world.sys j' := by
  refine ⟨_, rfl, _, rfl, rfl, ?_⟩
  rintro (⟨t, ⟨_, _, _, _, h1⟩, h2⟩ | ⟨i, ⟨_, _, _, _, h1⟩, _⟩)
  · cases h1
    exact absurd (outcome_none.mpr h2) (by decide)
  · cases h1

end Neutron.Props.AppExample
