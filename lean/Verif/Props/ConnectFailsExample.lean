import Verif.Props.ConnectFails
import Verif.Props.AppSend

/-!
# C132: concrete runs
-/

namespace Neutron.Props

open Neutron World App AppExample EndToEndExample Frame Trace Proto

set_option maxRecDepth 20000

/-- `C132_producer`'s hypotheses are met: the lookup is answered with a failure, the instance has not stopped. -/
example : ∃ acts log a j, App.Run wcfg acts log a ∧ j ∈ a.jobs ∧ j.made = .producer maker ∧
    j.ended = some (.err .connectionFailed) ∧ j.client = some 1 ∧ a.world.sys.mode = .idle := by
  obtain ⟨log, h⟩ := run_exec (as := []) .nil failing_exec
  have hj : ∃ j, f9.jobs[1]? = some j ∧ j.made = .producer maker ∧ j.ended = some (.err .connectionFailed) ∧ j.client = some 1 := ⟨_, rfl, rfl, rfl, rfl⟩
  obtain ⟨j, h1, h2, h3, h4⟩ := hj
  exact ⟨_, log, _, j, h, List.mem_of_getElem? h1, h2, h3, h4, rfl⟩

namespace AppExample

/-- A second producer is to be made while the first one waits for the answer to its lookup. -/
def maker2 : ProducerBuilder := (ProducerBuilder.new.withProducerName "q").withTopic "elsewhere"

def part12 : List App.Act := [.start (.producer maker2)] ++ joins 2 ++ asks 2 2
def lookup1 : Outbound := .lookupTopic ⟨0, "nowhere"⟩
def d1 : App.State UInt8 := after f7 part12
def d2 : App.State UInt8 := wrote d1 (bytes (out lookup1))
def d3 : App.State UInt8 := wrote d2 (bytes connectV)
def d4 : App.State UInt8 := heard d3 connectedC
def part13 : List App.Act := [.world (.sys .engConnectDone), .run 2] ++ asks 2 2
def d5 : App.State UInt8 := after d4 part13
def d6 : App.State UInt8 := after d5 [.run 1, .run 1]

theorem disp1 : App.exec wcfg f7 part12 = some d1 := rfl
theorem disp2 : App.exec wcfg d1 [.world (.write b0 0 .ok)] = some d2 :=
  write_exec (c := ⟨lookup1, none, some (1, ⟨lookup1, some 4⟩)⟩) rfl trivial (by decide +kernel) rfl rfl rfl
theorem disp3 : App.exec wcfg d2 [.world (.write b0 0 .ok)] = some d3 :=
  write_exec (c := ⟨connectOut, some 2, some (2, ⟨.connect ⟨none, none, none⟩, some 5⟩)⟩) (q := []) rfl trivial (by decide +kernel) rfl rfl rfl
theorem disp4 : App.exec wcfg d3 (hear connectedC) = some d4 := hear_exec frame_connected (by decide) rfl rfl true rfl rfl rfl
theorem disp5 : App.exec wcfg d4 part13 = some d5 := rfl
theorem disp6 : App.exec wcfg d5 [.run 1, .run 1] = some d6 := by
  have h : (App.exec wcfg d5 [.run 1, .run 1]).isSome = true := by decide +kernel
  obtain ⟨v, hv⟩ := Option.isSome_iff_exists.mp h
  rw [d6, after, hv]; rfl

theorem displacing_exec : App.exec wcfg f7 (part12 ++ write ++ write ++ hear connectedC ++ part13 ++ [.run 1, .run 1]) = some d6 :=
  exec_trans (exec_trans (exec_trans (exec_trans (exec_trans disp1 disp2) disp3) disp4) disp5) disp6

theorem waiting_exec : App.exec wcfg (App.init wcfg) (making ++ part8 ++ write ++ write ++ write ++ write ++ hear connectedC ++ part9) = some f7 :=
  exec_trans (exec_trans (exec_trans (exec_trans (exec_trans (exec_trans (exec_trans making_exec fail1) fail2) fail3) fail4) fail5) fail6) fail7

end AppExample

/-- Two `connect`s at the same time: the second one's lookup takes the first one's place, and the first `connect` fails although nothing went
wrong and the instance has not stopped: the case `displaced` of `Reason`. -/
example : ∃ acts log a j, App.Run wcfg acts log a ∧ j ∈ a.jobs ∧ j.made = .producer maker ∧
    j.ended = some (.err .channelTerminated) ∧ a.world.sys.mode = .idle := by
  obtain ⟨log, h⟩ := run_exec (as := []) .nil (exec_trans waiting_exec displacing_exec)
  have he : (d6.jobs[1]?).bind (·.ended) = some (.err .channelTerminated) := by decide +kernel
  have hm : (d6.jobs[1]?).map (·.made) = (d5.jobs[1]?).map (·.made) := by
    have := disp6
    simp only [App.exec] at this
    cases h1 : App.step wcfg d5 (.run 1) with
    | none => simp [h1] at this
    | some v =>
      simp only [h1] at this
      cases h2 : App.step wcfg v (.run 1) with
      | none => simp [h2] at this
      | some v' =>
        simp only [h2, Option.some.injEq] at this
        subst this
        rw [run_made h2, run_made h1]
  have hi : d6.world.sys.mode = .idle := by decide +kernel
  cases hj : d6.jobs[1]? with
  | none => rw [hj] at he; cases he
  | some j =>
    rw [hj] at he hm
    refine ⟨_, log, _, j, h, List.mem_of_getElem? hj, ?_, he, hi⟩
    exact Option.some.inj hm

end Neutron.Props
