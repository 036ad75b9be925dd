import Verif.Props.Reach
import Verif.Props.AppSend

/-!
# C127: an instance
-/

namespace Neutron.Props.AppExample

open Neutron Neutron.World Neutron.App Frame Trace Proto EndToEndExample ConfirmedExample

/-- A producer has handed a message over; the engine has not taken it yet. -/
def hands : List App.Act := [.start (.call 0 (Session.send some [104])), .run 1, .run 1]
def p10h : App.State UInt8 := after p10 hands

theorem exec_world {a a' : App.State UInt8} {x : World.Act} (h : App.exec wcfg a [.world x] = some a') :
    worldSteps wcfg a.world [x] = some a'.world := by
  simp only [App.exec] at h
  cases hs : App.step wcfg a (.world x) with
  | none => rw [hs] at h; cases h
  | some a1 =>
    rw [hs] at h
    cases h
    exact (step_some hs).2.1

set_option maxRecDepth 20000 in
theorem processed_p12 : (p12.world.sys.conns b0).processed.map (·.out) = [connectOut, lookup0, registration0, .send sent1] := rfl

set_option maxRecDepth 20000 in
theorem fits_p12 {acts : List App.Act} {log : List World.Act} (hr : App.Run wcfg acts log p12) : World.Fits p12.world := by
  intro b c hc
  by_cases hb : b = Trace.b0
  · subst hb
    have hc' := List.mem_map_of_mem (f := (·.out)) hc
    rw [processed_p12] at hc'
    simp only [List.mem_cons, List.not_mem_nil, or_false] at hc'
    rcases hc' with h | h | h | h <;> rw [h] <;> exact ⟨trivial, by decide +kernel⟩
  · have h0 := (Sys.conn (⟨_, (proj (run_world hr)).choose_spec.choose_spec.sys⟩ : Sys.Reachable wcfg.sys p12.world.sys)).unused b
      (by show b ∉ [Trace.b0]; simpa using hb)
    rw [h0] at hc; cases hc

/-- Every write is one of what the surroundings do. -/
theorem write_run {cfg : World.Cfg UInt8} {acts : List App.Act} {log : List World.Act} {a : App.State UInt8} (h : App.Run cfg acts log a)
    {b : BrokerAddress} {now : UInt64} {io : Io} (hm : .write b now io ∈ log) : .world (.write b now io) ∈ acts := by
  induction h with
  | nil => cases hm
  | @snoc as log a a' x h hs ih =>
    rcases List.mem_append.mp hm with hm | hm
    · exact List.mem_append_left _ (ih hm)
    · refine List.mem_append_right _ ?_
      cases x with
      | world y => simp only [App.induced, List.mem_singleton] at hm; rw [hm]; simp
      | start c => simp [App.induced] at hm
      | run k =>
        simp only [App.induced] at hm
        split at hm
        · simp at hm
        · cases hm
      | drop k =>
        simp only [App.induced] at hm
        split at hm
        · simp at hm
        · cases hm

end Neutron.Props.AppExample

namespace Neutron.Props

open Neutron.World Neutron.App EndToEndExample AppExample Session Trace ConfirmedExample

set_option maxRecDepth 20000 in
/-- The hypotheses of `C127_reaches` are met: a send has been handed over, the engine takes it, and the connection writes it. -/
example : ∃ (acts : List App.Act) (log : List World.Act) (cmd : Sys.ClientCmd),
    App.Run wcfg acts log p10h ∧ (p10h.world.sys.clients 0).queue = [cmd] ∧ cmd.out = .send sent1 ∧
    worldSteps wcfg p10h.world [.sys (.engOut 0 (.ok []) net0)] = some p11.world ∧
    worldSteps wcfg p11.world [.write b0 0 .ok] = some p12.world ∧
    p11.world.sys.mode ≠ .stopped ∧ Fits p12.world ∧ (p12.world.sys.conns b0).alive = true ∧
    (p11.world.sys.conns b0).queue.length = 1 := by
  obtain ⟨log, hr, _⟩ := reach_made.quiet (quiet_of hands rfl) (show App.exec wcfg p10 hands = some p10h from rfl)
  obtain ⟨log2, hr2, _⟩ := (reach_made.quiet (quiet_of sends rfl) psent11).quiet (quiet_of write rfl) psent12
  refine ⟨_, log, ⟨.send sent1, some 3⟩, hr, rfl, rfl, rfl, exec_world psent12, (by intro h; cases h), fits_p12 hr2, rfl, rfl⟩


set_option maxRecDepth 20000 in
/-- The hypotheses of `C127_call` are met, by the same send. -/
example : ∃ (acts : List App.Act) (log : List World.Act) (j : Job), App.Run wcfg acts log p12 ∧ j ∈ p12.jobs ∧ j.client = some 0 ∧
    .handed (.sendMessage [104]) (.ok 3) ∈ j.events ∧ p12.world.sys.mode ≠ .stopped ∧ p12.world.sys.nClients ≤ 2 ^ 64 ∧
    (p12.world.sys.clients 0).queue = [] ∧ Fits p12.world ∧ WritesSucceed b0 log ∧ (p12.world.sys.conns b0).alive = true ∧
    (p12.world.sys.conns b0).queue = [] := by
  obtain ⟨log, hr, _⟩ := (reach_made.quiet (quiet_of sends rfl) psent11).quiet (quiet_of write rfl) psent12
  refine ⟨_, log, p12.jobs[1], hr, List.getElem_mem (by decide), rfl, List.mem_singleton.mpr rfl, (by intro h; cases h), (by decide), rfl, fits_p12 hr, ?_, rfl, rfl⟩
  intro now io hm
  have hw := write_run hr hm
  have : ∀ x ∈ (made1 ++ write ++ AppExample.hear connectedC ++ part2 ++ write ++ AppExample.hear (found 1) ++ part3 ++ write ++
      AppExample.hear (producerSuccessC 1) ++ made7 ++ sends ++ write), ∀ now io, x = .world (.write b0 now io) → io = .ok := by
    simp [made1, write, AppExample.hear, part2, part3, made7, sends, asks, gets, joins]
  exact this _ hw now io rfl

end Neutron.Props
