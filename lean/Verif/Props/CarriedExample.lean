import Verif.Props.Carried
import Verif.Props.ReturnsExample

/-!
# An execution for C146
-/

namespace Neutron.Props

open Neutron.World Neutron.App Neutron.Sys EndToEndExample AppExample Session Trace ConfirmedExample Frame Proto

namespace ReturnsExample

set_option maxRecDepth 20000 in
theorem end_processed : (p14.world.sys.conns b0).processed.map (·.out) = [connectOut, lookup0, registration0, .send sent1] := rfl

set_option maxRecDepth 20000 in
theorem end_fits : World.Fits p14.world := by
  intro b c hc
  have hr : Reachable wcfg.sys p14.world.sys := by
    obtain ⟨σ, acts, h1, _, _, _, _, _, _, _, _, h9⟩ := whole_run
    rw [← h9 41 (by omega)]
    exact forever_reachable (app_forever h1) _
  by_cases hb : b ∈ p14.world.sys.addrs
  · rw [end_addrs] at hb
    have hb : b = b0 := by simpa using hb
    subst hb
    have := List.mem_map_of_mem (f := (·.out)) hc
    rw [end_processed] at this
    simp only [List.mem_cons, List.not_mem_nil, or_false] at this
    rcases this with h | h | h | h <;> rw [h] <;> exact ⟨trivial, by decide +kernel⟩
  · rw [(Sys.conn hr).unused b hb] at hc
    cases hc

/-- The hypotheses of `C146_commands`, `C146_handed_over`, `C146_call` and `C146_send` are met, and so are their conclusions: a producer's
`send` has just been called; later a broker has received the message. -/
example : ∃ (σ : Nat → App.State UInt8) (acts : Nat → App.Act) (j : Job), App.Forever wcfg σ acts ∧
    KeepWorking wcfg.sys (sysOf σ) (roundsOf wcfg σ acts) ∧ (∀ n, (sysOf σ n).nClients ≤ 2 ^ 64) ∧ (∀ n, World.Fits (σ n).world) ∧
    Served wcfg σ acts 0 ∧ (∀ m, acts m ≠ .drop 1) ∧ FairTo wcfg σ acts 1 ∧
    (σ 32).jobs[1]? = some j ∧ j.live = true ∧ j.ended = none ∧ j.made = .call 0 (Session.send some [104]) ∧
    (∃ m j' t cmd, j' ∈ (σ m).jobs ∧ j'.client = some 0 ∧ .handed (.sendMessage [104]) (.ok t) ∈ j'.events ∧
      cmd ∈ ((sysOf σ m).clients 0).submitted ∧ cmd.tok = some t) ∧
    Reaches σ fun v => IsSendOf v 0 [104] := by
  obtain ⟨σ, acts, h1, h2, h3, h4, h5, h6, h7, h8, h9, h10⟩ := whole_run
  obtain ⟨j, l0, l1⟩ := Option.map_eq_some_iff.mp (send_called h2)
  simp only [Prod.mk.injEq] at l1
  have hw : KeepWorking wcfg.sys (sysOf σ) (roundsOf wcfg σ acts) := ⟨h3.loops, h3.regs, h3.writes, h3.works⟩
  have hfit : ∀ n, World.Fits (σ n).world := by
    intro n b c hc
    obtain ⟨⟨d, hd, _⟩, _⟩ := path_writes (forever_reachable (app_forever h1) n) (continues_to (app_forever h1) (by omega : n ≤ n + 41)) b
      (works_slice (h3.works b) _ _)
    refine end_fits b c ?_
    rw [← h10 (n + 41) (by omega), hd]
    exact List.mem_append_left _ hc
  have hs : Served wcfg σ acts 0 := .inr (h6 0)
  refine ⟨σ, acts, j, h1, hw, h4, hfit, hs, fun m => h7 m 1, h8 1, l0, l1.1, l1.2.1, l1.2.2, ?_,
    C146_send h1 hw h4 hfit hs l0 l1.1 (fun m => h7 m 1) (h8 1) l1.2.2 rfl⟩
  obtain ⟨m, j', k1, k2, k3⟩ := rests h1 hw.loops hw.regs l0 l1.1 (fun m => h7 m 1) (h8 1)
  obtain ⟨_, _, hrun⟩ := run_at h1 m
  have hj' := List.mem_of_getElem? k1
  obtain ⟨hcl, hall⟩ := handed_by hrun (not_stopped (app_forever h1) hw.loops m) hj' (k2.trans l1.2.2)
    ((C146_library some [104] [] [] []).1 _ rfl) k3
  obtain ⟨t, ht⟩ := hall _ (List.mem_singleton_self _)
  obtain ⟨_, ho⟩ := in_order hrun j' hj' 0 hcl
  obtain ⟨cmd, hcmd, hct⟩ := List.mem_filterMap.mp (ho.subset (List.mem_filterMap.mpr ⟨_, ht, rfl⟩))
  exact ⟨m, j', t, cmd, hj', hcl, ht, hcmd, hct⟩

end ReturnsExample

/-- `C146_send_batch`, `C146_send_all`, `C146_ack` and `C146_ack_all` have the same hypotheses as `C146_send`, for calls of these programs, which
differ in what they hand over (`C146_library`): for example all of several messages before waiting. -/
example : HandsOver [.sendMessage [104], .sendMessage [105]] (Session.sendAll (some : Bytes → Option Bytes) [[104], [105]]) ∧
    HandsOver [.sendBatch [[104], [105]]] (Session.sendBatch (some : Bytes → Option Bytes) [[104], [105]]) ∧
    ¬ HandsOver [.sendMessage [105]] (Session.sendAll (some : Bytes → Option Bytes) [[104], [105]]) :=
  ⟨(C146_library (some : Bytes → Option Bytes) [] [[104], [105]] [] []).2.2.1, (C146_library (some : Bytes → Option Bytes) [] [[104], [105]] [] []).2.1 _ rfl,
    fun h => by cases h.1⟩

end Neutron.Props
