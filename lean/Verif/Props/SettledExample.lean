import Verif.Props.ReturnsExample
import Verif.Spec.Carried
import Verif.Props.ReceiveForeverAllExample

/-!
# Infinite executions of everything from finite ones that come to rest
-/

namespace Neutron.Props.Settled

open Neutron.World Neutron.App Neutron.Sys EndToEndExample AppExample Session Trace ConfirmedExample Frame Proto

/-- One client is registered and has nothing waiting, nothing waits in the engine or at the only connection, and no call can go on. -/
def AtRest (e : App.State UInt8) : Prop :=
  (e.world.sys.mode, e.world.sys.vec, e.world.sys.regQueue, e.world.sys.addrs, (e.world.sys.conns b0).alive, (e.world.sys.clients 0).queue,
    (e.world.sys.clients 0).phase, (e.world.sys.conns b0).queue, (e.world.sys.conns b0).outbox.length, e.world.sys.nClients) =
    (.idle, [0], [], [b0], true, [], .ready, [], 0, 1) ∧ e.jobs.map (fun j => (j.acts e.world.sys).isSome) = e.jobs.map fun _ => false

/-- The action after `n` of these actions is a write of `out`, which works; `n` is followed by the reading of an answer, if there should be one. -/
def Written (as : List App.Act) (n : Nat) : Prop :=
  ∃ pre post a a' out, as = pre ++ (write ++ post) ∧ pre.length = n ∧ App.exec wcfg (App.init wcfg) pre = some a ∧
    App.exec wcfg a write = some a' ∧ App.does wcfg a (.world (.write b0 0 .ok)) = [.connCmd b0 .ok] ∧
    (a'.world.sys.conns b0).written.map (·.out) = (a.world.sys.conns b0).written.map (·.out) ++ [out] ∧
    ((∀ x, ¬ Answers out x) ∨ ∃ pre' post' a2 v inb, as = pre' ++ (.world (.poll b0 none) :: post') ∧ n < pre'.length ∧
      App.exec wcfg (App.init wcfg) pre' = some a2 ∧ App.does wcfg a2 (.world (.poll b0 none)) = [.connRead b0 (.command v none)] ∧
      Inbound.ofCommand v = .ok inb ∧ Answers out inb)

/-- What follows from it. -/
structure Settles (as : List App.Act) (e : App.State UInt8) (σ : Nat → App.State UInt8) (acts : Nat → App.Act) : Prop where
  forever : App.Forever wcfg σ acts
  early : ∀ n, n ≤ as.length → App.exec wcfg (App.init wcfg) (as.take n) = some (σ n)
  late : ∀ n, as.length ≤ n → (σ n).world.sys = e.world.sys ∧ (σ n).jobs = e.jobs ∧ (σ n).world.app = e.world.app
  actions : ∀ n, acts n = as[n]?.getD (.world (.arrive b0 (.data [0])))
  part : DoTheirPart wcfg.sys (sysOf σ) (roundsOf wcfg σ acts)
  clients : ∀ n, (sysOf σ n).nClients ≤ 2 ^ 64
  served : ∀ i, Served wcfg σ acts i
  fair : ∀ k, FairTo wcfg σ acts k

theorem settles {as : List App.Act} {e : App.State UInt8} (he : App.exec wcfg (App.init wcfg) as = some e) (hq : AtRest e)
    (hw : ∀ n, (as[n]?.map ReturnsExample.isWrite).getD false = true → Written as n) : ∃ σ acts, Settles as e σ acts := by
  obtain ⟨hes, hjobs⟩ := hq
  simp only [Prod.mk.injEq] at hes
  obtain ⟨e1, e2, e3, e4, e5, e6, e7, e8, e9, e10⟩ := hes
  have e9 := List.length_eq_zero_iff.mp e9
  obtain ⟨σ, acts, hF, hσ, hσN, hacts⟩ := app_stutter (b := b0) he (by rw [e4]; simp) (ReceiveAllExample.only_client he e2)
  have hS := app_forever hF
  have hlate : ∀ n, as.length ≤ n → sysOf σ n = e.world.sys := fun n hn => (hσN n hn).1
  have hfair : ∀ p : Sys.Act → Bool, ¬ Enabled wcfg.sys e.world.sys p → Fair wcfg.sys (sysOf σ) (roundsOf wcfg σ acts) p := fun p hp =>
    fair_of_never as.length fun n hn => by rw [hlate n hn]; exact hp
  have hnotC : ∀ j, ¬ Enabled wcfg.sys e.world.sys (Act.servesClient j) := by
    rintro j ⟨a, t, hp, _, hst⟩
    cases a with
    | engOut k auth net =>
      simp only [Sys.step, Sys.engOut] at hst
      split at hst
      · rename_i hc
        rw [e2] at hc
        have hk : k = 0 := by simpa using hc.2.1
        subst hk
        rw [e6] at hst
        simp [e7] at hst
      · cases hst
    | _ => cases hp
  have hnotG : ¬ Enabled wcfg.sys e.world.sys Act.servesRegs := by
    rintro ⟨a, t, hp, ho, hst⟩
    cases a with
    | engReg =>
      simp only [Sys.step, Sys.engReg, e3] at hst
      split at hst <;> cases hst
    | _ => cases hp
  have hnotW : ∀ b, ¬ Enabled wcfg.sys e.world.sys (Act.servesWrites b) := by
    rintro j ⟨a, t, hp, _, hst⟩
    cases a with
    | connCmd b w =>
      simp only [Sys.step, Sys.connCmd] at hst
      split at hst
      · rename_i hc
        rw [e4] at hc
        have hb : b = b0 := by simpa using hc.2
        subst hb
        rw [e8] at hst
        simp [e1] at hst
      · cases hst
    | _ => cases hp
  have hnotR : ∀ b, ¬ Enabled wcfg.sys e.world.sys (Act.servesReads b) := by
    rintro j ⟨a, t, hp, _, hst⟩
    cases a with
    | engIn b =>
      simp only [Sys.step, Sys.engIn] at hst
      split at hst
      · rename_i hc
        rw [e4] at hc
        have hb : b = b0 := by simpa using hc.2.1
        subst hb
        rw [e9] at hst
        simp [e5] at hst
      · cases hst
    | _ => cases hp
  have hlateN : ∀ n, sysOf σ (n + as.length) = e.world.sys := fun n => hlate _ (by omega)
  have hre : Reachable wcfg.sys e.world.sys := by rw [← hlateN 0]; exact forever_reachable hS _
  have halive : ∀ b, (e.world.sys.conns b).alive = true := by
    intro b
    by_cases hb : b ∈ e.world.sys.addrs
    · rw [e4] at hb
      have hb : b = b0 := by simpa using hb
      rw [hb]; exact e5
    · rw [(conn hre).unused b hb]; rfl
  have alive : ∀ b n, ((sysOf σ n).conns b).alive = true := by
    intro b n
    cases hal : ((sysOf σ n).conns b).alive with
    | true => rfl
    | false =>
      have := path_dead (forever_reachable hS n) (continues_to hS (by omega : n ≤ n + as.length)) hal
      rw [hlateN, halive] at this
      cases this
  have at_ : ∀ {pre post : List App.Act} {a : App.State UInt8}, as = pre ++ post → App.exec wcfg (App.init wcfg) pre = some a → σ pre.length = a :=
    fun h1 h2 => ReceiveAllExample.reaches h2 h1 hσ
  have act_ : ∀ {pre post : List App.Act} {x : App.Act}, as = pre ++ (x :: post) → acts pre.length = x := by
    intro pre post x h
    rw [hacts, h]; simp
  have hwr : ∀ n b w, .connCmd b w ∈ roundsOf wcfg σ acts n → Written as n := by
    intro n b w hm
    refine Classical.byContradiction fun hno => ?_
    refine no_writes (hF.steps n) ?_ b w hm
    intro b now io hx
    refine hno (hw n ?_)
    rw [hacts] at hx
    cases hg : as[n]? with
    | none => rw [hg] at hx; cases hx
    | some y => rw [hg] at hx; simp only [Option.getD_some] at hx; subst hx; rfl
  have hwk : ∀ n b w, .connCmd b w ∈ roundsOf wcfg σ acts n → b = b0 ∧ w = .ok := by
    intro n b w hm
    obtain ⟨pre, post, a, a', out, hs, hl, h1, h2, h3, h4, h5⟩ := hwr n b w hm
    unfold roundsOf at hm
    rw [← hl, act_ hs, at_ hs h1, h3, List.mem_singleton] at hm
    cases hm; exact ⟨rfl, rfl⟩
  have hanswers : ∀ b, BrokerAnswers (sysOf σ) (roundsOf wcfg σ acts) b := by
    intro b n d c hwd hcd hx
    by_cases ha : ∀ w, .connCmd b w ∉ roundsOf wcfg σ acts n
    · rw [path_quiet (forever_reachable hS n) (inOrder_continues (hS.rounds n)) b ha] at hwd
      have : d = [] := by simpa using hwd
      subst this
      cases hcd
    · simp only [Classical.not_forall, Classical.not_not] at ha
      obtain ⟨w, ha⟩ := ha
      obtain ⟨pre, post, a, a', out, hs, hl, h1, h2, h3, h4, h5⟩ := hwr n b w ha
      obtain ⟨rfl, rfl⟩ := hwk n b w ha
      have s1 := at_ hs h1
      have s2 := at_ (pre := pre ++ write) (post := post) (by rw [hs, List.append_assoc]) (exec_trans h1 h2)
      rw [show (pre ++ write).length = pre.length + 1 by simp [write]] at s2
      unfold sysOf at hwd
      rw [← hl, s1, s2] at hwd
      have hout : c.out = out := by
        rw [hwd, List.map_append, List.append_cancel_left_eq] at h4
        have := List.mem_map_of_mem (f := (·.out)) hcd
        rw [h4, List.mem_singleton] at this
        exact this
      rcases h5 with h5 | ⟨pre', post', a2, v, inb, hs', hl', h6, h7, h8, h9⟩
      · obtain ⟨x, hx⟩ := hx
        rw [hout] at hx
        exact absurd hx (h5 x)
      · refine ⟨pre'.length, v, none, inb, hl', ?_, h8, by rw [hout]; exact h9⟩
        unfold roundsOf
        rw [act_ hs', at_ hs' h6, h7]
        exact List.mem_singleton.mpr rfl
  refine ⟨σ, acts, hF, hσ, hσN, hacts, ⟨fun n => ⟨n + as.length, by omega, by show (sysOf σ (n + as.length)).mode = _; rw [hlateN]; exact e1⟩, hfair _ hnotG, fun b => hfair _ (hnotW b),
    fun b => hfair _ (hnotR b), fun b => ⟨alive b, fun n w hm => (hwk n b w hm).2⟩, hanswers⟩, fun n => ?_,
    fun i => .inr ⟨fun n => ⟨n + as.length, by omega, by rw [hlateN]; exact e1, ?_⟩, hfair _ (hnotC i)⟩, ?_⟩
  · have := path_clients (continues_to hS (by omega : n ≤ n + as.length))
    rw [hlateN, e10] at this
    exact Nat.le_trans this (by decide)
  · intro before after hv j hj
    rw [hlateN, e2] at hv
    exfalso
    have := congrArg List.length hv
    simp at this
    have hb : before = [] := List.length_eq_zero_iff.mp (by omega)
    rw [hb] at hj
    cases hj
  · intro k hag
    obtain ⟨m, hm, a, hs⟩ := hag as.length
    exfalso
    have hp := (step_some hs).1
    simp only [App.possible, (hσN m hm).1, (hσN m hm).2.1] at hp
    cases hj : e.jobs[k]? with
    | none => rw [hj] at hp; cases hp
    | some j =>
      have : (j.acts e.world.sys).isSome = false := by
        have hmem : (j.acts e.world.sys).isSome ∈ e.jobs.map (fun j => (j.acts e.world.sys).isSome) :=
          List.mem_map_of_mem (f := fun j : Job => (j.acts e.world.sys).isSome) (List.mem_of_getElem? hj)
        rw [hjobs] at hmem
        obtain ⟨_, _, h⟩ := List.mem_map.mp hmem
        exact h.symm
      rw [hj] at hp
      simp [this] at hp

end Neutron.Props.Settled
