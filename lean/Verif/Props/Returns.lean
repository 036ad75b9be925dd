import Verif.Proof.Returns

/-!
# C144: every call returns, under a fair scheduler
-/

namespace Neutron.Props

open Neutron Neutron.App Neutron.World Neutron.Sys

variable {T : Type}

/-! ## Registrations -/

theorem regs_enabled {cfg : Sys.Cfg} {s : Sys.State} (h : Reachable cfg s) (hm : s.mode = .idle) (hq : s.regQueue ≠ []) :
    Enabled cfg s Act.servesRegs := by
  have ha : s.addrs ≠ [] := by
    have := (placed h).home (by rw [hm]; simp) (by rw [hm]; simp)
    intro h0; rw [h0] at this; cases this
  obtain ⟨i, q, hiq⟩ := List.exists_cons_of_ne_nil hq
  have : ∃ s', Sys.step cfg s .engReg = some s' := by
    simp only [Sys.step, Sys.engReg, hm, ha, hiq, ne_eq, not_false_eq_true, or_true, and_self, if_true]
    split <;> exact ⟨_, rfl⟩
  obtain ⟨s', hs⟩ := this
  exact ⟨.engReg, s', rfl, trivial, hs⟩

/-- A registration that is on the way is taken. -/
theorem registered_later {cfg : Sys.Cfg} {σ : Nat → Sys.State} {acts : Nat → List Sys.Act} (h : Sys.Forever cfg σ acts)
    (hl : KeepsLooping σ) (hf : Fair cfg σ acts Act.servesRegs) {n i : Nat} (hi : i ∈ (σ n).vec ∨ i ∈ (σ n).regQueue) :
    ∃ m, n ≤ m ∧ i ∈ (σ m).vec := by
  rcases hi with hi | hi
  · exact ⟨n, Nat.le_refl n, hi⟩
  refine Classical.byContradiction fun hno => ?_
  have hno : ∀ m, n ≤ m → i ∉ (σ m).vec := fun m hm hh => hno ⟨m, hm, hh⟩
  have hq : ∀ m, n ≤ m → (σ m).regQueue ≠ [] := by
    intro m hm h0
    obtain ⟨d, l, h1, h2, _⟩ := path_regs (continues_to h hm)
    rw [h0, List.append_nil] at h2
    refine hno m hm ?_
    rw [h1]
    refine List.mem_append_right _ ?_
    rw [← h2]
    exact List.mem_append_left _ hi
  obtain ⟨pre, post, hs⟩ := List.append_of_mem hi
  obtain ⟨k, hk⟩ := often (hf fun N => by
    obtain ⟨m, hm, hid⟩ := hl (max n N)
    exact ⟨m, by omega, regs_enabled (forever_reachable h m) hid (hq m (by omega))⟩) n (pre.length + 1)
  have := C110_registration hs (continues_slice h n k) (by omega)
  exact hno (n + k) (by omega) (this.subset (by simp))

/-- Registrations are taken by the engine alone. -/
theorem round_regs {cfg : World.Cfg T} {a : App.State T} {x : App.Act} (h : Sys.Act.engReg ∈ App.does cfg a x) :
    x = .world (.sys .engReg) := by
  cases x with
  | world y =>
    cases y with
    | arrive | hold | serve => cases h
    | poll b ans =>
      obtain ⟨y, _, hy⟩ := List.mem_map.mp h
      cases hy
    | write b now io =>
      simp only [App.does, World.does] at h
      split at h
      · simp at h
      · split at h <;> simp at h
    | sys y =>
      simp only [App.does, World.does, List.mem_singleton] at h
      rw [h]
    | app y =>
      simp only [App.does, World.does, World.induced] at h
      repeat' split at h
      all_goals simp at h
  | start c => cases h
  | run k =>
    simp only [App.does] at h
    split at h
    · rename_i j hj
      cases ha : j.acts a.world.sys with
      | none => rw [ha] at h; cases h
      | some as =>
        rw [ha, Option.getD_some] at h
        unfold Job.acts at ha
        repeat' split at ha
        all_goals (cases ha; first | (simp at h; done) | (split at h <;> simp at h; done) | skip)
    · cases h
  | drop k =>
    simp only [App.does] at h
    split at h
    · unfold Job.dropActs at h
      repeat' split at h
      all_goals simp at h
    · cases h

theorem reply_comes {cfg : World.Cfg T} {σ : Nat → App.State T} {acts : Nat → App.Act} (h : App.Forever cfg σ acts)
    (hl : KeepsLooping (sysOf σ)) (hf : Fair cfg.sys (sysOf σ) (roundsOf cfg σ acts) Act.servesRegs) {n i : Nat}
    (hi : ∀ m, n ≤ m → i < (sysOf σ m).nClients ∧ ((sysOf σ m).clients i).phase = .waiting ∧ (sysOf σ m).replies = 0) : False := by
  have hF := app_forever h
  obtain ⟨m, hm, x, hx, hr⟩ := hf (fun N => by
    obtain ⟨m, hm, hid⟩ := hl (max n N)
    obtain ⟨h1, h2, h3⟩ := hi m (by omega)
    exact ⟨m, by omega, regs_enabled (forever_reachable hF m) hid (registration_on_the_way (forever_reachable hF m) h1 h2 h3).1⟩) n
  have hx' : x = .engReg := by cases x <;> first | rfl | cases hr
  subst hx'
  have ha := round_regs hx
  have hd := app_does (h.steps m)
  rw [ha] at hd
  simp only [App.does, World.does, sysSteps] at hd
  obtain ⟨h1, h2, h3⟩ := hi m hm
  have hal := (registration_on_the_way (forever_reachable hF m) h1 h2 h3).2
  have h4 := (hi (m + 1) (by omega)).2.2
  split at hd
  · rename_i s' hs
    have hs' : s' = (σ (m + 1)).world.sys := Option.some.inj hd
    subst hs'
    change Sys.engReg cfg.sys (sysOf σ m) = some (sysOf σ (m + 1)) at hs
    unfold Sys.engReg at hs
    split at hs
    · split at hs
      · cases hs
      · rename_i i' q hq
        simp only [Sys.State.setClient, hal, if_true, Option.some.injEq] at hs
        rw [← hs] at h4
        simp at h4
    · cases hs
  · cases hd

theorem not_fresh_to {cfg : Sys.Cfg} {s s' : Sys.State} {as : List Sys.Act} (hp : Continues cfg s as s') {i : Nat} (hi : i < s.nClients)
    (hf : (s.clients i).phase ≠ .fresh) : i < s'.nClients ∧ (s'.clients i).phase ≠ .fresh := by
  induction hp with
  | nil => exact ⟨hi, hf⟩
  | snoc _ hs _ ih => exact ⟨Nat.lt_of_lt_of_le ih.1 (Sys.nClients_mono hs), not_fresh_again hs ih.1 ih.2⟩

theorem ends_after_reg {cfg : World.Cfg T} {σ : Nat → App.State T} {acts : Nat → App.Act} (h : App.Forever cfg σ acts) {k : Nat}
    (hd : ∀ m, acts m ≠ .drop k) (hf : FairTo cfg σ acts k) {c : Start}
    (hdone : ∀ n j t, (σ n).jobs[k]? = some j → j.live = true → j.made = c → j.Awaits t → ∃ m, Sys.Done (sysOf σ m) t) {n : Nat}
    {j : Job} (hk : (σ n).jobs[k]? = some j) (hl : j.live = true) (hm : j.made = c) {name : String}
    {p : Prog Unit} {id : UInt64} {r : Outcome Unit} (hp : j.prog = registered name p id r) : Returns σ k n := by
  cases r with
  | ok u => exact ends_session h hd hf hdone p hk hl hm hp
  | err e => exact ⟨n, Nat.le_refl n, j, _, hk, ended_ret.mpr hp⟩
  | panic => exact ⟨n, Nat.le_refl n, j, _, hk, ended_ret.mpr hp⟩

theorem ends_waiting {cfg : World.Cfg T} {σ : Nat → App.State T} {acts : Nat → App.Act} (h : App.Forever cfg σ acts) {k : Nat}
    (hd : ∀ m, acts m ≠ .drop k) (hf : FairTo cfg σ acts k) (hloop : KeepsLooping (sysOf σ))
    (hregs : Fair cfg.sys (sysOf σ) (roundsOf cfg σ acts) Act.servesRegs) {c : Start}
    (hdone : ∀ n j t, (σ n).jobs[k]? = some j → j.live = true → j.made = c → j.Awaits t → ∃ m, Sys.Done (sysOf σ m) t) {n : Nat}
    {j : Job} (hk : (σ n).jobs[k]? = some j) (hl : j.live = true) (hm : j.made = c) {topic : String}
    {id : UInt64} {q : Outcome Unit → Setup Unit} (hp : j.prog = .register topic id q) {i : Nat} (hc : j.client = some i)
    (hw : ((sysOf σ n).clients i).phase = .waiting) : Returns σ k n := by
  have he : j.ended = none := by unfold Job.ended; rw [hp]
  obtain ⟨m, hnm, hk', hr⟩ := goes_on h hd hf hk hl he fun N hall => by
    refine Classical.byContradiction fun hno => ?_
    have hheld : ∀ m, max n N ≤ m → Held (sysOf σ m) j := fun m hm' =>
      Classical.byContradiction fun hh => hno ⟨m, by omega, by omega, hh⟩
    refine reply_comes h hloop hregs (n := max n N) (i := i) fun m hm' => ?_
    obtain ⟨as, log, hrun⟩ := run_at h m
    have hj := List.mem_of_getElem? (hall m (by omega))
    refine ⟨lt_of_uses hrun hj (uses_iff.mpr ⟨hl, he, hc⟩), ?_⟩
    rcases hheld m hm' with ⟨t, ⟨_, _, _, _, h1⟩, _⟩ | ⟨i', ⟨h1, _⟩, h2, h3, _⟩
    · rw [hp] at h1; cases h1
    · rw [hc] at h1; cases h1; exact ⟨h2, h3⟩
  obtain ⟨as, ha, hs, hj', hl', hm'⟩ := stepped h hk' hr
  obtain ⟨_, _, hrun⟩ := run_at h m
  obtain ⟨_, name, p, rfl⟩ := stage_register (kind hrun j (List.mem_of_getElem? hk')) hp
  have hp' := after_reg (s := sysOf σ m) (s' := sysOf σ (m + 1)) hp hc
  have hph : ((sysOf σ m).clients i).phase = .waiting := by
    have hlt : i < (sysOf σ n).nClients := by
      obtain ⟨_, _, hrun'⟩ := run_at h n
      exact lt_of_uses hrun' (List.mem_of_getElem? hk) (uses_iff.mpr ⟨hl, he, hc⟩)
    have hnf : ((sysOf σ m).clients i).phase ≠ .fresh :=
      (not_fresh_to (continues_to (app_forever h) hnm) hlt (by rw [hw]; simp)).2
    have hfit := (live_of hrun).phase j (List.mem_of_getElem? hk') i (uses_iff.mpr ⟨hl, he, hc⟩)
    rw [hp] at hfit
    exact hfit.resolve_left hnf
  have has : as = [.recvReply i] := by
    simp [Job.acts, hp, hc, hph] at ha
    exact ha.symm
  subst has
  rcases recv_phase hs with hph | hph <;>
  · rw [hph] at hp'
    exact (ends_after_reg h hd hf hdone hj' (hl'.trans hl) (hm'.trans hm) hp').later (by omega)

theorem ends_register {cfg : World.Cfg T} {σ : Nat → App.State T} {acts : Nat → App.Act} (h : App.Forever cfg σ acts) {k : Nat}
    (hd : ∀ m, acts m ≠ .drop k) (hf : FairTo cfg σ acts k) (hloop : KeepsLooping (sysOf σ))
    (hregs : Fair cfg.sys (sysOf σ) (roundsOf cfg σ acts) Act.servesRegs) {c : Start}
    (hdone : ∀ n j t, (σ n).jobs[k]? = some j → j.live = true → j.made = c → j.Awaits t → ∃ m, Sys.Done (sysOf σ m) t) {n : Nat}
    {j : Job} (hk : (σ n).jobs[k]? = some j) (hl : j.live = true) (hm : j.made = c) {topic : String}
    {id : UInt64} {q : Outcome Unit → Setup Unit} (hp : j.prog = .register topic id q) : Returns σ k n := by
  have he : j.ended = none := by unfold Job.ended; rw [hp]
  obtain ⟨_, _, hrun⟩ := run_at h n
  have hj := List.mem_of_getElem? hk
  obtain ⟨⟨i, hc⟩, name, p, rfl⟩ := stage_register (kind hrun j hj) hp
  by_cases hx : ∃ m, n ≤ m ∧ (σ m).jobs[k]? = some j ∧ ((sysOf σ m).clients i).phase = .waiting
  · obtain ⟨m, hnm, hk', hw⟩ := hx
    exact (ends_waiting h hd hf hloop hregs hdone hk' hl hm hp hc hw).later hnm
  · have hfresh : ∀ m, n ≤ m → (σ m).jobs[k]? = some j → ((sysOf σ m).clients i).phase = .fresh := by
      intro m hnm hk'
      obtain ⟨_, _, hrun⟩ := run_at h m
      have hfit := (live_of hrun).phase j (List.mem_of_getElem? hk') i (uses_iff.mpr ⟨hl, he, hc⟩)
      rw [hp] at hfit
      exact hfit.resolve_right fun hw => hx ⟨m, hnm, hk', hw⟩
    obtain ⟨m, hnm, hk', hr⟩ := goes_on h hd hf hk hl he fun N hall => by
      refine ⟨max n N, by omega, by omega, ?_⟩
      rintro (⟨t, ⟨_, _, _, _, h1⟩, _⟩ | ⟨i', ⟨h1, _⟩, h2, _⟩)
      · rw [hp] at h1; cases h1
      · rw [hc] at h1; cases h1
        rw [hfresh _ (by omega) (hall _ (by omega))] at h2
        cases h2
    have hph := hfresh m hnm hk'
    obtain ⟨as, ha, hs, hj', hl', hm'⟩ := stepped h hk' hr
    have hp' := after_reg (s := sysOf σ m) (s' := sysOf σ (m + 1)) hp hc
    have has : as = [.sendReg i] := by
      simp only [Job.acts, hp, hc, hph, if_true, Option.some.injEq] at ha
      exact ha.symm
    subst has
    rcases send_phase hs with hph' | hph'
    · rw [hph'] at hp'
      have hc' : (j.after (sysOf σ m) (sysOf σ (m + 1))).client = some i := by
        unfold Job.after; rw [hp, hc]; simp only [hph', hc]
      exact (ends_waiting h hd hf hloop hregs hdone hj' (hl'.trans hl) (hm'.trans hm) hp' hc' hph').later (by omega)
    · rw [hph'] at hp'
      exact (ends_after_reg h hd hf hdone hj' (hl'.trans hl) (hm'.trans hm) hp').later (by omega)

theorem newId_register {j : Job} (h : Kind j) {q : UInt64 → Setup Unit} (hp : j.prog = .newId q) (x : UInt64) :
    ∃ topic id r, q x = .register topic id r := by
  have stage : ∀ {name topic : String} {p : Prog Unit}, Stage name topic p j → ∃ topic id r, q x = .register topic id r := by
    intro name topic p hst
    cases hst with
    | new _ hp' =>
      rw [hp] at hp'
      simp only [setup, Setup.newId.injEq] at hp'
      subst hp'
      exact ⟨_, _, _, rfl⟩
    | registering _ _ _ hp' => rw [hp] at hp'; cases hp'
    | refused _ _ hp' => rw [hp] at hp'; cases hp'
    | calls _ _ _ hp' => cases hp' with
      | running _ hp' => rw [hp] at hp'; cases hp'
      | over _ hp' => rw [hp] at hp'; cases hp'
  cases h with
  | missing hp' => rw [hp] at hp'; cases hp'
  | consumer b name topic subscription hb hm hn hs => exact stage hs
  | producer b name topic hb hm hn hs => exact stage hs
  | call _ _ _ _ _ _ hp' => cases hp' with
    | running _ hp' => rw [hp] at hp'; cases hp'
    | over _ hp' => rw [hp] at hp'; cases hp'

/-- What remains is that the responses come. -/
theorem returns_of {cfg : World.Cfg T} {σ : Nat → App.State T} {acts : Nat → App.Act} (h : App.Forever cfg σ acts) {k : Nat}
    (hd : ∀ m, acts m ≠ .drop k) (hf : FairTo cfg σ acts k) (hloop : KeepsLooping (sysOf σ))
    (hregs : Fair cfg.sys (sysOf σ) (roundsOf cfg σ acts) Act.servesRegs) {n : Nat} {j : Job} (hk : (σ n).jobs[k]? = some j)
    (hl : j.live = true)
    (hdone : ∀ n' j' t, (σ n').jobs[k]? = some j' → j'.live = true → j'.made = j.made → j'.Awaits t → ∃ m, Sys.Done (sysOf σ m) t) :
    Returns σ k n := by
  obtain ⟨_, _, hrun⟩ := run_at h n
  have hj := List.mem_of_getElem? hk
  cases hp : j.prog with
  | ret o => exact ⟨n, Nat.le_refl n, j, o, hk, ended_ret.mpr hp⟩
  | session core p q =>
    obtain ⟨rfl, _⟩ := kind_ret (kind hrun j hj) hp
    exact ends_session h hd hf hdone p hk hl rfl hp
  | register topic id q => exact ends_register h hd hf hloop hregs hdone hk hl rfl hp
  | newId q =>
    have he : j.ended = none := by unfold Job.ended; rw [hp]
    have hh : ∀ s, ¬ Held s j := by
      rintro s (⟨t, ⟨_, _, _, _, h1⟩, _⟩ | ⟨i', ⟨_, _, _, _, h1⟩, _⟩) <;> rw [hp] at h1 <;> cases h1
    obtain ⟨m, hnm, hk', hr⟩ := goes_on h hd hf hk hl he fun N _ => ⟨max n N, by omega, by omega, hh _⟩
    obtain ⟨as, ha, hs, hj', hl', hm'⟩ := stepped h hk' hr
    have hp' : (j.after (sysOf σ m) (sysOf σ (m + 1))).prog = q (UInt64.ofNat (sysOf σ m).nClients) := by unfold Job.after; rw [hp]
    obtain ⟨topic, id, r, hreg⟩ := newId_register (kind hrun j hj) hp (UInt64.ofNat (sysOf σ m).nClients)
    exact (ends_register h hd hf hloop hregs hdone hj' (hl'.trans hl) hm' (hp'.trans hreg)).later (by omega)

/-! ## The responses -/

theorem WaitsForOwn.within {p : Prog Unit} (h : WaitsForOwn [] p) {evs : List Ev} {q : Prog Unit} (hw : Within p evs q) :
    WaitsForOwn (requests evs) q := by
  induction hw with
  | here => exact h
  | hand r _ ih =>
    have := ih r
    rwa [← requests_append] at this
  | wait r _ ih =>
    rw [requests_append]
    simpa [requests] using ih.2 r

theorem waits_mono {α : Type} {p : Prog α} : ∀ {own own' : List Nat}, (∀ t, t ∈ own → t ∈ own') → WaitsForOwn own p → WaitsForOwn own' p := by
  induction p with
  | ret => intro own own' _ _; trivial
  | hand c k ih =>
    intro own own' hs hw r
    refine ih r (fun t ht => ?_) (hw r)
    rcases List.mem_append.mp ht with ht | ht
    · exact List.mem_append_left _ (hs t ht)
    · exact List.mem_append_right _ ht
  | wait t c k ih => intro own own' hs hw; exact ⟨hs t hw.1, fun r => ih r hs (hw.2 r)⟩

theorem waits_sequential {α : Type} {p : Prog α} : ∀ {cur : Option Nat} {own : List Nat}, (∀ t, cur = some t → t ∈ own) → Sequential p cur →
    WaitsForOwn own p := by
  induction p with
  | ret => intro cur own _ _; trivial
  | hand c k ih =>
    intro cur own _ hq r
    refine ih r ?_ (hq.2 r)
    intro t ht
    refine List.mem_append_right _ ?_
    cases r with
    | ok t' =>
      by_cases hx : c.expectsResponse = true
      · simp only [hx, if_true, Option.some.injEq] at ht
        simp [requests, hx, ht]
      · simp [hx] at ht
    | err e => cases ht
    | panic => cases ht
  | wait t c k ih =>
    intro cur own hc hq
    refine ⟨hc t hq.1, fun r => ih r ?_ (hq.2.2 r)⟩
    intro t' ht'; cases ht'

/-- A call waits only for requests it has handed over. -/
theorem awaits_own {cfg : World.Cfg T} {as : List App.Act} {log : List World.Act} {a : App.State T} (h : App.Run cfg as log a) {j : Job}
    (hj : j ∈ a.jobs) (hq : ∀ i p, j.made = .call i p → WaitsForOwn [] p) {t : Nat} (ha : j.Awaits t) : t ∈ requests j.events := by
  obtain ⟨core, call, q, q', hp⟩ := ha
  obtain ⟨rfl, _⟩ := kind_ret (kind h j hj) hp
  have key : ∀ p, WaitsForOwn [] p → Within p j.events (.wait t call q) → t ∈ requests j.events := by
    intro p hw hin
    exact (WaitsForOwn.within hw hin).1
  have hst := start_of h j hj
  cases kind h j hj with
  | missing hp' => rw [hp] at hp'; cases hp'
  | consumer b name topic subscription hb hm _ _ =>
    refine key _ (waits_sequential (cur := none) (by intro t ht; cases ht) (Session.sequential_consumer topic subscription 250))
      (within_connect h j hj name topic _ ?_ core _ hp)
    rw [(hst.1 b hm).1]
    exact consumer_setup b hb.1 hb.2.1 hb.2.2
  | producer b name topic hb hm _ _ =>
    refine key _ (waits_sequential (cur := none) (by intro t ht; cases ht) (Session.sequential_producer topic))
      (within_connect h j hj name topic _ ?_ core _ hp)
    rw [(hst.2.1 b hm).1]
    exact producer_setup b hb.1 hb.2
  | call i p _ _ hm =>
    rcases (within h j hj i p hm).2 with ⟨core', q', h1, h2⟩ | ⟨o, h1, _⟩
    · rw [hp] at h1; cases h1
      exact key p (hq i p hm) h2
    · rw [hp] at h1; cases h1

/-- What a call asked for is handed over to the engine; once it is passed on, the response comes. -/
theorem awaited_done {cfg : World.Cfg T} {σ : Nat → App.State T} {acts : Nat → App.Act} (h : App.Forever cfg σ acts)
    (hp : DoTheirPart cfg.sys (sysOf σ) (roundsOf cfg σ acts)) {k n : Nat} {j : Job} (hk : (σ n).jobs[k]? = some j) (hl : j.live = true)
    (hq : ∀ i p, j.made = .call i p → WaitsForOwn [] p)
    (hpass : ∀ i, ClientOf σ k i → ∀ n, i ∈ (sysOf σ n).vec →
      ∃ m, n ≤ m ∧ ((sysOf σ n).clients i).submitted <+: (passedOn (sysOf σ m).sent i).map (·.2)) {t : Nat} (ha : j.Awaits t) :
    ∃ m, Sys.Done (sysOf σ m) t := by
  obtain ⟨as, log, hrun⟩ := run_at h n
  have hF := app_forever h
  have hj := List.mem_of_getElem? hk
  have hreq := awaits_own hrun hj hq ha
  obtain ⟨core, call, q, q', hprog⟩ := ha
  obtain ⟨rfl, i, hc⟩ := kind_ret (kind hrun j hj) hprog
  have he : j.ended = none := by unfold Job.ended; rw [hprog]
  have hu := uses_iff.mpr ⟨hl, he, hc⟩
  have hlt : i < (sysOf σ n).nClients := lt_of_uses hrun hj hu
  have hfit := (live_of hrun).phase j hj i hu
  rw [hprog] at hfit
  have hr := forever_reachable hF n
  obtain ⟨m1, hm1, hv⟩ := registered_later hF hp.loops hp.regs (known hr i hlt (.inr hfit))
  have hsub : ∃ cmd, cmd ∈ ((sysOf σ n).clients i).submitted ∧ cmd.tok = some t := by
    obtain ⟨_, hs⟩ := in_order hrun j hj i hc
    obtain ⟨cmd, h1, h2⟩ := List.mem_filterMap.mp (hs.subset hreq)
    exact ⟨cmd, h1, h2⟩
  obtain ⟨cmd, hcmd, htok⟩ := hsub
  obtain ⟨hlt1, hmono, _⟩ := path_client (continues_to hF hm1) hlt
  obtain ⟨m, hm, hpre⟩ := hpass i ⟨n, j, hk, hc⟩ m1 hv
  have hin : cmd ∈ ((sysOf σ m1).clients i).submitted := hmono.subset hcmd
  obtain ⟨⟨b, cmd'⟩, hx, rfl⟩ := List.mem_map.mp (hpre.subset hin)
  have hiss := (Sys.req (forever_reachable hF m1)).issued t i cmd'.out (submitted_issued (forever_reachable hF m1) i hlt1 _ hin t htok)
  obtain ⟨m', _, hd⟩ := request_passed hF hp.loops hp.works hp.writes hp.reads hp.answers (n := 0) (m := m) (Nat.zero_le m)
    ((vec_to hF hm).subset hv) (d := (sysOf σ m).sent) (by
      have : (sysOf σ 0).sent = [] := by unfold sysOf; rw [h.start]; rfl
      rw [this]; rfl) hx htok (has_answer hiss.2)
  exact ⟨m', hd⟩

theorem returns_passed {cfg : World.Cfg T} {σ : Nat → App.State T} {acts : Nat → App.Act} (h : App.Forever cfg σ acts)
    (hp : DoTheirPart cfg.sys (sysOf σ) (roundsOf cfg σ acts)) {k n : Nat} {j : Job} (hk : (σ n).jobs[k]? = some j) (hl : j.live = true)
    (hd : ∀ m, acts m ≠ .drop k) (hf : FairTo cfg σ acts k) (hq : ∀ i p, j.made = .call i p → WaitsForOwn [] p)
    (hpass : ∀ i, ClientOf σ k i → ∀ n, i ∈ (sysOf σ n).vec →
      ∃ m, n ≤ m ∧ ((sysOf σ n).clients i).submitted <+: (passedOn (sysOf σ m).sent i).map (·.2)) : Returns σ k n := by
  refine returns_of h hd hf hp.loops hp.regs hk hl ?_
  intro n' j' t hk' hl' hm' ha
  exact awaited_done h hp hk' hl' (by rw [hm']; exact hq) hpass ha

/-- **C144.** Every call returns: if engine, connections and brokers do their part, the scheduler does not neglect the call nor the
clients altogether, the future of the call is not dropped, and the clients registered before the call's own hand over only finitely
many commands, then the call returns.  It may be a `connect`, or any call on a client that waits only for what it has itself handed
over, like every call of the library (`C144_library`). -/
theorem C144_returns {cfg : World.Cfg T} {σ : Nat → App.State T} {acts : Nat → App.Act} (h : App.Forever cfg σ acts)
    (hp : DoTheirPart cfg.sys (sysOf σ) (roundsOf cfg σ acts)) (hb : ∀ n, (sysOf σ n).nClients ≤ 2 ^ 64)
    (hsv : Fair cfg.sys (sysOf σ) (roundsOf cfg σ acts) Act.servesSomeone) {k n : Nat} {j : Job} (hk : (σ n).jobs[k]? = some j)
    (hl : j.live = true) (hd : ∀ m, acts m ≠ .drop k) (hf : FairTo cfg σ acts k)
    (hq : ∀ i p, j.made = .call i p → WaitsForOwn [] p)
    (hs : ∀ i i', ClientOf σ k i → RegisteredBefore σ i' i → FallsSilent (roundsOf cfg σ acts) i') : Returns σ k n := by
  refine returns_passed h hp hk hl hd hf hq fun i hi n' hv => ?_
  obtain ⟨before, y, after, hsp, rfl, hbf⟩ := split_first (fun z => z = i) _ i hv rfl
  exact C143_commands (app_forever h) hp.loops hsv hb hsp fun i' hi' => hs y i' hi ⟨hbf i' hi', n', before, after, hsp, hi'⟩

/-- **C144.** The same, whatever the other clients hand over, if the call's own client gets its turn again and again and is then not
neglected. -/
theorem C144_returns_in_turn {cfg : World.Cfg T} {σ : Nat → App.State T} {acts : Nat → App.Act} (h : App.Forever cfg σ acts)
    (hp : DoTheirPart cfg.sys (sysOf σ) (roundsOf cfg σ acts)) (hb : ∀ n, (sysOf σ n).nClients ≤ 2 ^ 64) {k n : Nat} {j : Job}
    (hk : (σ n).jobs[k]? = some j) (hl : j.live = true) (hd : ∀ m, acts m ≠ .drop k) (hf : FairTo cfg σ acts k)
    (hq : ∀ i p, j.made = .call i p → WaitsForOwn [] p)
    (ht : ∀ i, ClientOf σ k i → GetsTurns (sysOf σ) i ∧ Fair cfg.sys (sysOf σ) (roundsOf cfg σ acts) (Act.servesClient i)) :
    Returns σ k n := by
  refine returns_passed h hp hk hl hd hf hq fun i hi n' hv => ?_
  obtain ⟨before, after, hsp⟩ := List.append_of_mem hv
  refine C143_in_turn (app_forever h) (ht i hi).2 hb hsp fun N => ?_
  obtain ⟨m, hm, hid, hbf⟩ := (ht i hi).1 (max n' N)
  obtain ⟨r, hr⟩ := vec_to (app_forever h) (by omega : n' ≤ m)
  exact ⟨m, by omega, hid, hbf before (after ++ r) (by rw [← hr, hsp]; simp)⟩

/-! ## The library's calls -/

/-- The program waits only for its own requests, and when it is over `Q` holds of its requests and its result. -/
def WaitsWith {α : Type} (Q : List Nat → Outcome α → Prop) : List Nat → Prog α → Prop
  | own, .ret o => Q own o
  | own, .hand c k => ∀ r, WaitsWith Q (own ++ requests [.handed c r]) (k r)
  | own, .wait t _ k => t ∈ own ∧ ∀ r, WaitsWith Q own (k r)

theorem waitsWith_andThen {α β : Type} {p : Prog α} {f : Outcome α → Prog β} {Q : List Nat → Outcome α → Prop}
    {R : List Nat → Outcome β → Prop} (hp : ∀ own, R own .panic) (hf : ∀ own o, Q own o → WaitsWith R own (f o)) :
    ∀ {own : List Nat}, WaitsWith Q own p → WaitsWith R own (p.andThen f) := by
  induction p with
  | ret o =>
    intro own h
    cases o with
    | panic => exact hp own
    | ok x => exact hf own _ h
    | err e => exact hf own _ h
  | hand c k ih => intro own h r; exact ih r (h r)
  | wait t c k ih => intro own h; exact ⟨h.1, fun r => ih r (h.2 r)⟩

theorem waitsWith_bind {α β : Type} {p : Prog α} {f : α → Prog β} {Q : List Nat → Outcome α → Prop} {R : List Nat → Outcome β → Prop}
    (hp : ∀ own, R own .panic) (he : ∀ own e, Q own (.err e) → R own (.err e)) (hf : ∀ own x, Q own (.ok x) → WaitsWith R own (f x))
    {own : List Nat} (h : WaitsWith Q own p) : WaitsWith R own (p >>= f) := by
  refine waitsWith_andThen hp (fun own o hq => ?_) h
  cases o with
  | ok x => exact hf own x hq
  | err e => exact he own e hq
  | panic => exact hp own

theorem WaitsWith.own {α : Type} {p : Prog α} {Q : List Nat → Outcome α → Prop} : ∀ {own : List Nat}, WaitsWith Q own p → WaitsForOwn own p := by
  induction p with
  | ret o => intro own _; trivial
  | hand c k ih => intro own h r; exact ih r (h r)
  | wait t c k ih => intro own h; exact ⟨h.1, fun r => ih r (h.2 r)⟩

theorem WaitsWith.weaken {α : Type} {p : Prog α} {Q R : List Nat → Outcome α → Prop} (hqr : ∀ own o, Q own o → R own o) :
    ∀ {own : List Nat}, WaitsWith Q own p → WaitsWith R own p := by
  induction p with
  | ret o => intro own h; exact hqr _ _ h
  | hand c k ih => intro own h r; exact ih r (h r)
  | wait t c k ih => intro own h; exact ⟨h.1, fun r => ih r (h.2 r)⟩

/-- Requests are kept, and these are the program's own. -/
def Tickets (own : List Nat) (own' : List Nat) (o : Outcome (List (Nat × Call))) : Prop :=
  (o = .panic ∨ ∀ t, t ∈ own → t ∈ own') ∧ ∀ ts, o = .ok ts → ∀ x, x ∈ ts → x.1 ∈ own'

theorem waits_handAll : ∀ (cs : List (Outcome Call)), (∀ c, .ok c ∈ cs → c.expectsResponse = true) → ∀ (own : List Nat),
    WaitsWith (Tickets own) own (Session.handAll cs) := by
  intro cs
  induction cs with
  | nil => intro _ own; exact ⟨.inr fun t ht => ht, by rintro ts h x hx; cases h; cases hx⟩
  | cons o cs ih =>
    intro hc own
    have hc' : ∀ c, .ok c ∈ cs → c.expectsResponse = true := fun c hm => hc c (List.mem_cons_of_mem _ hm)
    cases o with
    | err e => exact ih hc' own
    | panic => exact ih hc' own
    | ok c =>
      intro r
      have hx := hc c (List.mem_cons_self ..)
      have hpan : ∀ own', Tickets own own' .panic := fun own' => ⟨.inl rfl, by intro ts h; cases h⟩
      have rest : ∀ (r : Outcome Nat), (∀ t, r = .ok t → t ∈ own ++ requests [.handed c r]) →
          WaitsWith (Tickets own) (own ++ requests [.handed c r]) (do
            let ts ← Session.handAll cs
            match r with
            | .ok t => pure ((t, c) :: ts)
            | _ => pure ts) := by
        intro r hr
        refine waitsWith_bind hpan (fun own' e hq => ?_) (fun own' ts hq => ?_) (ih hc' (own ++ requests [.handed c r]))
        · refine ⟨.inr fun t ht => ?_, by intro ts h; cases h⟩
          rcases hq.1 with h | h
          · cases h
          · exact h t (List.mem_append_left _ ht)
        · have keep : ∀ t, t ∈ own ++ requests [.handed c r] → t ∈ own' := by
            rcases hq.1 with h | h
            · cases h
            · exact h
          cases r with
          | ok t =>
            refine ⟨.inr fun t ht => keep t (List.mem_append_left _ ht), ?_⟩
            rintro ts' h x hx'
            cases h
            rcases List.mem_cons.mp hx' with rfl | hx'
            · exact keep t (hr t rfl)
            · exact hq.2 ts rfl x hx'
          | err e => exact ⟨.inr fun t ht => keep t (List.mem_append_left _ ht), by rintro ts' h x hx'; cases h; exact hq.2 ts rfl x hx'⟩
          | panic => exact ⟨.inr fun t ht => keep t (List.mem_append_left _ ht), by rintro ts' h x hx'; cases h; exact hq.2 ts rfl x hx'⟩
      cases r with
      | ok t => exact rest (.ok t) (by rintro t' h; cases h; simp [requests, hx])
      | err e => exact rest (.err e) (by rintro t' h; cases h)
      | panic => exact ⟨.inl rfl, by rintro ts h; cases h⟩

theorem waits_waitAll : ∀ (ts : List (Nat × Call)) (own : List Nat), (∀ x, x ∈ ts → x.1 ∈ own) →
    WaitsWith (fun _ _ => True) own (Session.waitAll ts) := by
  intro ts
  induction ts with
  | nil => intro own _; trivial
  | cons x ts ih =>
    obtain ⟨t, c⟩ := x
    intro own h
    refine ⟨h _ (List.mem_cons_self ..), fun r => ?_⟩
    have := ih own fun x hx => h x (List.mem_cons_of_mem _ hx)
    cases r with
    | ok x => exact this
    | err e => exact this
    | panic => trivial

theorem waits_all (cs : List (Outcome Call)) (hc : ∀ c, .ok c ∈ cs → c.expectsResponse = true) :
    WaitsForOwn [] (do let tickets ← Session.handAll cs; Session.waitAll tickets; pure ()) := by
  refine WaitsWith.own (Q := fun _ _ => True) (waitsWith_bind (fun _ => trivial) (fun _ _ _ => trivial) (fun own ts hq => ?_)
    (waits_handAll cs hc []))
  exact waitsWith_bind (Q := fun _ _ => True) (R := fun _ _ => True) (f := fun _ => .ret (.ok ())) (fun _ => trivial) (fun _ _ _ => trivial)
    (fun _ _ _ => trivial) (waits_waitAll ts own (hq.2 ts rfl))

/-- **C144.** The calls of the library wait only for what they have themselves handed over: `send`, `send_batch`, `send_all`, `ack` and
`ack_all`. -/
theorem C144_library {V : Type} (serialize : V → Option Bytes) (m : V) (ms : List V) (id : MessageId) (ids : List MessageId) :
    WaitsForOwn [] (Session.send serialize m) ∧ WaitsForOwn [] (Session.sendBatch serialize ms) ∧
    WaitsForOwn [] (Session.sendAll serialize ms) ∧ WaitsForOwn [] (Session.ack id) ∧ WaitsForOwn [] (Session.ackAll ids) := by
  have one : ∀ {p : Prog Unit}, Sequential p none → WaitsForOwn [] p := fun h => waits_sequential (cur := none) (by intro t ht; cases ht) h
  refine ⟨?_, ?_, ?_, ?_, ?_⟩
  · unfold Session.send
    split
    · trivial
    · exact one (Session.sequential_bind (Session.sequential_call rfl) fun _ => rfl)
  · unfold Session.sendBatch
    split
    · trivial
    · exact one (Session.sequential_bind (Session.sequential_call rfl) fun _ => rfl)
  · refine waits_all _ fun c hc => ?_
    obtain ⟨m, _, hm⟩ := List.mem_map.mp hc
    split at hm
    · cases hm; rfl
    · cases hm
  · exact one (Session.sequential_bind (Session.sequential_call rfl) fun _ => rfl)
  · refine waits_all _ fun c hc => ?_
    obtain ⟨m, _, hm⟩ := List.mem_map.mp hc
    cases hm; rfl

end Neutron.Props
