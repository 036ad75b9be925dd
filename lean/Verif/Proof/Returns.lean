import Verif.Spec.Returns
import Verif.Props.Forever
import Verif.Props.ConnectReturns
import Verif.Proof.AppSolo
import Verif.Proof.AppWithin
import Verif.Proof.SysWaiters

/-!
# The application's calls in executions that go on forever
-/

namespace Neutron.Props

open Neutron Neutron.App Neutron.World

variable {T : Type}

/-! ## From the whole to clients, engine and connections -/

theorem world_does {cfg : World.Cfg T} {w w' : World T} {x : World.Act} (hs : World.step cfg w x = some w') :
    sysSteps cfg.sys w.sys (World.does cfg w x) = some w'.sys := by
  have one : ∀ {a : Sys.Act} {s : Sys.State}, Sys.step cfg.sys w.sys a = some s → sysSteps cfg.sys w.sys [a] = some s := by
    intro a s h; simp only [sysSteps, h]
  cases x with
  | arrive b r =>
    simp only [World.step] at hs
    split at hs
    · cases hs; rfl
    · cases hs
  | hold b =>
    simp only [World.step] at hs
    split at hs
    · cases hs; rfl
    · cases hs
  | serve i' =>
    simp only [World.step] at hs
    split at hs
    · cases hs; rfl
    · cases hs
  | poll b ans =>
    simp only [World.step] at hs
    split at hs
    · split at hs
      · rename_i s hx
        cases hs
        exact hx
      · cases hs
    · cases hs
  | write b now io =>
    simp only [World.step] at hs
    simp only [World.does]
    split at hs
    · split at hs
      · rename_i hq
        rw [hq]
        split at hs
        · rename_i s hx; cases hs
          exact one hx
        · cases hs
      · rename_i c q hq
        simp only [hq]
        split at hs
        · rename_i t r htx
          simp only [htx]
          split at hs
          · rename_i s hx; cases hs
            exact one hx
          · cases hs
        · cases hs
    · cases hs
  | sys a =>
    simp only [World.step] at hs
    split at hs
    · split at hs
      · rename_i s hx; cases hs
        exact one hx
      · cases hs
    · cases hs
  | app a =>
    simp only [World.step] at hs
    split at hs
    · split at hs
      · split at hs
        · rename_i s hx
          cases hs
          exact hx
        · cases hs
      · cases hs
    · cases hs

theorem app_does {cfg : World.Cfg T} {a a' : App.State T} {x : App.Act} (hs : App.step cfg a x = some a') :
    sysSteps cfg.sys a.world.sys (App.does cfg a x) = some a'.world.sys := by
  obtain ⟨_, hw, _⟩ := step_some hs
  cases x with
  | world x =>
    simp only [App.induced, worldSteps] at hw
    cases hx : World.step cfg a.world x with
    | none => rw [hx] at hw; cases hw
    | some w => rw [hx] at hw; cases hw; exact world_does hx
  | start c =>
    simp only [App.induced, worldSteps, Option.some.injEq] at hw
    rw [← hw]; rfl
  | run k =>
    cases hj : a.jobs[k]? with
    | some j =>
      simp only [App.induced, hj] at hw
      simp only [App.does, hj]
      exact worldSteps_sys hw
    | none =>
      simp only [App.induced, hj, worldSteps, List.map_nil, Option.some.injEq] at hw
      simp only [App.does, hj]
      rw [← hw]; rfl
  | drop k =>
    cases hj : a.jobs[k]? with
    | some j =>
      simp only [App.induced, hj] at hw
      simp only [App.does, hj]
      exact worldSteps_sys hw
    | none =>
      simp only [App.induced, hj, worldSteps, List.map_nil, Option.some.injEq] at hw
      simp only [App.does, hj]
      rw [← hw]; rfl

/-- The engine's serving a client. -/
def serves : Sys.Act → Prop
  | .engOut _ _ _ => True
  | _ => False

theorem firstReady_of {s : Sys.State} {a : Sys.Act} (h : ¬ serves a) : Sys.FirstReady s a := by
  cases a <;> first | exact absurd trivial h | exact trivial

theorem inOrder_of {cfg : Sys.Cfg} : ∀ {as : List Sys.Act} {s s' : Sys.State}, sysSteps cfg s as = some s' → (∀ a ∈ as, ¬ serves a) →
    Sys.InOrder cfg s as s' := by
  intro as
  induction as with
  | nil => intro s s' h _; cases h; exact .nil
  | cons a as ih =>
    intro s s' h hf
    simp only [sysSteps] at h
    cases hs : Sys.step cfg s a with
    | none => rw [hs] at h; cases h
    | some t =>
      rw [hs] at h
      exact inOrder_append (as := [a]) (.snoc (as := []) .nil (firstReady_of (hf a (by simp))) hs) (ih h fun b hb => hf b (by simp [hb]))

theorem world_serves {cfg : World.Cfg T} {w : World T} {x : World.Act} (hx : ∀ y, x ≠ .sys y) : ∀ a ∈ World.does cfg w x, ¬ serves a := by
  intro a ha hv
  cases x with
  | arrive | hold | serve => cases ha
  | poll b ans =>
    obtain ⟨y, _, rfl⟩ := List.mem_map.mp ha
    exact hv
  | write b now io =>
    simp only [World.does] at ha
    split at ha
    · rw [List.mem_singleton] at ha; subst ha; exact hv
    · split at ha
      · rw [List.mem_singleton] at ha; subst ha; exact hv
      · cases ha
  | sys y => exact hx y rfl
  | app y =>
    simp only [World.does, World.induced] at ha
    repeat' split at ha
    all_goals first
      | (cases ha; done)
      | (rw [List.mem_singleton] at ha; subst ha; exact hv)
      | (simp only [List.mem_cons, List.not_mem_nil, or_false] at ha; rcases ha with rfl | rfl <;> exact hv)

theorem acts_serves {s : Sys.State} {j : Job} {as : List Sys.Act} (h : j.acts s = some as) : ∀ a ∈ as, ¬ serves a := by
  intro a ha hv
  unfold Job.acts at h
  repeat' split at h
  all_goals first
    | (cases h; done)
    | (cases h; simp at ha; done)
    | (cases h; rw [List.mem_singleton] at ha; subst ha; exact hv)

theorem drop_serves {s : Sys.State} {j : Job} : ∀ a ∈ j.dropActs s, ¬ serves a := by
  intro a ha hv
  unfold Job.dropActs at ha
  repeat' split at ha
  all_goals first
    | (rw [List.mem_singleton] at ha; subst ha; exact hv)
    | (cases ha; done)

theorem round_inOrder {cfg : World.Cfg T} {σ : Nat → App.State T} {acts : Nat → App.Act} (h : App.Forever cfg σ acts) (n : Nat) :
    Sys.InOrder cfg.sys (sysOf σ n) (roundsOf cfg σ acts n) (sysOf σ (n + 1)) := by
  have hd := app_does (h.steps n)
  have ho := h.ordered n
  unfold roundsOf
  revert hd ho
  show sysSteps cfg.sys (sysOf σ n) _ = some (sysOf σ (n + 1)) → _ → _
  generalize acts n = x
  intro hd ho
  by_cases hx : ∃ y, x = .world (.sys y)
  · obtain ⟨y, rfl⟩ := hx
    have : Sys.step cfg.sys (sysOf σ n) y = some (sysOf σ (n + 1)) := by
      simp only [App.does, World.does, sysSteps] at hd
      split at hd
      · rename_i hs; cases hd; exact hs
      · cases hd
    exact .snoc (as := []) .nil (ho y rfl) this
  · refine inOrder_of hd ?_
    cases x with
    | world y => exact world_serves fun z hz => hx ⟨z, by rw [hz]⟩
    | start c => intro a ha; cases ha
    | run k =>
      simp only [App.does]
      split
      · rename_i j hj
        cases hja : j.acts (σ n).world.sys with
        | none => intro a ha; cases ha
        | some as => exact acts_serves hja
      · intro a ha; cases ha
    | drop k =>
      simp only [App.does]
      split
      · exact drop_serves
      · intro a ha; cases ha

theorem app_forever {cfg : World.Cfg T} {σ : Nat → App.State T} {acts : Nat → App.Act} (h : App.Forever cfg σ acts) :
    Sys.Forever cfg.sys (sysOf σ) (roundsOf cfg σ acts) := by
  refine ⟨?_, round_inOrder h⟩
  show Sys.Reachable cfg.sys (σ 0).world.sys
  rw [h.start]
  exact ⟨[], .nil⟩

theorem run_at {cfg : World.Cfg T} {σ : Nat → App.State T} {acts : Nat → App.Act} (h : App.Forever cfg σ acts) (n : Nat) :
    ∃ as log, App.Run cfg as log (σ n) := by
  induction n with
  | zero => rw [h.start]; exact ⟨[], [], .nil⟩
  | succ n ih =>
    obtain ⟨as, log, hr⟩ := ih
    exact ⟨_, _, .snoc hr (h.steps n)⟩

/-! ## One call -/

theorem job_same {cfg : World.Cfg T} {a a' : App.State T} {x : App.Act} (hs : App.step cfg a x = some a') {k : Nat} {j : Job}
    (hk : a.jobs[k]? = some j) (h1 : x ≠ .run k) (h2 : x ≠ .drop k) : a'.jobs[k]? = some j := by
  rw [(step_some hs).2.2]
  cases x with
  | world y => exact hk
  | start c =>
    show (a.jobs ++ [_])[k]? = _
    rw [List.getElem?_append_left (List.getElem?_eq_some_iff.mp hk).1]
    exact hk
  | run k' =>
    show (a.jobs.modify k' _)[k]? = _
    have hne : k' ≠ k := by rintro rfl; exact h1 rfl
    simp [List.getElem?_modify, hk, hne]
  | drop k' =>
    show (a.jobs.modify k' _)[k]? = _
    have hne : k' ≠ k := by rintro rfl; exact h2 rfl
    simp [List.getElem?_modify, hk, hne]

theorem job_to {cfg : World.Cfg T} {σ : Nat → App.State T} {acts : Nat → App.Act} (h : App.Forever cfg σ acts) {k : Nat}
    (hd : ∀ m, acts m ≠ .drop k) {n m : Nat} (hnm : n ≤ m) {j : Job} (hk : (σ n).jobs[k]? = some j)
    (hr : ∀ m', n ≤ m' → m' < m → acts m' ≠ .run k) : (σ m).jobs[k]? = some j := by
  induction m with
  | zero => obtain rfl : n = 0 := by omega
            exact hk
  | succ m ih =>
    by_cases he : n = m + 1
    · subst he; exact hk
    · exact job_same (h.steps m) (ih (by omega) fun m' h1 h2 => hr m' h1 (by omega)) (hr m (by omega) (by omega)) (hd m)

theorem least {P : Nat → Prop} {n m : Nat} (hnm : n ≤ m) (hp : P m) : ∃ m, n ≤ m ∧ P m ∧ ∀ m', n ≤ m' → m' < m → ¬ P m' := by
  induction m using Nat.strongRecOn with
  | _ m ih =>
    by_cases hx : ∃ m', n ≤ m' ∧ m' < m ∧ P m'
    · obtain ⟨m', h1, h2, h3⟩ := hx
      exact ih m' h2 h1 h3
    · exact ⟨m, hnm, hp, fun m' h1 h2 h3 => hx ⟨m', h1, h2, h3⟩⟩

/-- A call that is not held up for good makes a step. -/
theorem goes_on {cfg : World.Cfg T} {σ : Nat → App.State T} {acts : Nat → App.Act} (h : App.Forever cfg σ acts) {k : Nat}
    (hd : ∀ m, acts m ≠ .drop k) (hf : FairTo cfg σ acts k) {n : Nat} {j : Job} (hk : (σ n).jobs[k]? = some j) (hl : j.live = true)
    (he : j.ended = none)
    (hh : ∀ N, (∀ m, n ≤ m → (σ m).jobs[k]? = some j) → ∃ m, N ≤ m ∧ n ≤ m ∧ ¬ Held (sysOf σ m) j) :
    ∃ m, n ≤ m ∧ (σ m).jobs[k]? = some j ∧ acts m = .run k := by
  by_cases hx : ∃ m, n ≤ m ∧ acts m = .run k
  · obtain ⟨m, hm, hr⟩ := hx
    obtain ⟨m, h1, h2, h3⟩ := least (P := fun m => acts m = .run k) hm hr
    exact ⟨m, h1, job_to h hd h1 hk h3, h2⟩
  · exfalso
    have hno : ∀ m, n ≤ m → acts m ≠ .run k := fun m hm hr => hx ⟨m, hm, hr⟩
    have hall : ∀ m, n ≤ m → (σ m).jobs[k]? = some j := fun m hm => job_to h hd hm hk fun m' h1 _ => hno m' h1
    obtain ⟨m, hm, hr⟩ := hf (fun N => by
      obtain ⟨m, h1, h2, h3⟩ := hh N hall
      obtain ⟨as, log, hrun⟩ := run_at h m
      exact ⟨m, h1, (C120_progress hrun (hall m h2) hl he).mpr h3⟩) n
    exact hno m hm hr

/-- The call after its step. -/
theorem stepped {cfg : World.Cfg T} {σ : Nat → App.State T} {acts : Nat → App.Act} (h : App.Forever cfg σ acts) {k m : Nat} {j : Job}
    (hk : (σ m).jobs[k]? = some j) (hr : acts m = .run k) : ∃ as, j.acts (sysOf σ m) = some as ∧
    sysSteps cfg.sys (sysOf σ m) as = some (sysOf σ (m + 1)) ∧
    (σ (m + 1)).jobs[k]? = some (j.after (sysOf σ m) (sysOf σ (m + 1))) ∧ (j.after (sysOf σ m) (sysOf σ (m + 1))).live = j.live ∧
    (j.after (sysOf σ m) (sysOf σ (m + 1))).made = j.made := by
  have hs := h.steps m
  rw [hr] at hs
  obtain ⟨hp, hw, hj⟩ := step_some hs
  simp only [App.possible, hk, Bool.and_eq_true] at hp
  obtain ⟨as, ha⟩ := Option.isSome_iff_exists.mp hp.2
  simp only [App.induced, hk, ha, Option.getD_some] at hw
  obtain ⟨m1, _, _, m4, _⟩ := after_made (sysOf σ m) (sysOf σ (m + 1)) j
  refine ⟨as, ha, worldSteps_sys hw, ?_, m4, m1⟩
  rw [hj]
  simp [jobsAfter, hk, sysOf]

theorem _root_.Neutron.App.Returns.later {σ : Nat → App.State T} {k n m : Nat} (hnm : n ≤ m) (h : Returns σ k m) : Returns σ k n := by
  obtain ⟨m', h1, h2⟩ := h
  exact ⟨m', by omega, h2⟩

theorem ends_session {cfg : World.Cfg T} {σ : Nat → App.State T} {acts : Nat → App.Act} (h : App.Forever cfg σ acts) {k : Nat}
    (hd : ∀ m, acts m ≠ .drop k) (hf : FairTo cfg σ acts k) {c : Start}
    (hdone : ∀ n j t, (σ n).jobs[k]? = some j → j.live = true → j.made = c → j.Awaits t → ∃ m, Sys.Done (sysOf σ m) t) {core : Client}
    (p : Prog Unit) : ∀ {n : Nat} {j : Job}, (σ n).jobs[k]? = some j → j.live = true → j.made = c → j.prog = .session core p .ret →
      Returns σ k n := by
  induction p with
  | ret o =>
    intro n j hk hl hm hp
    have he : j.ended = none := by unfold Job.ended; rw [hp]
    have hh : ∀ s, ¬ Held s j := by
      rintro s (⟨t, ⟨_, _, _, _, h1⟩, _⟩ | ⟨i, ⟨_, _, _, _, h1⟩, _⟩) <;> rw [hp] at h1 <;> cases h1
    obtain ⟨m, hnm, hk', hr⟩ := goes_on h hd hf hk hl he fun N _ => ⟨max n N, by omega, by omega, hh _⟩
    obtain ⟨as, _, _, hj', _, _⟩ := stepped h hk' hr
    obtain ⟨_, _, hrun⟩ := run_at h m
    obtain ⟨_, i, hc⟩ := kind_ret (kind hrun j (List.mem_of_getElem? hk')) hp
    refine ⟨m + 1, by omega, _, o, hj', ended_ret.mpr ?_⟩
    unfold Job.after; rw [hp, hc]
  | wait t call q ih =>
    intro n j hk hl hm hp
    have he : j.ended = none := by unfold Job.ended; rw [hp]
    have haw : j.Awaits t := ⟨core, call, q, .ret, hp⟩
    obtain ⟨m0, hm0⟩ := hdone n j t hk hl hm haw
    obtain ⟨m, hnm, hk', hr⟩ := goes_on h hd hf hk hl he fun N _ => by
      refine ⟨max (max n N) m0, by omega, by omega, ?_⟩
      rintro (⟨t', ⟨_, _, _, _, h1⟩, hu⟩ | ⟨i, ⟨_, _, _, _, h1⟩, _⟩)
      · rw [hp] at h1
        cases h1
        obtain ⟨r, hr⟩ := done_to (app_forever h) (by omega : m0 ≤ max (max n N) m0) hm0
        exact hu r hr
      · rw [hp] at h1; cases h1
    obtain ⟨as, ha, _, hj', hl', hm'⟩ := stepped h hk' hr
    obtain ⟨_, _, hrun⟩ := run_at h m
    obtain ⟨_, i, hc⟩ := kind_ret (kind hrun j (List.mem_of_getElem? hk')) hp
    cases ho : outcome (sysOf σ m) t with
    | none => simp [Job.acts, hp, hc, ho] at ha
    | some x =>
      refine (ih (call.resolve x) hj' (hl'.trans hl) (hm'.trans hm) ?_).later (by omega)
      unfold Job.after; rw [hp, hc]; simp only [ho]
  | hand call q ih =>
    have hh : ∀ (s : Sys.State) (j' : Job), j'.prog = .session core (.hand call q) .ret → ¬ Held s j' := by
      rintro s j' hp' (⟨t, ⟨_, _, _, _, h1⟩, _⟩ | ⟨i, ⟨_, _, _, _, h1⟩, _⟩) <;> rw [hp'] at h1 <;> cases h1
    have second : ∀ {n : Nat} {j : Job}, (σ n).jobs[k]? = some j → j.live = true → j.made = c →
        j.prog = .session core (.hand call q) .ret → ∀ tok, j.handing = some tok → Returns σ k n := by
      intro n j hk hl hm hp tok hg
      have he : j.ended = none := by unfold Job.ended; rw [hp]
      obtain ⟨m, hnm, hk', hr⟩ := goes_on h hd hf hk hl he fun N _ => ⟨max n N, by omega, by omega, hh _ _ hp⟩
      obtain ⟨as, ha, _, hj', hl', hm'⟩ := stepped h hk' hr
      obtain ⟨_, _, hrun⟩ := run_at h m
      obtain ⟨_, i, hc⟩ := kind_ret (kind hrun j (List.mem_of_getElem? hk')) hp
      refine (ih (if Sys.engineEnd (sysOf σ m) i then .ok (tok.getD 0) else .err .channelTerminated) hj' (hl'.trans hl)
        (hm'.trans hm) ?_).later (by omega)
      rw [after_put hp hc hg]
    intro n j hk hl hm hp
    cases hg : j.handing with
    | some tok => exact second hk hl hm hp tok hg
    | none =>
      have he : j.ended = none := by unfold Job.ended; rw [hp]
      obtain ⟨m, hnm, hk', hr⟩ := goes_on h hd hf hk hl he fun N _ => ⟨max n N, by omega, by omega, hh _ _ hp⟩
      obtain ⟨as, ha, _, hj', hl', hm'⟩ := stepped h hk' hr
      obtain ⟨_, _, hrun⟩ := run_at h m
      obtain ⟨_, i, hc⟩ := kind_ret (kind hrun j (List.mem_of_getElem? hk')) hp
      rw [after_begin hp hc hg] at hj' hl' hm'
      exact (second hj' (hl'.trans hl) (hm'.trans hm) hp _ rfl).later (by omega)

end Neutron.Props
