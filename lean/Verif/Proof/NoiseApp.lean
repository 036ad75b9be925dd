import Verif.Proof.NoiseWorld

/-!
# The same for the application's calls
-/

namespace Neutron.App

open Neutron World

variable {T : Type}

/-- Two applications that differ only in what nobody looks at. -/
structure Like (cfg : World.Cfg T) (x y : State T) : Prop where
  jobs : x.jobs = y.jobs
  world : World.Like cfg x.world y.world

theorem Like.symm {cfg : World.Cfg T} {x y : State T} (h : Like cfg x y) : Like cfg y x := ⟨h.jobs.symm, h.world.symm⟩

theorem like_outcome {s u : Sys.State} (h : Sys.Like s u) (t : Nat) : outcome s t = outcome u t := by
  have h1 : s.outcomes = u.outcomes := by have := congrArg Sys.State.outcomes h; exact this
  unfold outcome
  rw [h1]

theorem like_slot {s u : Sys.State} (h : Sys.Like s u) (i : Nat) (tok : Option Nat) : slot s i tok = slot u i tok := by
  have h1 : (s.clients i).starting = (u.clients i).starting := by have := congrArg Sys.ClientSt.starting (h.clients i); exact this
  unfold slot
  rw [h1]

theorem like_phase {s u : Sys.State} (h : Sys.Like s u) (i : Nat) : (s.clients i).phase = (u.clients i).phase := by
  have := congrArg Sys.ClientSt.phase (h.clients i); exact this

theorem like_nClients {s u : Sys.State} (h : Sys.Like s u) : s.nClients = u.nClients := by
  have := congrArg Sys.State.nClients h; exact this

theorem like_issued {s u : Sys.State} (h : Sys.Like s u) : s.issued = u.issued := by
  have := congrArg Sys.State.issued h; exact this

theorem like_acts {s u : Sys.State} (h : Sys.Like s u) (j : Job) : j.acts s = j.acts u := by
  unfold Job.acts
  simp only [like_phase h, like_slot h, like_outcome h]

theorem like_after {s u s' u' : Sys.State} (h : Sys.Like s u) (h' : Sys.Like s' u') (j : Job) : j.after s s' = j.after u u' := by
  unfold Job.after
  simp only [like_phase h', like_nClients h, like_issued h, like_engineEnd h, like_outcome h]

theorem like_dropActs {s u : Sys.State} (h : Sys.Like s u) (j : Job) : j.dropActs s = j.dropActs u := by
  unfold Job.dropActs
  simp only [like_phase h]

theorem like_induced {cfg : World.Cfg T} {x y : State T} (h : Like cfg x y) (a : Act) : induced x a = induced y a := by
  cases a <;> simp only [induced, h.jobs, like_acts h.world.sys, like_dropActs h.world.sys]

theorem like_free {cfg : World.Cfg T} {x y : State T} (h : Like cfg x y) (a : World.Act) : free cfg x a = free cfg y a := by
  cases a with
  | sys a => cases a <;> simp only [free, h.jobs]
  | app a => cases a <;> simp only [free, h.jobs]
  | _ => rfl

theorem like_possible {cfg : World.Cfg T} {x y : State T} (h : Like cfg x y) (a : Act) : possible cfg x a = possible cfg y a := by
  cases a with
  | world a => exact like_free h a
  | start c =>
    have h1 : x.world.sys.managerAlive = y.world.sys.managerAlive := by have := congrArg Sys.State.managerAlive h.world.sys; exact this
    cases c <;> simp only [possible, Start.possible, h.jobs, h1, h.world.nClients, h.world.phase]
  | run k => simp only [possible, h.jobs, like_acts h.world.sys]
  | drop k => simp only [possible, h.jobs]

theorem like_jobsAfter {cfg : World.Cfg T} {x y : State T} (h : Like cfg x y) {s' u' : Sys.State} (h' : Sys.Like s' u') (a : Act) :
    jobsAfter x s' a = jobsAfter y u' a := by
  cases a with
  | world a => exact h.jobs
  | start c =>
    have hc : c.job x.world.sys = c.job y.world.sys := by
      cases c <;> simp only [Start.job, h.world.sys.core]
    simp only [jobsAfter, h.jobs, hc]
  | run k => simp only [jobsAfter, h.jobs, like_after h.world.sys h']
  | drop k => simp only [jobsAfter, h.jobs]

/-- What a call or the application does never takes an event. -/
theorem call_takes_nothing {x : State T} {a : Act} (ha : ∀ w, a ≠ .world w) {w : World.Act} (hw : w ∈ induced x a) :
    ∃ z, w = .sys z ∧ ∀ i, z ≠ .clientNext i := by
  cases a with
  | world w => exact absurd rfl (ha w)
  | start c => cases hw
  | run k =>
    simp only [induced] at hw
    cases hj : x.jobs[k]? with
    | none => rw [hj] at hw; cases hw
    | some j =>
      rw [hj] at hw
      obtain ⟨z, hz, rfl⟩ := List.mem_map.mp hw
      refine ⟨z, rfl, ?_⟩
      rintro i rfl
      unfold Job.acts at hz
      repeat' split at hz
      all_goals simp at hz
      all_goals (split at hz <;> simp at hz)
  | drop k =>
    simp only [induced] at hw
    cases hj : x.jobs[k]? with
    | none => rw [hj] at hw; cases hw
    | some j =>
      rw [hj] at hw
      obtain ⟨z, hz, rfl⟩ := List.mem_map.mp hw
      refine ⟨z, rfl, ?_⟩
      rintro i rfl
      unfold Job.dropActs at hz
      repeat' split at hz
      all_goals simp at hz

theorem like_worldSteps {cfg : World.Cfg T} {as : List World.Act} (ha : ∀ w ∈ as, ∃ z, w = .sys z ∧ ∀ i, z ≠ .clientNext i) :
    ∀ {w v w' : World T}, World.Like cfg w v → worldSteps cfg w as = some w' → ∃ v', worldSteps cfg v as = some v' ∧ World.Like cfg w' v' := by
  induction as with
  | nil => intro w v w' hl hs; cases hs; exact ⟨v, rfl, hl⟩
  | cons a as ih =>
    intro w v w' hl hs
    simp only [worldSteps] at hs ⊢
    cases h1 : World.step cfg w a with
    | none => simp [h1] at hs
    | some w1 =>
      simp only [h1] at hs
      obtain ⟨v1, h2, h3⟩ := like_plain hl (by
        obtain ⟨z, rfl, hz⟩ := ha a (by simp)
        cases z with
        | clientNext i => exact absurd rfl (hz i)
        | _ => exact fun h => h) h1
      simp only [h2]
      exact ih (fun w hw => ha w (by simp [hw])) h3 hs

theorem repeat_world {cfg : World.Cfg T} {a : World.Act} (hf : ∀ x : State T, free cfg x a = true) {k : Nat} {w v : World T}
    (h : World.Repeat cfg a k w v) (jobs : List Job) : Repeat cfg (.world a) k ⟨w, jobs⟩ ⟨v, jobs⟩ := by
  induction h with
  | zero w => exact .zero _
  | succ h1 _ ih =>
    refine .succ ?_ ih
    simp only [step, possible, hf, if_true, induced, worldSteps, h1, jobsAfter]

/-- Whatever one application can do, the other can do. -/
theorem like_match {cfg : World.Cfg T} {x y x' : State T} (hl : Like cfg x y) (hq : Quiet x.world ∨ Usable cfg x.world)
    (ho : x.world.app.isOpen = Sys.engineEnd x.world.sys cfg.me) {a : Act} (hs : step cfg x a = some x') :
    ∃ k y', Repeat cfg a k y y' ∧ Like cfg x' y' := by
  obtain ⟨hp, hw, hj⟩ := step_some hs
  have plain : ∀ v', worldSteps cfg y.world (induced y a) = some v' → World.Like cfg x'.world v' → ∃ k y', Repeat cfg a k y y' ∧ Like cfg x' y' := by
    intro v' h1 h2
    refine ⟨1, ⟨v', jobsAfter y v'.sys a⟩, .succ ?_ (.zero _), ?_, h2⟩
    · unfold step
      rw [if_pos (like_possible hl a ▸ hp), h1]
    · rw [hj, like_jobsAfter hl h2.sys]
  by_cases ha : ∃ w, a = .world w
  · obtain ⟨w, rfl⟩ := ha
    have hw1 : World.step cfg x.world w = some x'.world := by
      simp only [induced, worldSteps] at hw
      split at hw
      · rename_i h; rw [h]; exact hw
      · cases hw
    by_cases ht : Takes x.world w
    · have key : ∀ k v', World.Repeat cfg w k y.world v' → World.Like cfg x'.world v' → (∀ z : State T, free cfg z w = true) →
          ∃ k y', Repeat cfg (.world w) k y y' ∧ Like cfg x' y' := by
        intro k v' h1 h2 hf
        exact ⟨k, ⟨v', y.jobs⟩, repeat_world hf h1 y.jobs, hj.trans hl.jobs, h2⟩
      cases w with
      | sys z =>
        cases z with
        | clientNext i =>
          obtain ⟨k, v', h1, h2⟩ := like_next hl.world ho hw1
          exact key k v' h1 h2 (fun _ => rfl)
        | _ => exact absurd ht (fun h => h)
      | app z =>
        cases z with
        | run i =>
          have hu : Usable cfg x.world := by
            rcases hq with hq | hu
            · obtain ⟨j, k, hk⟩ := ht
              have := hq _ (List.mem_of_getElem? hk)
              cases this
            · exact hu
          obtain ⟨k, v', h1, h2⟩ := like_take hl.world hu ht hw1
          exact key k v' h1 h2 (fun _ => rfl)
        | _ => exact absurd ht (fun h => h)
      | _ => exact absurd ht (fun h => h)
    · obtain ⟨v', h1, h2⟩ := like_plain hl.world ht hw1
      exact plain v' (by simp only [induced, worldSteps, h1]) h2
  · obtain ⟨v', h1, h2⟩ := like_worldSteps (fun w hw => call_takes_nothing (fun w hc => ha ⟨w, hc⟩) hw) hl.world hw
    exact plain v' (by rw [← like_induced hl]; exact h1) h2

theorem like_same {cfg : World.Cfg T} {x y : State T} (h : Like cfg x y) : Same x y where
  jobs := h.jobs
  consumer := h.world.app
  rx := h.world.rx
  tx := h.world.tx
  held := h.world.held
  serving := h.world.serving
  mode := h.world.mode
  manager := by have := congrArg Sys.State.managerAlive h.world.sys; exact this
  registered := h.world.sys.vec
  addrs := h.world.addrs
  requests := like_issued h.world.sys
  outcomes := by have := congrArg Sys.State.outcomes h.world.sys; exact this
  phase := h.world.phase
  broker := h.world.sys.broker
  submitted i := by have := congrArg Sys.ClientSt.submitted (h.world.sys.clients i); exact this
  messages := h.world.inbox
  messagesTaken i := by have := congrArg Sys.ClientSt.taken (h.world.sys.clients i); exact this
  alive b := by have := congrArg Sys.ConnSt.alive (h.world.conn b); exact this
  queue := h.world.queue
  outbox b := by have := congrArg Sys.ConnSt.outbox (h.world.conn b); exact this
  written b := by have := congrArg Sys.ConnSt.written (h.world.conn b); exact this

theorem repeat_run {cfg : World.Cfg T} {a : Act} {k : Nat} {x y : State T} (h : Repeat cfg a k x y) (hr : ∃ acts log, Run cfg acts log x) :
    ∃ acts log, Run cfg acts log y := by
  induction h with
  | zero _ => exact hr
  | succ h1 _ ih =>
    obtain ⟨acts, log, hr⟩ := hr
    exact ih ⟨_, _, hr.snoc h1⟩

/-- Applications that differ only in what nobody looks at, one of them reachable, behave alike. -/
theorem like_alike {cfg : World.Cfg T} {x y : State T} (hr : ∃ acts log, Run cfg acts log x) (h : Like cfg x y) : Alike cfg x y := by
  refine ⟨fun x y => (∃ acts log, Run cfg acts log x) ∧ Like cfg x y, ⟨hr, h⟩, ?_⟩
  rintro x y ⟨hr, h⟩
  obtain ⟨acts, log, hrun⟩ := hr
  have hw := run_world hrun
  have hq := usable hw
  obtain ⟨_, _, hproj⟩ := proj hw
  refine ⟨like_same h, ?_, ?_⟩
  · intro a x' hs
    obtain ⟨k, y', h1, h2⟩ := like_match h hq hproj.isOpen hs
    exact ⟨k, y', h1, ⟨_, _, hrun.snoc hs⟩, h2⟩
  · intro a y' hs
    have hq' : Quiet y.world ∨ Usable cfg y.world := by
      rcases hq with hq | hu
      · exact .inl (by intro t ht; exact hq t (h.world.tasks ▸ ht))
      · exact .inr (h.world.usable hu)
    have ho : y.world.app.isOpen = Sys.engineEnd y.world.sys cfg.me := by
      have e1 : x.world.app.isOpen = y.world.app.isOpen := by have := congrArg Consumer.State.isOpen h.world.app; exact this
      rw [← e1, hproj.isOpen, like_engineEnd h.world.sys]
    obtain ⟨k, x', h1, h2⟩ := like_match h.symm hq' ho hs
    exact ⟨k, x', h1, repeat_run h1 ⟨_, _, hrun⟩, h2.symm⟩

end Neutron.App
