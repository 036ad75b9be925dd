import Verif.Proof.ApartWorld

/-!
# The same for the application's calls
-/

namespace Neutron.App.Apart

open Neutron Sys.Apart

variable {T : Type} [Watch]

/-- Two applications that differ only in the channels of other clients. -/
structure Like (cfg : World.Cfg T) (x y : State T) : Prop where
  jobs : x.jobs = y.jobs
  world : World.Apart.Like cfg x.world y.world

theorem Like.symm {cfg : World.Cfg T} {x y : State T} (h : Like cfg x y) : Like cfg y x := ⟨h.jobs.symm, h.world.symm⟩

theorem like_outcome {s u : Sys.State} (h : Sys.Apart.Like s u) (t : Nat) : outcome s t = outcome u t := by
  have h1 : s.outcomes = u.outcomes := by have := congrArg Sys.State.outcomes h; exact this
  unfold outcome
  rw [h1]

theorem like_slot {s u : Sys.State} (h : Sys.Apart.Like s u) (i : Nat) (tok : Option Nat) : slot s i tok = slot u i tok := by
  have h1 : (s.clients i).starting = (u.clients i).starting := by have := congrArg Sys.ClientSt.starting (h.clients i); exact this
  unfold slot
  rw [h1]

theorem like_phase {s u : Sys.State} (h : Sys.Apart.Like s u) (i : Nat) : (s.clients i).phase = (u.clients i).phase := by
  have := congrArg Sys.ClientSt.phase (h.clients i); exact this

theorem like_nClients {s u : Sys.State} (h : Sys.Apart.Like s u) : s.nClients = u.nClients := by
  have := congrArg Sys.State.nClients h; exact this

theorem like_issued {s u : Sys.State} (h : Sys.Apart.Like s u) : s.issued = u.issued := by
  have := congrArg Sys.State.issued h; exact this

theorem like_acts {s u : Sys.State} (h : Sys.Apart.Like s u) (j : Job) : j.acts s = j.acts u := by
  unfold Job.acts
  simp only [like_phase h, like_slot h, like_outcome h]

theorem like_after {s u s' u' : Sys.State} (h : Sys.Apart.Like s u) (h' : Sys.Apart.Like s' u') (j : Job) : j.after s s' = j.after u u' := by
  unfold Job.after
  simp only [like_phase h', like_nClients h, like_issued h, World.Apart.like_engineEnd h, like_outcome h]

theorem like_dropActs {s u : Sys.State} (h : Sys.Apart.Like s u) (j : Job) : j.dropActs s = j.dropActs u := by
  unfold Job.dropActs
  simp only [like_phase h]

theorem like_induced {cfg : World.Cfg T} {x y : State T} (h : Like cfg x y) (a : Act) : induced x a = induced y a := by
  cases a <;> simp only [induced, h.jobs, like_acts h.world.sys, like_dropActs h.world.sys]

theorem like_free {cfg : World.Cfg T} {x y : State T} (h : Like cfg x y) (a : World.Act) : free cfg x a = free cfg y a := by
  cases a with
  | sys a => cases a <;> simp only [free, h.jobs]
  | app a => cases a <;> simp only [free, h.jobs]
  | _ => rfl

theorem like_possible {cfg : World.Cfg T} {x y : State T} (h : Like cfg x y) (a : Act) : possible cfg x a = possible cfg y a := by
  cases a with
  | world a => exact like_free h a
  | start c =>
    have h1 : x.world.sys.managerAlive = y.world.sys.managerAlive := by have := congrArg Sys.State.managerAlive h.world.sys; exact this
    cases c <;> simp only [possible, Start.possible, h.jobs, h1, h.world.nClients, h.world.phase]
  | run k => simp only [possible, h.jobs, like_acts h.world.sys]
  | drop k => simp only [possible, h.jobs]

theorem like_jobsAfter {cfg : World.Cfg T} {x y : State T} (h : Like cfg x y) {s' u' : Sys.State} (h' : Sys.Apart.Like s' u') (a : Act) :
    jobsAfter x s' a = jobsAfter y u' a := by
  cases a with
  | world a => exact h.jobs
  | start c =>
    have hc : c.job x.world.sys = c.job y.world.sys := by
      cases c <;> simp only [Start.job, h.world.sys.core]
    simp only [jobsAfter, h.jobs, hc]
  | run k => simp only [jobsAfter, h.jobs, like_after h.world.sys h']
  | drop k => simp only [jobsAfter, h.jobs]

/-- What a call or the application does never takes an event of another client. -/
theorem call_takes_nothing {x : State T} {a : Act} (ha : ∀ w, a ≠ .world w) {w : World.Act} (hw : w ∈ induced x a) :
    ∀ i, w ≠ .sys (.clientNext i) := by
  cases a with
  | world w => exact absurd rfl (ha w)
  | start c => cases hw
  | run k =>
    simp only [induced] at hw
    cases hj : x.jobs[k]? with
    | none => rw [hj] at hw; cases hw
    | some j =>
      rw [hj] at hw
      obtain ⟨z, hz, rfl⟩ := List.mem_map.mp hw
      rintro i hi
      cases hi
      unfold Job.acts at hz
      repeat' split at hz
      all_goals simp at hz
      all_goals (split at hz <;> simp at hz)
  | drop k =>
    simp only [induced] at hw
    cases hj : x.jobs[k]? with
    | none => rw [hj] at hw; cases hw
    | some j =>
      rw [hj] at hw
      obtain ⟨z, hz, rfl⟩ := List.mem_map.mp hw
      rintro i hi
      cases hi
      unfold Job.dropActs at hz
      repeat' split at hz
      all_goals simp at hz

theorem like_worldSteps {cfg : World.Cfg T} {as : List World.Act} (ha : ∀ w ∈ as, ∀ i, w ≠ .sys (.clientNext i)) :
    ∀ {w v w' : World.World T}, World.Apart.Like cfg w v → worldSteps cfg w as = some w' →
      ∃ v', worldSteps cfg v as = some v' ∧ World.Apart.Like cfg w' v' := by
  induction as with
  | nil => intro w v w' hl hs; cases hs; exact ⟨v, rfl, hl⟩
  | cons a as ih =>
    intro w v w' hl hs
    simp only [worldSteps] at hs ⊢
    cases h1 : World.step cfg w a with
    | none => simp [h1] at hs
    | some w1 =>
      simp only [h1] at hs
      obtain ⟨v1, h2, h3⟩ := World.Apart.like_plain hl (ha a (by simp)) h1
      simp only [h2]
      exact ih (fun w hw => ha w (by simp [hw])) h3 hs

/-- Whatever one application can do, the other can do, or need not. -/
theorem like_match {cfg : World.Cfg T} {x y x' : State T} (hl : Like cfg x y) (hi : x.world.app.inbox = (x.world.sys.clients cfg.me).inbox.map (·.inb))
    (ho : x.world.app.isOpen = Sys.engineEnd x.world.sys cfg.me) {a : Act} (hs : step cfg x a = some x') :
    (∃ y', step cfg y a = some y' ∧ Like cfg x' y') ∨ (OthersTake cfg.me a ∧ Like cfg x' y) := by
  obtain ⟨hp, hw, hj⟩ := step_some hs
  by_cases hc : ∃ i, a = .world (.sys (.clientNext i))
  · obtain ⟨i, rfl⟩ := hc
    have hw1 : World.step cfg x.world (.sys (.clientNext i)) = some x'.world := by
      simp only [induced, worldSteps] at hw
      split at hw
      · rename_i h; rw [h]; exact hw
      · cases hw
    obtain ⟨h1, h2⟩ := World.Apart.like_next hl.world.me hi ho hw1
    exact .inr ⟨⟨i, h1, rfl⟩, hj.trans hl.jobs, h2.trans hl.world⟩
  · have hn : ∀ w ∈ induced x a, ∀ i, w ≠ .sys (.clientNext i) := by
      cases a with
      | world w =>
        intro w' hw' i hi
        simp only [induced, List.mem_singleton] at hw'
        subst hw'
        exact hc ⟨i, by rw [hi]⟩
      | _ => intro w' hw'; exact call_takes_nothing (by intro w h; cases h) hw'
    obtain ⟨v', h1, h2⟩ := like_worldSteps hn hl.world hw
    refine .inl ⟨⟨v', jobsAfter y v'.sys a⟩, ?_, ?_, h2⟩
    · unfold step
      rw [if_pos (like_possible hl a ▸ hp), ← like_induced hl, h1]
    · rw [hj, like_jobsAfter hl h2.sys]

theorem like_same {cfg : World.Cfg T} {x y : State T} (h : Like cfg x y) : SameFor cfg.me x y where
  jobs := h.jobs
  consumer := h.world.app
  rx := h.world.rx
  tx := h.world.tx
  held := h.world.held
  serving := h.world.serving
  mode := h.world.mode
  manager := by have := congrArg Sys.State.managerAlive h.world.sys; exact this
  registered := h.world.sys.vec
  addrs := h.world.addrs
  requests := like_issued h.world.sys
  outcomes := by have := congrArg Sys.State.outcomes h.world.sys; exact this
  phase := h.world.phase
  broker := h.world.sys.broker
  submitted i := by have := congrArg Sys.ClientSt.submitted (h.world.sys.clients i); exact this
  mine := h.world.me ▸ World.Apart.like_mine h.world.sys
  taken := h.world.me ▸ World.Apart.like_taken h.world.sys
  alive b := by have := congrArg Sys.ConnSt.alive (h.world.conn b); exact this
  queue := h.world.queue
  outbox b := by have := congrArg Sys.ConnSt.outbox (h.world.conn b); exact this
  written b := by have := congrArg Sys.ConnSt.written (h.world.conn b); exact this

/-- Applications that differ only in the channels of other clients, one of them reachable, behave alike. -/
theorem like_alike {cfg : World.Cfg T} {x y : State T} (hr : ∃ acts log, Run cfg acts log x) (h : Like cfg x y) : AlikeFor cfg x y := by
  refine ⟨fun x y => (∃ acts log, Run cfg acts log x) ∧ Like cfg x y, ⟨hr, h⟩, ?_⟩
  rintro x y ⟨hr, h⟩
  obtain ⟨acts, log, hrun⟩ := hr
  obtain ⟨_, _, hproj⟩ := World.proj (run_world hrun)
  refine ⟨like_same h, ?_, ?_⟩
  · intro a x' hs
    rcases like_match h hproj.inbox hproj.isOpen hs with ⟨y', h1, h2⟩ | ⟨h1, h2⟩
    · exact .inl ⟨y', h1, ⟨_, _, hrun.snoc hs⟩, h2⟩
    · exact .inr ⟨h1, ⟨_, _, hrun.snoc hs⟩, h2⟩
  · intro a y' hs
    have hm := World.Apart.like_mine h.world.sys
    rw [h.world.me] at hm
    rcases like_match h.symm (by rw [← h.world.app, ← hm]; exact hproj.inbox)
      (by rw [← h.world.app, ← World.Apart.like_engineEnd h.world.sys]; exact hproj.isOpen) hs with ⟨x', h1, h2⟩ | ⟨h1, h2⟩
    · exact .inl ⟨x', h1, ⟨_, _, hrun.snoc h1⟩, h2.symm⟩
    · exact .inr ⟨h1, ⟨_, _, hrun⟩, h2.symm⟩

end Neutron.App.Apart
