import Verif.Props.AppReach
import Verif.Props.AppCalls
import Verif.Proof.AppOrder

/-!
# Where in its program a call on a client is
-/

namespace Neutron.App

open Neutron World Session Prog

variable {T : Type}

/-- Doing `evs`, the program gets from `p` to `q`. -/
inductive Within {α : Type} (p : Prog α) : List Ev → Prog α → Prop where
  | here : Within p [] p
  | hand {evs : List Ev} {c : Call} {k : Outcome Nat → Prog α} (r : Outcome Nat) (h : Within p evs (.hand c k)) :
      Within p (evs ++ [.handed c r]) (k r)
  | wait {evs : List Ev} {t : Nat} {c : Call} {k : Outcome Response → Prog α} (r : Outcome Response) (h : Within p evs (.wait t c k)) :
      Within p (evs ++ [.waited t c r]) (k r)

theorem within_after {s s' : Sys.State} {j : Job} {core : Client} {p q : Prog Unit} (hp : j.prog = .session core q .ret)
    (hw : Within p j.events q) {i : Nat} (hc : j.client = some i) :
    (∃ q', (j.after s s').prog = .session core q' .ret ∧ Within p (j.after s s').events q') ∨
      ∃ o, (j.after s s').prog = .ret o ∧ Within p (j.after s s').events (.ret o) := by
  cases q with
  | ret o => refine .inr ⟨o, ?_⟩; unfold Job.after; rw [hp, hc]; exact ⟨rfl, hw⟩
  | hand call q =>
    left
    cases hh : j.handing with
    | none => rw [after_begin hp hc hh]; exact ⟨_, hp, hw⟩
    | some tok =>
      rw [after_put hp hc hh]
      refine ⟨_, rfl, ?_⟩
      rw [events_did (j0 := j) rfl rfl]
      exact .hand _ hw
  | wait t call q =>
    left
    cases ho : outcome s t with
    | none => refine ⟨.wait t call q, ?_, ?_⟩ <;> (unfold Job.after; rw [hp, hc]; simp only [ho])
              · exact hp
              · exact hw
    | some x =>
      have : j.after s s' = { j with prog := .session core (q (call.resolve x)) .ret,
                                     trace := j.trace ++ [.did core (.waited t call (call.resolve x))] } := by
        unfold Job.after; rw [hp, hc]; simp only [ho]
      rw [this]
      refine ⟨_, rfl, ?_⟩
      rw [events_did (j0 := j) rfl rfl]
      exact .wait _ hw

/-- A call on a client is at the place in its program that what it did leads to, or has ended. -/
theorem within {cfg : World.Cfg T} {acts : List Act} {log : List World.Act} {a : State T} (h : Run cfg acts log a) :
    ∀ j ∈ a.jobs, ∀ i p, j.made = .call i p → j.client = some i ∧
      ((∃ core q, j.prog = .session core q .ret ∧ Within p j.events q) ∨ ∃ o, j.prog = .ret o ∧ Within p j.events (.ret o)) := by
  refine job_induct (fun _ j => ∀ i p, j.made = .call i p → j.client = some i ∧
      ((∃ core q, j.prog = .session core q .ret ∧ Within p j.events q) ∨ ∃ o, j.prog = .ret o ∧ Within p j.events (.ret o))) (fun _ _ _ _ _ h _ => h) ?_ ?_
      (fun _ _ h => h) h
  · intro s c _ _ i p hm
    cases c with
    | consumer b => cases hm
    | producer b => cases hm
    | call i' p' => cases hm; exact ⟨rfl, .inl ⟨_, _, rfl, .here⟩⟩
  · intro s s' j as _ hq _ _ _ _ i p hm
    rw [(after_made s s' j).1] at hm
    obtain ⟨hc, hq⟩ := hq i p hm
    rcases hq with ⟨core, q, hp, hw⟩ | ⟨o, hp, hw⟩
    · refine ⟨?_, ?_⟩
      · unfold Job.after; rw [hp]
        cases q <;> rw [hc] <;> (try exact hc) <;> simp only [] <;> split <;> first | exact hc | rfl
      · rcases within_after (s := s) (s' := s') hp hw hc with ⟨q', h1, h2⟩ | h1
        · exact .inl ⟨core, q', h1, h2⟩
        · exact .inr h1
    · rw [after_ret hp]; exact ⟨hc, .inr ⟨o, hp, hw⟩⟩

/-- Where a program that hands over one command and waits for its response can be. -/
theorem within_call {c : Call} {evs : List Ev} {q : Prog Unit} (h : Within (do let _ ← Session.call c; pure () : Prog Unit) evs q) :
    (evs = [] ∧ q = (do let _ ← Session.call c; pure () : Prog Unit)) ∨
    (∃ t k, evs = [.handed c (.ok t)] ∧ q = .wait t c k ∧ ∀ r, ∃ o, k r = .ret o) ∨
    (∃ o, q = .ret o) := by
  have hd : (do let _ ← Session.call c; pure () : Prog Unit) = .hand c fun r => (match r with
      | .ok t => .wait t c fun r => (match r with | .ok _ => .ret (.ok ()) | .err e => .ret (.err e) | .panic => .ret .panic)
      | .err e => .ret (.err e)
      | .panic => .ret .panic) := by
    show Prog.bind (Prog.bind (.hand c fun r => .ret r) _) _ = _
    simp only [Prog.bind, Prog.andThen]
    congr 1
    funext r
    cases r with
    | ok t =>
      show Prog.andThen (.wait t c fun r => .ret r) _ = _
      simp only [Prog.andThen]
      congr 1
      funext r
      cases r <;> rfl
    | err e => rfl
    | panic => rfl
  generalize hp : (do let _ ← Session.call c; pure () : Prog Unit) = p at h hd
  induction h with
  | here => exact .inl ⟨rfl, rfl⟩
  | @hand evs c' k r h ih =>
    rcases ih with ⟨rfl, h1⟩ | ⟨t, k, _, h1, _⟩ | ⟨o, h1⟩
    · rw [hd] at h1
      cases h1
      cases r with
      | ok t =>
        refine .inr (.inl ⟨t, _, rfl, rfl, fun r => ?_⟩)
        cases r <;> exact ⟨_, rfl⟩
      | err e => exact .inr (.inr ⟨_, rfl⟩)
      | panic => exact .inr (.inr ⟨_, rfl⟩)
    · cases h1
    · cases h1
  | @wait evs t' c' k r h ih =>
    rcases ih with ⟨rfl, h1⟩ | ⟨t, k, _, h1, h2⟩ | ⟨o, h1⟩
    · rw [hd] at h1; cases h1
    · cases h1
      exact .inr (.inr (h2 r))
    · cases h1

theorem within_hands {c : Call} {evs : List Ev} {q : Prog Unit} (h : Within (do let _ ← Session.call c; pure () : Prog Unit) evs q) :
    ∀ c' r, .handed c' r ∈ evs → c' = c := by
  induction h with
  | here => intro c' r hm; cases hm
  | @hand evs c0 k r0 h ih =>
    intro c' r hm
    rcases List.mem_append.mp hm with hm | hm
    · exact ih c' r hm
    · rw [List.mem_singleton] at hm
      cases hm
      rcases within_call h with ⟨_, h1⟩ | ⟨t, k, _, h1, _⟩ | ⟨o, h1⟩
      · cases h1; rfl
      · cases h1
      · cases h1
  | wait r0 h ih =>
    intro c' r hm
    rcases List.mem_append.mp hm with hm | hm
    · exact ih c' r hm
    · rw [List.mem_singleton] at hm; cases hm

theorem within_nothing {α : Type} {o : Outcome α} {evs : List Ev} {q : Prog α} (h : Within (.ret o) evs q) : evs = [] ∧ q = .ret o := by
  induction h with
  | here => exact ⟨rfl, rfl⟩
  | hand r h ih => cases ih.2
  | wait r h ih => cases ih.2

/-- What a call on a client did is what its program can do. -/
theorem within_events {cfg : World.Cfg T} {acts : List Act} {log : List World.Act} {a : State T} (h : Run cfg acts log a) {j : Job}
    (hj : j ∈ a.jobs) {i : Nat} {p : Prog Unit} (hm : j.made = .call i p) : ∃ q, Within p j.events q := by
  rcases (within h j hj i p hm).2 with ⟨_, q, _, hw⟩ | ⟨o, _, hw⟩
  · exact ⟨q, hw⟩
  · exact ⟨_, hw⟩

/-- A call stays the call it is, and what it has done stays done. -/
theorem stays {cfg : World.Cfg T} {pre : List Act} {log1 : List World.Act} {a1 : State T} (h1 : Run cfg pre log1 a1) {k : Nat} {j : Job}
    (hj : a1.jobs[k]? = some j) : ∀ {post : List Act} {log : List World.Act} {a : State T}, Run cfg (pre ++ post) log a →
      ∃ j', a.jobs[k]? = some j' ∧ j'.made = j.made ∧ j.events <+: j'.events := by
  intro post
  induction post using List.reverseRecOn with
  | nil =>
    intro log a h
    rw [List.append_nil] at h
    obtain ⟨_, rfl⟩ := run_unique h1 h
    exact ⟨j, hj, rfl, List.prefix_rfl⟩
  | append_singleton post x ih =>
    intro log a h
    rw [← List.append_assoc] at h
    obtain ⟨log0, a0, hr, hs, _⟩ := run_last h rfl
    obtain ⟨j0, i1, i2, i3⟩ := ih hr
    obtain ⟨_, _, hjobs⟩ := step_some hs
    rw [hjobs]
    cases x with
    | world _ => exact ⟨j0, i1, i2, i3⟩
    | start c =>
      refine ⟨j0, ?_, i2, i3⟩
      simp only [jobsAfter]
      rw [List.getElem?_append_left (List.getElem?_eq_some_iff.mp i1).1]
      exact i1
    | run k' =>
      by_cases hk : k' = k
      · subst hk
        refine ⟨j0.after a0.world.sys a.world.sys, by simp [jobsAfter, i1], (after_made _ _ _).1.trans i2, i3.trans ?_⟩
        obtain ⟨new, hn, _⟩ := after_leads a0.world.sys a.world.sys j0
        unfold Job.events
        rw [hn, List.filterMap_append]
        exact List.prefix_append ..
      · exact ⟨j0, by simp [jobsAfter, hk, i1], i2, i3⟩
    | drop k' =>
      by_cases hk : k' = k
      · subst hk
        exact ⟨{ j0 with live := false }, by simp [jobsAfter, i1], i2, i3⟩
      · exact ⟨j0, by simp [jobsAfter, hk, i1], i2, i3⟩

end Neutron.App

namespace Neutron.Props

open Neutron App World Session

variable {T : Type}

/-- A call that hands over one command and waits for its response ends in two steps of its own once its request is completed. -/
theorem one_returns {cfg : World.Cfg T} {acts : List App.Act} {log : List World.Act} {a : App.State T} (h : App.Run cfg acts log a)
    {k : Nat} {j : Job} (hk : a.jobs[k]? = some j) (hl : j.live = true) {i : Nat} {c : Call}
    (hm : j.made = .call i (do let _ ← Session.call c; pure () : Prog Unit)) {t : Nat} (ht : .handed c (.ok t) ∈ j.events)
    (hd : Sys.Done a.world.sys t) :
    ∃ n, n ≤ 2 ∧ ∃ a' j' o, App.Run cfg (acts ++ List.replicate n (.run k)) log a' ∧ a'.jobs[k]? = some j' ∧ j'.made = j.made ∧
      j'.ended = some o ∧ a'.world.sys = a.world.sys := by
  have last : ∀ {acts : List App.Act} {log : List World.Act} {a : App.State T} {j : Job}, App.Run cfg acts log a → a.jobs[k]? = some j →
      j.live = true → ∀ core o p, j.made = .call i p → j.prog = .session core (.ret o) .ret → ∃ a' j', App.Run cfg (acts ++ [.run k]) log a' ∧
        a'.jobs[k]? = some j' ∧ j'.made = j.made ∧ j'.ended = some o ∧ a'.world.sys = a.world.sys := by
    intro acts log a j h hk hl core o p hm hp
    have hj := List.mem_of_getElem? hk
    have hno : ¬ Held a.world.sys j := by
      rintro (⟨t, ⟨_, _, _, _, h1⟩, _⟩ | ⟨i, ⟨_, _, _, _, h1⟩, _⟩) <;> rw [hp] at h1 <;> cases h1
    obtain ⟨as, log', a', h', hlog, ha, hs, hk', _, hm'⟩ := own_step h hk hl (by unfold Job.ended; rw [hp]) hno
    have hc := (within h j hj i p hm).1
    suffices hx : as = [] ∧ a'.world.sys = a.world.sys by
      rw [hx.1] at hlog
      subst hlog
      refine ⟨a', _, by simpa using h', hk', hm', ?_, hx.2⟩
      refine ended_ret.mpr ?_
      unfold Job.after; rw [hp, hc]
    · have howns := owns_made h j hj
      rw [hm] at howns
      have howns : j.owns = false := howns
      have : as = [] := by
        cases o <;> simp [Job.acts, hp, hc, howns] at ha <;> exact ha
      subst this
      simp only [sysSteps, Option.some.injEq] at hs
      exact ⟨rfl, hs.symm⟩
  have hj := List.mem_of_getElem? hk
  obtain ⟨hc, hw⟩ := within h j hj i _ hm
  rcases hw with ⟨core, q, hp, hw⟩ | ⟨o, hp, _⟩
  · rcases within_call hw with ⟨h1, _⟩ | ⟨t', q', h1, rfl, h3⟩ | ⟨o, rfl⟩
    · rw [h1] at ht; cases ht
    · rw [h1, List.mem_singleton] at ht
      cases ht
      have hno : ¬ Held a.world.sys j := by
        rintro (⟨t'', ⟨_, _, _, _, h1⟩, hu⟩ | ⟨i, ⟨_, _, _, _, h1⟩, _⟩) <;> rw [hp] at h1 <;> cases h1
        obtain ⟨res, hres⟩ := hd
        exact hu res hres
      obtain ⟨as, log', a', h', hlog, ha, hs, hk', hl', hm'⟩ := own_step h hk hl (by unfold Job.ended; rw [hp]) hno
      cases ho : outcome a.world.sys t with
      | none =>
        obtain ⟨res, hres⟩ := hd
        exact absurd hres (outcome_none.mp ho res)
      | some x =>
        have has : as = [] := by simpa [Job.acts, hp, hc, ho, eq_comm] using ha
        subst has
        rw [List.map_nil, List.append_nil] at hlog
        subst hlog
        simp only [sysSteps, Option.some.injEq] at hs
        obtain ⟨o, hq⟩ := h3 (c.resolve x)
        have hp' : (j.after a.world.sys a'.world.sys).prog = .session core (.ret o) .ret := by
          unfold Job.after; rw [hp, hc]; simp only [ho, hq]
        obtain ⟨a2, j2, g1, g2, g3, g4, g5⟩ := last h' hk' hl' core o _ (hm'.trans hm) hp'
        exact ⟨2, Nat.le_refl _, a2, j2, o, by simpa [List.replicate] using g1, g2, g3.trans hm', g4, g5.trans hs.symm⟩
    · obtain ⟨a2, j2, g1, g2, g3, g4, g5⟩ := last h hk hl core o _ hm hp
      exact ⟨1, by decide, a2, j2, o, by simpa [List.replicate] using g1, g2, g3, g4, g5⟩
  · exact ⟨0, by decide, a, j, o, by simpa using h, hk, rfl, ended_ret.mpr hp, rfl⟩

end Neutron.Props
