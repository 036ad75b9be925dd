import Verif.Proof.WorldLog
import Verif.Proof.WorldCalls
import Mathlib.Data.List.Induction
import Verif.Spec.Calls

/-!
# The consumer's calls inside a whole instance: how many at once, and their grants
-/

namespace Neutron

variable {T : Type}

theorem Consumer.live_step {cfg : Consumer.Cfg T} {s s' : Consumer.State T} {a : Consumer.Act} (hs : Consumer.step cfg s a = some s')
    (ha : ∀ j, a ≠ .spawn j) : s'.live ≤ s.live := by
  have goto : ∀ (i : Nat) (t : Consumer.Task T) (st : Consumer.Stage T), s.tasks[i]? = some t → t.stage.live = true →
      (s.goto i t st).tasks.countP (fun t => t.stage.live) ≤ s.live := by
    intro i t st ht hl
    obtain ⟨hi, ht'⟩ := List.getElem?_eq_some_iff.mp ht
    unfold Consumer.State.live Consumer.State.goto
    rw [List.countP_set hi]
    have hpos : 0 < s.tasks.countP fun t => t.stage.live := by
      rw [List.countP_pos_iff]
      exact ⟨t, List.mem_of_getElem? ht, hl⟩
    rw [ht', hl]
    simp only [if_true]
    split <;> omega
  cases Consumer.step_cases hs with
  | deliver e h => exact Nat.le_refl _
  | close => exact Nat.le_refl _
  | spawn j => exact absurd rfl (ha j)
  | skip i t ht k hc e q hq he => exact Nat.le_refl _
  | cancel i t ht hw =>
    refine goto i t _ ht ?_
    cases hst : t.stage with
    | ended => rw [hst] at hw; cases hw
    | _ => rfl
  | ret i t ht _ hc | load i t ht _ hc | store i t ht _ _ hc | add i t ht _ _ hc | flow i t ht _ _ hc | lock i t ht _ hc
  | write i t ht _ _ hc | recv i t ht _ hc | gone i t ht _ hc | plugins i t ht _ hc | loop i t ht _ _ hc | refuse i t ht _ _ hc
  | accepted i t ht _ _ hc | rejected i t ht _ _ hc => exact goto i t _ ht (by rw [hc]; rfl)

theorem Consumer.atMost_quiet {cfg : Consumer.Cfg T} {n : Nat} {as : List Consumer.Act} {s : Consumer.State T} (h : Consumer.AtMost cfg n as s)
    (hn : s.live ≤ n) : ∀ {bs : List Consumer.Act} {s' : Consumer.State T}, Consumer.Run cfg (as ++ bs) s' → Consumer.jobs bs = [] →
      Consumer.AtMost cfg n (as ++ bs) s' ∧ s'.live ≤ n := by
  intro bs
  induction bs using List.reverseRecOn with
  | nil =>
    intro s' hr _
    rw [List.append_nil] at hr ⊢
    obtain rfl := Consumer.run_unique (Consumer.atMost_run h) hr
    exact ⟨h, hn⟩
  | append_singleton bs x ih =>
    intro s' hr hj
    rw [← List.append_assoc] at hr ⊢
    obtain ⟨s1, h1, h2⟩ := Consumer.run_last hr rfl
    rw [Consumer.jobs_append] at hj
    obtain ⟨hj1, hj2⟩ := List.append_eq_nil_iff.mp hj
    obtain ⟨g1, g2⟩ := ih h1 hj1
    have hl := Consumer.live_step h2 (by rintro j rfl; cases hj2)
    exact ⟨.snoc g1 h2 (Nat.le_trans hl g2), Nat.le_trans hl g2⟩

namespace World

theorem proj_atMost {cfg : Cfg T} {n : Nat} {acts : List Act} {w : World T} (h : Run cfg acts w) (hn : CallsAtMost cfg n acts) :
    ∃ log appLog, Proj cfg acts w log appLog ∧ Consumer.AtMost cfg.app n appLog w.app := by
  induction h with
  | nil =>
    refine ⟨[], [], ⟨.nil, .nil, rfl, fun b => rfl, rfl, rfl, rfl, fun b => rfl, fun b hb => ?_⟩, .nil⟩
    cases hb
  | @snoc as w w' a h hs ih =>
    obtain ⟨log, appLog, hp, hm⟩ := ih fun l w hl => hn l w (hl.trans (List.prefix_append ..))
    have hb := hn _ _ List.prefix_rfl (.snoc h hs)
    have hb0 := hn _ _ (List.prefix_append ..) h
    have quiet : callsMade [a] = [] → ∃ log appLog, Proj cfg (as ++ [a]) w' log appLog ∧ Consumer.AtMost cfg.app n appLog w'.app := by
      intro hc
      obtain ⟨new, bs, hp', _⟩ := hp.step hs
      have hj := hp'.jobs
      rw [Consumer.jobs_append, callsMade_append, hc, hp.jobs, List.append_nil] at hj
      exact ⟨_, _, hp', (Consumer.atMost_quiet hm hb0 hp'.app (by simpa using hj)).1⟩
    cases a with
    | app x =>
      obtain ⟨new, hp', _⟩ := hp.appStep hs
      refine ⟨_, _, hp', ?_⟩
      obtain ⟨s1, h1, h2⟩ := Consumer.run_last hp'.app rfl
      obtain rfl := Consumer.run_unique hp.app h1
      exact .snoc hm h2 hb
    | arrive b r => exact quiet rfl
    | hold b => exact quiet rfl
    | serve i => exact quiet rfl
    | poll b ans => exact quiet rfl
    | write b now io => exact quiet rfl
    | sys y => exact quiet rfl

end World

end Neutron
