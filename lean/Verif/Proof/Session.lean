import Verif.Spec.Session

/-!
# Executions of sequenced programs
-/

namespace Neutron

open Prog

theorem runs_ret {α : Type} {o o' : Outcome α} {tr : List Ev} : Runs (.ret o) tr o' ↔ tr = [] ∧ o' = o := by
  constructor
  · intro h; cases h; exact ⟨rfl, rfl⟩
  · rintro ⟨rfl, rfl⟩; exact .ret _

theorem steps_ret {α : Type} {o : Outcome α} {tr : List Ev} : Steps (.ret o) tr ↔ tr = [] := by
  constructor
  · intro h; cases h; rfl
  · rintro rfl; exact .nil _

/-- A run of `p` followed by `f`: a run of `p` that ends normally or in an error and then one of `f`; or a panic. -/
theorem runs_andThen {α β : Type} {p : Prog α} {f : Outcome α → Prog β} {tr : List Ev} {o : Outcome β} :
    Runs (p.andThen f) tr o ↔
      (∃ tr1 tr2 x, tr = tr1 ++ tr2 ∧ Runs p tr1 x ∧ x ≠ .panic ∧ Runs (f x) tr2 o) ∨ (Runs p tr .panic ∧ o = .panic) := by
  induction p generalizing tr with
  | ret x =>
    cases x with
    | panic =>
      simp only [andThen, runs_ret]
      constructor
      · rintro ⟨rfl, rfl⟩; exact .inr ⟨by simp, rfl⟩
      · rintro (⟨tr1, tr2, x, h1, ⟨h2, h3⟩, h4, _⟩ | ⟨⟨h1, _⟩, h2⟩)
        · exact absurd h3 h4
        · exact ⟨h1, h2⟩
    | ok a =>
      simp only [andThen, runs_ret]
      constructor
      · intro h; exact .inl ⟨[], tr, .ok a, rfl, ⟨rfl, rfl⟩, by simp, h⟩
      · rintro (⟨tr1, tr2, x, rfl, ⟨rfl, rfl⟩, _, h⟩ | ⟨⟨_, h⟩, _⟩)
        · simpa using h
        · exact absurd h (by simp)
    | err e =>
      simp only [andThen, runs_ret]
      constructor
      · intro h; exact .inl ⟨[], tr, .err e, rfl, ⟨rfl, rfl⟩, by simp, h⟩
      · rintro (⟨tr1, tr2, x, rfl, ⟨rfl, rfl⟩, _, h⟩ | ⟨⟨_, h⟩, _⟩)
        · simpa using h
        · exact absurd h (by simp)
  | hand c k ih =>
    simp only [andThen]
    constructor
    · intro h
      cases h with
      | hand _ _ r tr o hp hk =>
        rcases (ih r).mp hk with ⟨tr1, tr2, x, rfl, h1, h2, h3⟩ | ⟨h1, h2⟩
        · exact .inl ⟨.handed c r :: tr1, tr2, x, rfl, .hand _ _ _ _ _ hp h1, h2, h3⟩
        · exact .inr ⟨.hand _ _ _ _ _ hp h1, h2⟩
    · rintro (⟨tr1, tr2, x, rfl, h1, h2, h3⟩ | ⟨h1, rfl⟩)
      · cases h1 with
        | hand _ _ r tr o hp hk => exact .hand _ _ _ _ _ hp ((ih r).mpr (.inl ⟨_, _, _, rfl, hk, h2, h3⟩))
      · cases h1 with
        | hand _ _ r tr o hp hk => exact .hand _ _ _ _ _ hp ((ih r).mpr (.inr ⟨hk, rfl⟩))
  | wait t c k ih =>
    simp only [andThen]
    constructor
    · intro h
      cases h with
      | wait _ _ _ r tr o hp hk =>
        rcases (ih r).mp hk with ⟨tr1, tr2, x, rfl, h1, h2, h3⟩ | ⟨h1, h2⟩
        · exact .inl ⟨.waited t c r :: tr1, tr2, x, rfl, .wait _ _ _ _ _ _ hp h1, h2, h3⟩
        · exact .inr ⟨.wait _ _ _ _ _ _ hp h1, h2⟩
    · rintro (⟨tr1, tr2, x, rfl, h1, h2, h3⟩ | ⟨h1, rfl⟩)
      · cases h1 with
        | wait _ _ _ r tr o hp hk => exact .wait _ _ _ _ _ _ hp ((ih r).mpr (.inl ⟨_, _, _, rfl, hk, h2, h3⟩))
      · cases h1 with
        | wait _ _ _ r tr o hp hk => exact .wait _ _ _ _ _ _ hp ((ih r).mpr (.inr ⟨hk, rfl⟩))

theorem steps_andThen {α β : Type} {p : Prog α} {f : Outcome α → Prog β} {tr : List Ev} :
    Steps (p.andThen f) tr → Steps p tr ∨ ∃ tr1 tr2 x, tr = tr1 ++ tr2 ∧ Runs p tr1 x ∧ x ≠ .panic ∧ Steps (f x) tr2 := by
  induction p generalizing tr with
  | ret x =>
    cases x with
    | panic => simp only [andThen, steps_ret]; exact .inl
    | ok a => intro h; exact .inr ⟨[], tr, .ok a, rfl, .ret _, by simp, h⟩
    | err e => intro h; exact .inr ⟨[], tr, .err e, rfl, .ret _, by simp, h⟩
  | hand c k ih =>
    simp only [andThen]
    intro h
    cases h with
    | nil => exact .inl (.nil _)
    | hand _ _ r tr hp hk =>
      rcases ih r hk with h1 | ⟨tr1, tr2, x, rfl, h1, h2, h3⟩
      · exact .inl (.hand _ _ _ _ hp h1)
      · exact .inr ⟨_, _, x, rfl, .hand _ _ _ _ _ hp h1, h2, h3⟩
  | wait t c k ih =>
    simp only [andThen]
    intro h
    cases h with
    | nil => exact .inl (.nil _)
    | wait _ _ _ r tr hp hk =>
      rcases ih r hk with h1 | ⟨tr1, tr2, x, rfl, h1, h2, h3⟩
      · exact .inl (.wait _ _ _ _ _ hp h1)
      · exact .inr ⟨_, _, x, rfl, .wait _ _ _ _ _ _ hp h1, h2, h3⟩

/-- A run of `let a ← p; f a`. -/
theorem runs_bind {α β : Type} {p : Prog α} {f : α → Prog β} {tr : List Ev} {o : Outcome β} :
    Runs (p >>= f) tr o ↔
      (∃ tr1 tr2 a, tr = tr1 ++ tr2 ∧ Runs p tr1 (.ok a) ∧ Runs (f a) tr2 o) ∨
      (∃ e, Runs p tr (.err e) ∧ o = .err e) ∨ (Runs p tr .panic ∧ o = .panic) := by
  show Runs (p.andThen _) tr o ↔ _
  rw [runs_andThen]
  constructor
  · rintro (⟨tr1, tr2, x, rfl, h1, h2, h3⟩ | h)
    · cases x with
      | ok a => exact .inl ⟨_, _, a, rfl, h1, h3⟩
      | err e =>
        rw [runs_ret] at h3
        obtain ⟨rfl, rfl⟩ := h3
        exact .inr (.inl ⟨e, by simpa using h1, rfl⟩)
      | panic => exact absurd rfl h2
    · exact .inr (.inr h)
  · rintro (⟨tr1, tr2, a, rfl, h1, h3⟩ | ⟨e, h1, rfl⟩ | h)
    · exact .inl ⟨_, _, .ok a, rfl, h1, by simp, h3⟩
    · exact .inl ⟨tr, [], .err e, by simp, h1, by simp, .ret _⟩
    · exact .inr h

theorem steps_bind {α β : Type} {p : Prog α} {f : α → Prog β} {tr : List Ev} :
    Steps (p >>= f) tr → Steps p tr ∨ ∃ tr1 tr2 a, tr = tr1 ++ tr2 ∧ Runs p tr1 (.ok a) ∧ Steps (f a) tr2 := by
  intro h
  rcases steps_andThen (show Steps (p.andThen _) tr from h) with h | ⟨tr1, tr2, x, rfl, h1, h2, h3⟩
  · exact .inl h
  · cases x with
    | ok a => exact .inr ⟨_, _, a, rfl, h1, h3⟩
    | err e =>
      rw [steps_ret] at h3
      subst h3
      refine .inl ?_
      rw [List.append_nil]
      clear h2 h
      revert h1
      generalize (Outcome.err e : Outcome α) = o
      intro h1
      induction h1 with
      | ret => exact .nil _
      | hand c k r tr o hp _ ih => exact .hand _ _ _ _ hp ih
      | wait t c k r tr o hp _ ih => exact .wait _ _ _ _ _ hp ih
    | panic => exact absurd rfl h2

theorem runs_pure {α : Type} {a : α} {tr : List Ev} {o : Outcome α} : Runs (pure a) tr o ↔ tr = [] ∧ o = .ok a := runs_ret

theorem steps_pure {α : Type} {a : α} {tr : List Ev} : Steps (pure a : Prog α) tr ↔ tr = [] := steps_ret

open Session

theorem runs_handOver {c : Call} {tr : List Ev} {o : Outcome Nat} :
    Runs (handOver c) tr o ↔ tr = [.handed c o] ∧ (o = .err .channelTerminated ∨ ∃ t, o = .ok t) := by
  constructor
  · intro h
    cases h with
    | hand _ _ r tr o hp hk =>
      rw [runs_ret] at hk
      obtain ⟨rfl, rfl⟩ := hk
      cases hp with
      | handed => exact ⟨rfl, .inr ⟨_, rfl⟩⟩
      | refused => exact ⟨rfl, .inl rfl⟩
  · rintro ⟨rfl, rfl | ⟨t, rfl⟩⟩
    · exact .hand _ _ _ _ _ (.refused _) (.ret _)
    · exact .hand _ _ _ _ _ (.handed _ _) (.ret _)

theorem steps_handOver {c : Call} {tr : List Ev} (h : Steps (handOver c) tr) :
    tr = [] ∨ ∃ o, tr = [.handed c o] ∧ (o = .err .channelTerminated ∨ ∃ t, o = .ok t) := by
  cases h with
  | nil => exact .inl rfl
  | hand _ _ r tr hp hk =>
    rw [steps_ret] at hk
    subst hk
    cases hp with
    | handed => exact .inr ⟨_, rfl, .inr ⟨_, rfl⟩⟩
    | refused => exact .inr ⟨_, rfl, .inl rfl⟩

theorem runs_await {t : Nat} {c : Call} {tr : List Ev} {o : Outcome Response} :
    Runs (await t c) tr o ↔ tr = [.waited t c o] ∧ ∃ i, o = c.resolve i := by
  constructor
  · intro h
    cases h with
    | wait _ _ _ r tr o hp hk =>
      rw [runs_ret] at hk
      obtain ⟨rfl, rfl⟩ := hk
      cases hp with
      | waited _ _ i => exact ⟨rfl, i, rfl⟩
  · rintro ⟨rfl, i, rfl⟩
    exact .wait _ _ _ _ _ _ (.waited _ _ _) (.ret _)

theorem steps_await {t : Nat} {c : Call} {tr : List Ev} (h : Steps (await t c) tr) :
    tr = [] ∨ ∃ i, tr = [.waited t c (c.resolve i)] := by
  cases h with
  | nil => exact .inl rfl
  | wait _ _ _ r tr hp hk =>
    rw [steps_ret] at hk
    subst hk
    cases hp with
    | waited _ _ i => exact .inr ⟨i, rfl⟩

/-- One call: refused, or handed over and answered. -/
theorem runs_call {c : Call} {tr : List Ev} {o : Outcome Response} :
    Runs (call c) tr o ↔
      (tr = [.handed c (.err .channelTerminated)] ∧ o = .err .channelTerminated) ∨
      ∃ t i, tr = [.handed c (.ok t), .waited t c (c.resolve i)] ∧ o = c.resolve i := by
  unfold call
  rw [runs_bind]
  simp only [runs_handOver, runs_await]
  constructor
  · rintro (⟨tr1, tr2, a, rfl, ⟨rfl, _⟩, rfl, i, rfl⟩ | ⟨e, ⟨rfl, h | ⟨t, h⟩⟩, rfl⟩ | ⟨⟨rfl, h | ⟨t, h⟩⟩, rfl⟩)
    · exact .inr ⟨a, i, rfl, rfl⟩
    · cases h; exact .inl ⟨rfl, rfl⟩
    all_goals exact absurd h (by simp)
  · rintro (⟨rfl, rfl⟩ | ⟨t, i, rfl, rfl⟩)
    · exact .inr (.inl ⟨_, ⟨rfl, .inl rfl⟩, rfl⟩)
    · exact .inl ⟨[_], [_], t, rfl, ⟨rfl, .inr ⟨_, rfl⟩⟩, rfl, i, rfl⟩

theorem steps_call {c : Call} {tr : List Ev} (h : Steps (call c) tr) :
    tr = [] ∨ tr = [.handed c (.err .channelTerminated)] ∨ (∃ t, tr = [.handed c (.ok t)]) ∨
      ∃ t i, tr = [.handed c (.ok t), .waited t c (c.resolve i)] := by
  unfold call at h
  rcases steps_bind h with h | ⟨tr1, tr2, a, rfl, h1, h2⟩
  · rcases steps_handOver h with rfl | ⟨o, rfl, rfl | ⟨t, rfl⟩⟩
    · exact .inl rfl
    · exact .inr (.inl rfl)
    · exact .inr (.inr (.inl ⟨t, rfl⟩))
  · rw [runs_handOver] at h1
    obtain ⟨rfl, _⟩ := h1
    rcases steps_await h2 with rfl | ⟨i, rfl⟩
    · exact .inr (.inr (.inl ⟨a, by simp⟩))
    · exact .inr (.inr (.inr ⟨a, i, by simp⟩))

/-- A successful call. -/
theorem runs_call_ok {c : Call} {tr : List Ev} {r : Response} (h : Runs (call c) tr (.ok r)) :
    ∃ t i, tr = [.handed c (.ok t), .waited t c (.ok r)] ∧ c.resolve i = .ok r := by
  rcases runs_call.mp h with ⟨_, h2⟩ | ⟨t, i, rfl, h2⟩
  · exact absurd h2 (by simp)
  · exact ⟨t, i, by rw [h2], h2.symm⟩

theorem runs_call_err {c : Call} {tr : List Ev} {e : NeutronError} (h : Runs (call c) tr (.err e)) :
    failure tr = some e := by
  rcases runs_call.mp h with ⟨rfl, h2⟩ | ⟨t, i, rfl, h2⟩
  · cases h2; rfl
  · rw [← h2]; rfl

theorem resolve_not_panic (c : Call) (i : Option Inbound) : c.resolve i ≠ .panic := by
  unfold Call.resolve
  repeat' split
  all_goals simp

theorem runs_call_panic {c : Call} {tr : List Ev} (h : Runs (call c) tr .panic) : False := by
  rcases runs_call.mp h with ⟨_, h2⟩ | ⟨t, i, rfl, h2⟩
  · exact absurd h2 (by simp)
  · exact resolve_not_panic _ _ h2.symm

/-- A response to a lookup is a lookup response. -/
theorem resolve_lookup {topic : String} {i : Option Inbound} {r : Response} (h : (Call.lookupTopic topic).resolve i = .ok r) :
    ∃ l, r = .lookup l ∧ i = some (.lookupTopicResponse l) := by
  unfold Call.resolve at h
  split at h
  · rename_i inb
    split at h
    · rename_i r' hr
      simp only [Outcome.ok.injEq] at h
      subst h
      cases inb <;> simp [Call.accept] at hr
      exact ⟨_, hr.symm, rfl⟩
    · exact absurd h (by simp)
  · exact absurd h (by simp)

/-- Responses to other calls are not lookup responses. -/
theorem lookups_call {c : Call} {t : Nat} {i : Option Inbound} {r : Response} (hc : ∀ topic, c ≠ .lookupTopic topic)
    (h : c.resolve i = .ok r) : lookups [.handed c (.ok t), .waited t c (.ok r)] = [] := by
  unfold Call.resolve at h
  split at h
  · rename_i inb
    split at h
    · rename_i r' hr
      simp only [Outcome.ok.injEq] at h
      subst h
      cases c <;> cases inb <;> simp [Call.accept] at hr <;> subst hr <;> first
        | rfl
        | exact absurd rfl (hc _)
    · exact absurd h (by simp)
  · exact absurd h (by simp)

@[simp] theorem lookups_append (a b : List Ev) : lookups (a ++ b) = lookups a ++ lookups b := List.filterMap_append
@[simp] theorem calls_append (a b : List Ev) : calls (a ++ b) = calls a ++ calls b := List.filterMap_append

theorem failure_append {a b : List Ev} (h : b ≠ []) : failure (a ++ b) = failure b := by
  unfold failure
  rw [List.getLast?_append]
  cases hb : b.getLast? with
  | none => rw [List.getLast?_eq_none_iff] at hb; exact absurd hb h
  | some x => rfl

end Neutron
