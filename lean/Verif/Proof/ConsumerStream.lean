import Mathlib.Data.List.Perm.Subperm
import Verif.Proof.ConsumerBase

/-!
# What the calls hand out, against what arrived

A small program logic: `Held` is what a call holding the buffer owes, `Pre` what a call owes before it holds it.  The relation
`R` is equality for exactness, or "is part of, as a bag" where only duplication is excluded.
-/

namespace Neutron.Consumer

open Neutron

variable {T : Type}

/-- A call holds the buffer `b`; `p` is what has been received and not handed out. -/
def Held (R : List (Outcome (Received T)) → List (Outcome (Received T)) → Prop) (B : List (Received T) → Prop)
    (M : Message → Prop) (y : Message → List (Outcome (Received T))) : Code T → List (Received T) → List (Outcome (Received T)) → Prop
  | .ret o, b, p => R (handed o ++ b.map .ok) p
  | .write b' k, _, p => B b' ∧ Held R B M y k b' p
  | .add _ k, b, p => Held R B M y k b p
  | .recv k, b, p => (b = [] ∧ R [] p) ∧ (∀ m, M m → Held R B M y (k (.ok m)) b (p ++ y m)) ∧
      Held R B M y (k (.err .channelTerminated)) b p
  | _, _, _ => False

/-- A call before it has the buffer. -/
def Pre (R : List (Outcome (Received T)) → List (Outcome (Received T)) → Prop) (B : List (Received T) → Prop)
    (M : Message → Prop) (y : Message → List (Outcome (Received T))) : Code T → Prop
  | .ret o => handed o = []
  | .load k => ∀ n, Pre R B M y (k n)
  | .store _ k => Pre R B M y k
  | .flow _ k => Pre R B M y (k (.ok ())) ∧ Pre R B M y (k (.err .channelTerminated))
  | .lock k => ∀ b, B b → Held R B M y (k b) b (b.map .ok)
  | _ => False

/-- What is needed of `R`. -/
structure Compat (R : List (Outcome (Received T)) → List (Outcome (Received T)) → Prop) : Prop where
  refl : ∀ x, R x x
  trans : ∀ {x y z}, R x y → R y z → R x z
  left : ∀ h {x y}, R x y → R (h ++ x) (h ++ y)
  right : ∀ h {x y}, R x y → R (x ++ h) (y ++ h)

structure Inv (R : List (Outcome (Received T)) → List (Outcome (Received T)) → Prop) (B : List (Received T) → Prop)
    (M : Message → Prop) (y : Message → List (Outcome (Received T))) (s : State T) : Prop where
  buf : B s.buffer
  pre : ∀ i t c, s.tasks[i]? = some t → t.stage = .running c → s.holder ≠ some i → Pre R B M y c
  held : ∀ i, s.holder = some i → ∃ t c p, s.tasks[i]? = some t ∧ t.stage = .running c ∧ Held R B M y c s.buffer p ∧
    R (s.handedOut ++ p) (s.received.flatMap y)
  free : s.holder = none → R (s.handedOut ++ s.buffer.map .ok) (s.received.flatMap y)

theorem upd {s : State T} {i j : Nat} {t t' : Task T} {st : Stage T} (h : (s.tasks.set i { t with stage := st })[j]? = some t') :
    (j = i ∧ t' = { t with stage := st }) ∨ (j ≠ i ∧ s.tasks[j]? = some t') := by
  rw [List.getElem?_set] at h
  split at h
  · split at h
    · cases h; exact .inl ⟨by omega, rfl⟩
    · cases h
  · exact .inr ⟨by omega, h⟩

theorem upd_self {s : State T} {i : Nat} {t t' : Task T} (ht : s.tasks[i]? = some t) : (s.tasks.set i t')[i]? = some t' := by
  obtain ⟨hl, _⟩ := List.getElem?_eq_some_iff.mp ht
  simp [hl]

theorem upd_ne {s : State T} {i j : Nat} {t' : Task T} (h : j ≠ i) : (s.tasks.set i t')[j]? = s.tasks[j]? := by
  rw [List.getElem?_set, if_neg (by omega)]

section
variable {R : List (Outcome (Received T)) → List (Outcome (Received T)) → Prop} {B : List (Received T) → Prop}
  {M : Message → Prop} {y : Message → List (Outcome (Received T))}

/-- A step of a call that does not hold the buffer, keeps everything else, and still owes what it should. -/
theorem Inv.move {s : State T} (hi : Inv R B M y s) {i : Nat} {t : Task T} (ht : s.tasks[i]? = some t)
    (hh : s.holder ≠ some i) {st : Stage T} (hst : ∀ c, st = .running c → Pre R B M y c) :
    Inv R B M y (s.goto i t st) where
  buf := hi.buf
  pre := by
    intro j t' c h1 h2 h3
    rcases upd h1 with ⟨rfl, rfl⟩ | ⟨_, h1⟩
    · exact hst c h2
    · exact hi.pre j t' c h1 h2 h3
  held := by
    intro j hj
    obtain ⟨t', c, p, h1, h2⟩ := hi.held j hj
    have : j ≠ i := by rintro rfl; exact hh hj
    exact ⟨t', c, p, by simpa [State.goto, upd_ne this] using h1, h2⟩
  free := hi.free

/-- Components the invariant does not look at. -/
theorem Inv.congr {s s' : State T} (hi : Inv R B M y s) (h1 : s'.buffer = s.buffer) (h2 : s'.tasks = s.tasks)
    (h3 : s'.holder = s.holder) (h4 : s'.results = s.results) (h5 : s'.received = s.received) : Inv R B M y s' where
  buf := by rw [h1]; exact hi.buf
  pre := by rw [h2, h3]; exact hi.pre
  held := by rw [h2, h3, h1, h5, State.handedOut, h4]; exact hi.held
  free := by rw [h3, h1, h5, State.handedOut, h4]; exact hi.free

theorem release_ne {h : Option Nat} {i : Nat} (hh : h ≠ some i) : release h i = h := if_neg hh
theorem release_self {i : Nat} : release (some i) i = none := if_pos rfl

theorem after_ne (j : Job) (o : Outcome (List (Received T))) (c : Code T) : after j o ≠ .running c := by
  unfold after; split <;> simp

theorem Inv.step {cfg : Cfg T} {s s' : State T} {a : Act} (hR : Compat R) (hi : Inv R B M y s)
    (hn : ∀ (i : Nat) (t : Task T) (m : Received T) (k : Nat), s.tasks[i]? = some t → t.stage = .offering m k →
      Pre R B M y (nextMessage cfg)) (hj : ∀ j, a = .spawn j → Pre R B M y (j.code cfg))
    (hm : ∀ m ∈ s'.received, M m) (h : step cfg s a = some s') : Inv R B M y s' := by
  cases step_cases h with
  | deliver e => exact hi.congr rfl rfl rfl rfl rfl
  | close => exact hi.congr rfl rfl rfl rfl rfl
  | skip => exact hi.congr rfl rfl rfl rfl rfl
  | spawn j =>
    refine ⟨hi.buf, ?_, ?_, hi.free⟩
    · intro i t c h1 h2 h3
      rw [List.getElem?_append] at h1
      split at h1
      · exact hi.pre i t c h1 h2 h3
      · rename_i hl
        cases hx : i - s.tasks.length with
        | zero =>
          rw [hx] at h1
          simp only [List.getElem?_cons_zero, Option.some.injEq] at h1
          subst h1
          cases h2
          exact hj j rfl
        | succ n => rw [hx] at h1; cases h1
    · intro i h1
      obtain ⟨t, c, p, h2, h3⟩ := hi.held i h1
      refine ⟨t, c, p, ?_, h3⟩
      obtain ⟨hl, _⟩ := List.getElem?_eq_some_iff.mp h2
      show (s.tasks ++ _)[i]? = some t
      rw [List.getElem?_append_left hl]
      exact h2
  | ret i t ht o hc =>
    by_cases hh : s.holder = some i
    · obtain ⟨t', c, p, h1, h2, h3, h4⟩ := hi.held i hh
      rw [ht] at h1; cases h1
      rw [hc] at h2; cases h2
      refine ⟨hi.buf, ?_, ?_, ?_⟩
      · intro j t' c' g1 g2 g3
        rcases upd g1 with ⟨rfl, rfl⟩ | ⟨hne, g1⟩
        · exact (after_ne _ _ _ g2).elim
        · refine hi.pre j t' c' g1 g2 ?_
          rw [hh]; intro h; cases h; exact hne rfl
      · intro j hj'
        simp only [finish, hh, release_self] at hj'
        cases hj'
      · intro _
        simp only [finish, State.handedOut, State.goto, List.flatMap_append, List.flatMap_cons, List.flatMap_nil, List.append_nil,
          List.append_assoc] at h4 ⊢
        exact hR.trans (hR.left _ h3) h4
    · have hp := hi.pre i t _ ht hc hh
      simp only [Pre] at hp
      have := hi.move ht hh (st := after t.job o)
        (fun c h => (after_ne t.job o c h).elim)
      have e : (finish s i t o).handedOut = s.handedOut := by
        simp [finish, State.handedOut, hp]
      refine ⟨this.buf, ?_, ?_, ?_⟩
      · simp only [finish, release_ne hh]; exact this.pre
      · rw [e]; simp only [finish, release_ne hh]; exact this.held
      · rw [e]; simp only [finish, release_ne hh]; exact this.free
  | load i t ht k hc =>
    by_cases hh : s.holder = some i
    · obtain ⟨t', c, p, h1, h2, h3, h4⟩ := hi.held i hh
      rw [ht] at h1; cases h1
      rw [hc] at h2; cases h2
      exact h3.elim
    · have hp := hi.pre i t _ ht hc hh
      exact hi.move ht hh (by intro c h; cases h; exact hp _)
  | store i t ht n k hc =>
    by_cases hh : s.holder = some i
    · obtain ⟨t', c, p, h1, h2, h3, h4⟩ := hi.held i hh
      rw [ht] at h1; cases h1
      rw [hc] at h2; cases h2
      exact h3.elim
    · have hp := hi.pre i t _ ht hc hh
      exact (hi.move ht hh (st := .running k) (by intro c h; cases h; exact hp)).congr rfl rfl rfl rfl rfl
  | add i t ht n k hc =>
    by_cases hh : s.holder = some i
    · obtain ⟨t', c, p, h1, h2, h3, h4⟩ := hi.held i hh
      rw [ht] at h1; cases h1
      rw [hc] at h2; cases h2
      refine ⟨hi.buf, ?_, ?_, ?_⟩
      · intro j t' c' g1 g2 g3
        rcases upd g1 with ⟨rfl, rfl⟩ | ⟨hne, g1⟩
        · exact absurd hh g3
        · exact hi.pre j t' c' g1 g2 g3
      · intro j hj'
        rw [show j = i by simpa [State.goto, hh] using hj'.symm]
        exact ⟨_, _, p, upd_self ht, rfl, h3, h4⟩
      · intro hn'; exact absurd (hn'.symm.trans hh) (by simp)
    · exact (hi.pre i t _ ht hc hh).elim
  | flow i t ht n k hc =>
    by_cases hh : s.holder = some i
    · obtain ⟨t', c, p, h1, h2, h3, h4⟩ := hi.held i hh
      rw [ht] at h1; cases h1
      rw [hc] at h2; cases h2
      exact h3.elim
    · have hp := hi.pre i t _ ht hc hh
      exact (hi.move ht hh (st := .running (k (.ok ()))) (by intro c h; cases h; exact hp.1)).congr rfl rfl rfl rfl rfl
  | refuse i t ht n k hc =>
    by_cases hh : s.holder = some i
    · obtain ⟨t', c, p, h1, h2, h3, h4⟩ := hi.held i hh
      rw [ht] at h1; cases h1
      rw [hc] at h2; cases h2
      exact h3.elim
    · have hp := hi.pre i t _ ht hc hh
      exact hi.move ht hh (by intro c h; cases h; exact hp.2)
  | lock i t ht k hc hh =>
    have hp := hi.pre i t _ ht hc (by rw [hh]; simp)
    refine ⟨hi.buf, ?_, ?_, ?_⟩
    · intro j t' c' g1 g2 g3
      rcases upd g1 with ⟨rfl, rfl⟩ | ⟨hne, g1⟩
      · exact absurd rfl g3
      · exact hi.pre j t' c' g1 g2 (by rw [hh]; simp)
    · intro j hj'
      cases hj'
      exact ⟨_, _, _, upd_self ht, rfl, hp _ hi.buf, hi.free hh⟩
    · intro hn'; cases hn'
  | write i t ht b k hc =>
    by_cases hh : s.holder = some i
    · obtain ⟨t', c, p, h1, h2, h3, h4⟩ := hi.held i hh
      rw [ht] at h1; cases h1
      rw [hc] at h2; cases h2
      refine ⟨h3.1, ?_, ?_, ?_⟩
      · intro j t' c' g1 g2 g3
        rcases upd g1 with ⟨rfl, rfl⟩ | ⟨hne, g1⟩
        · exact absurd hh g3
        · exact hi.pre j t' c' g1 g2 g3
      · intro j hj'
        rw [show j = i by simpa [State.goto, hh] using hj'.symm]
        exact ⟨_, _, p, upd_self ht, rfl, h3.2, h4⟩
      · intro hn'; exact absurd (hn'.symm.trans hh) (by simp)
    · exact (hi.pre i t _ ht hc hh).elim
  | recv i t ht k hc m q hq =>
    by_cases hh : s.holder = some i
    · obtain ⟨t', c, p, h1, h2, h3, h4⟩ := hi.held i hh
      rw [ht] at h1; cases h1
      rw [hc] at h2; cases h2
      refine ⟨hi.buf, ?_, ?_, ?_⟩
      · intro j t' c' g1 g2 g3
        rcases upd g1 with ⟨rfl, rfl⟩ | ⟨hne, g1⟩
        · exact absurd hh g3
        · exact hi.pre j t' c' g1 g2 g3
      · intro j hj'
        rw [show j = i by simpa [State.goto, hh] using hj'.symm]
        refine ⟨_, _, _, upd_self ht, rfl, h3.2.1 m (hm m (by simp)), ?_⟩
        simp only [List.flatMap_append, List.flatMap_cons, List.flatMap_nil, List.append_nil, ← List.append_assoc]
        exact hR.right _ h4
      · intro hn'; exact absurd (hn'.symm.trans hh) (by simp)
    · exact (hi.pre i t _ ht hc hh).elim
  | gone i t ht k hc hq ho =>
    by_cases hh : s.holder = some i
    · obtain ⟨t', c, p, h1, h2, h3, h4⟩ := hi.held i hh
      rw [ht] at h1; cases h1
      rw [hc] at h2; cases h2
      refine ⟨hi.buf, ?_, ?_, ?_⟩
      · intro j t' c' g1 g2 g3
        rcases upd g1 with ⟨rfl, rfl⟩ | ⟨hne, g1⟩
        · exact absurd hh g3
        · exact hi.pre j t' c' g1 g2 g3
      · intro j hj'
        rw [show j = i by simpa [State.goto, hh] using hj'.symm]
        exact ⟨_, _, p, upd_self ht, rfl, h3.2.2, h4⟩
      · intro hn'; exact absurd (hn'.symm.trans hh) (by simp)
    · exact (hi.pre i t _ ht hc hh).elim
  | plugins i t ht m hc _ =>
    have hh : s.holder ≠ some i := by
      intro hh
      obtain ⟨t', c, p, h1, h2, _⟩ := hi.held i hh
      rw [ht] at h1; cases h1
      rw [hc] at h2; cases h2
    exact (hi.move ht hh (st := .offering m 0) (by intro c h; cases h)).congr rfl rfl rfl rfl rfl
  | loop i t ht m k hc _ =>
    have hh : s.holder ≠ some i := by
      intro hh
      obtain ⟨t', c, p, h1, h2, _⟩ := hi.held i hh
      rw [ht] at h1; cases h1
      rw [hc] at h2; cases h2
    exact (hi.move ht hh (st := .running (nextMessage cfg)) (by intro c h; cases h; exact hn i t m k ht hc)).congr rfl rfl rfl rfl rfl
  | accepted i t ht m k hc _ =>
    have hh : s.holder ≠ some i := by
      intro hh
      obtain ⟨t', c, p, h1, h2, _⟩ := hi.held i hh
      rw [ht] at h1; cases h1
      rw [hc] at h2; cases h2
    exact (hi.move ht hh (st := .offering m (k + 1)) (by intro c h; cases h)).congr rfl rfl rfl rfl rfl
  | rejected i t ht m k hc _ r hr =>
    have hh : s.holder ≠ some i := by
      intro hh
      obtain ⟨t', c, p, h1, h2, _⟩ := hi.held i hh
      rw [ht] at h1; cases h1
      rw [hc] at h2; cases h2
    exact (hi.move ht hh (st := .ended) (by intro c h; cases h)).congr rfl rfl rfl rfl rfl
  | cancel i t ht hw =>
    by_cases hh : s.holder = some i
    · obtain ⟨t', c, p, h1, h2, h3, h4⟩ := hi.held i hh
      rw [ht] at h1; cases h1
      refine ⟨hi.buf, ?_, ?_, ?_⟩
      · intro j t' c' g1 g2 g3
        rcases upd g1 with ⟨rfl, rfl⟩ | ⟨hne, g1⟩
        · cases g2
        · refine hi.pre j t' c' g1 g2 ?_
          rw [hh]; intro h; cases h; exact hne rfl
      · intro j hj'
        simp only [hh, release_self] at hj'
        cases hj'
      · intro _
        rw [h2] at hw
        cases c <;> simp only [Stage.waits, Bool.false_eq_true] at hw
        · exact h3.elim
        · exact h3.elim
        · have := hR.trans (hR.left _ h3.1.2) h4
          simpa [h3.1.1, State.handedOut, State.goto] using this
    · have := hi.move ht hh (st := .ended) (by intro c h; cases h)
      exact this.congr rfl rfl (release_ne hh) rfl rfl

theorem Inv.init {cfg : Cfg T} (hR : Compat R) (hB : B []) : Inv R B M y (init cfg) where
  buf := hB
  pre := by intro i t c h; cases h
  held := by intro i h; cases h
  free := fun _ => hR.refl _

/-- What holds of what was handed out: it is as `R` says against a stream that leads what arrived. -/
theorem Inv.handed {s : State T} (hi : Inv R B M y s) :
    ∃ p, R (s.handedOut ++ p) (s.received.flatMap y) := by
  cases hh : s.holder with
  | none => exact ⟨_, hi.free hh⟩
  | some i =>
    obtain ⟨t, c, p, _, _, _, h⟩ := hi.held i hh
    exact ⟨p, h⟩
end

theorem compat_eq : Compat (T := T) Eq where
  refl _ := rfl
  trans := Eq.trans
  left := by rintro h x y rfl; rfl
  right := by rintro h x y rfl; rfl

theorem compat_subperm : Compat (T := T) List.Subperm where
  refl _ := List.Subperm.refl _
  trans := List.Subperm.trans
  left := fun h _ _ hxy => (List.subperm_append_left h).mpr hxy
  right := fun h _ _ hxy => (List.subperm_append_right h).mpr hxy

end Neutron.Consumer
