import Mathlib.Tactic.Ring
import Verif.Proof.ConsumerCalls

/-!
# Permit accounting

`due` is what a call may still add to the counter, `owed` what it will certainly add for what it received, `wipes` whether it is
about to reset the counter.
-/

namespace Neutron.Consumer

open Neutron

variable {T : Type}

def due (A : Nat) : Code T → Nat
  | .lock _ => A
  | .recv _ => A
  | .write _ k => due A k
  | .add n k => n.toNat + due A k
  | _ => 0

def owed : Code T → Nat
  | .write _ k => owed k
  | .add n k => n.toNat + owed k
  | _ => 0

def wipes : Code T → Nat
  | .store _ _ => 1
  | _ => 0

/-- Code that neither grants nor resets next. -/
def plain : Code T → Prop
  | .store _ _ => False
  | .flow _ _ => False
  | _ => True

theorem plain_wipes {c : Code T} (h : plain c) : wipes c = 0 := by
  cases c <;> first | rfl | exact h.elim

/-- Parameters: the permit setting, the bound of the counter, what a call adds at most, what a message costs against what is
added for it, the messages and buffers that occur. -/
structure Rules (T : Type) where
  P : Nat
  N : Nat
  A : Nat
  cost : Message → Nat → Prop
  M : Message → Prop
  B : List (Received T) → Prop

/-- Code that follows the rules. -/
def Wf (r : Rules T) : Code T → Prop
  | .ret _ => True
  | .load k => ∀ n, n.toNat ≤ r.N → Wf r (k n) ∧ owed (k n) = 0 ∧
      ((n.toNat < r.P ∧ due r.A (k n) ≤ r.A ∧ plain (k n)) ∨ (r.P ≤ n.toNat ∧ ∃ m f, k n = .flow m f ∧ m.toNat = r.P + n.toNat))
  | .store n k => n = 0 ∧ Wf r k ∧ due r.A k ≤ r.A ∧ owed k = 0 ∧ plain k
  | .flow n k => 2 * r.P ≤ n.toNat ∧ (Wf r (k (.ok ())) ∧ ∃ n' k', k (.ok ()) = .store n' k') ∧
      ∃ o, k (.err .channelTerminated) = .ret o
  | .lock k => ∀ b, r.B b → Wf r (k b) ∧ due r.A (k b) ≤ r.A ∧ owed (k b) = 0 ∧ plain (k b)
  | .write _ k => Wf r k ∧ plain k
  | .add _ k => Wf r k ∧ plain k
  | .recv k => (∀ m, r.M m → Wf r (k (.ok m)) ∧ due r.A (k (.ok m)) ≤ r.A ∧ r.cost m (owed (k (.ok m))) ∧ plain (k (.ok m))) ∧
      ∃ o, k (.err .channelTerminated) = .ret o

/-- A quantity of running code, 0 for other stages; its total. -/
def onStage (f : Code T → Nat) : Stage T → Nat
  | .running c => f c
  | _ => 0

def total (f : Code T → Nat) (s : State T) : Nat := (s.tasks.map fun t => onStage f t.stage).sum

theorem sum_set {α : Type} (g : α → Nat) : ∀ (l : List α) (i : Nat) (x y : α), l[i]? = some x →
    ((l.set i y).map g).sum + g x = (l.map g).sum + g y
  | [], i, x, y, h => by simp at h
  | a :: l, 0, x, y, h => by
    simp at h; subst h; simp; omega
  | a :: l, i + 1, x, y, h => by
    have := sum_set g l i x y (by simpa using h)
    simp only [List.set_cons_succ, List.map_cons, List.sum_cons]
    omega

theorem total_goto {s : State T} {i : Nat} {t : Task T} (ht : s.tasks[i]? = some t) (f : Code T → Nat) (st : Stage T) :
    total f (s.goto i t st) + onStage f t.stage = total f s + onStage f st := sum_set _ _ _ _ _ ht

theorem total_ge {s : State T} {i : Nat} {t : Task T} (ht : s.tasks[i]? = some t) (f : Code T → Nat) : onStage f t.stage ≤ total f s := by
  have : total f (s.goto i t .ended) + onStage f t.stage = total f s + 0 := total_goto ht f .ended
  omega

theorem total_congr {s s' : State T} (h : s'.tasks = s.tasks) (f : Code T → Nat) : total f s' = total f s := by
  unfold total; rw [h]

theorem sum_le_countP {α : Type} (g : α → Nat) (p : α → Bool) (A : Nat) (l : List α) (h : ∀ x ∈ l, g x ≤ if p x then A else 0) :
    (l.map g).sum ≤ A * l.countP p := by
  induction l with
  | nil => simp
  | cons a l ih =>
    have h1 := ih fun x hx => h x (by simp [hx])
    have h2 := h a (by simp)
    rw [List.countP_cons]
    simp only [List.map_cons, List.sum_cons]
    split
    · rename_i hp
      rw [if_pos hp] at h2
      rw [Nat.mul_add]
      omega
    · rename_i hp
      rw [if_neg hp] at h2
      rw [Nat.add_zero]
      omega

/-- Calls follow the rules. -/
structure Lawful (r : Rules T) (s : State T) : Prop where
  wf : ∀ (i : Nat) (t : Task T) (c : Code T), s.tasks[i]? = some t → t.stage = .running c → Wf r c ∧ due r.A c ≤ r.A
  bound : s.permits.toNat + total (due r.A) s ≤ r.N
  grants : ∀ g ∈ s.granted, 2 * r.P ≤ g.toNat

/-- What a run must be like. -/
structure Fair (r : Rules T) (cfg : Cfg T) (n : Nat) (as : List Act) : Prop where
  permits : cfg.permits.toNat = r.P
  pos : 0 < r.P
  bound : r.P - 1 + r.A * n ≤ r.N
  small : r.N + r.P < 4294967296
  twice : 2 * r.P < 4294967296
  buf : ∀ as' s, as' <+: as → Run cfg as' s → r.B s.buffer
  jobs : ∀ j ∈ jobs as, Wf r (j.code cfg) ∧ due r.A (j.code cfg) = 0 ∧ owed (j.code cfg) = 0 ∧ plain (j.code cfg)
  msgs : ∀ m ∈ delivered as, r.M m

theorem due_total {r : Rules T} {s : State T} (h : ∀ (i : Nat) (t : Task T) (c : Code T), s.tasks[i]? = some t → t.stage = .running c → due r.A c ≤ r.A) :
    total (due r.A) s ≤ r.A * s.live := by
  refine sum_le_countP _ _ _ _ ?_
  intro t ht
  obtain ⟨i, hi⟩ := List.getElem?_of_mem ht
  cases hc : t.stage with
  | running c => simpa [onStage, Stage.live] using h i t c hi hc
  | _ => simp [onStage]

theorem Fair.head {r : Rules T} {cfg : Cfg T} {n : Nat} {as : List Act} {a : Act} (h : Fair r cfg n (as ++ [a])) : Fair r cfg n as where
  permits := h.permits
  pos := h.pos
  bound := h.bound
  small := h.small
  twice := h.twice
  buf := fun as' s hp => h.buf as' s (hp.trans (List.prefix_append _ _))
  jobs := fun j hj => h.jobs j (by simp [hj])
  msgs := fun m hm => h.msgs m (by simp [hm])

theorem toNat_add_of_lt {a b : UInt32} (h : a.toNat + b.toNat < 4294967296) : (a + b).toNat = a.toNat + b.toNat := by
  rw [UInt32.toNat_add, Nat.mod_eq_of_lt h]

/-- The next code of call `i`, when the counter is unchanged and the code still follows the rules. -/
theorem Lawful.goto {r : Rules T} {s : State T} (h : Lawful r s) {i : Nat} {t : Task T} (ht : s.tasks[i]? = some t) {st : Stage T}
    (hst : ∀ c, st = .running c → Wf r c ∧ due r.A c ≤ r.A) (hd : onStage (due r.A) st ≤ onStage (due r.A) t.stage) :
    Lawful r (s.goto i t st) where
  wf := by
    intro j t' c g1 g2
    rcases upd g1 with ⟨rfl, rfl⟩ | ⟨_, g1⟩
    · exact hst c g2
    · exact h.wf j t' c g1 g2
  bound := by
    have := total_goto ht (due r.A) st
    have hb := h.bound
    show s.permits.toNat + total (due r.A) (s.goto i t st) ≤ r.N
    omega
  grants := h.grants

theorem Lawful.congr {r : Rules T} {s s' : State T} (h : Lawful r s) (h1 : s'.tasks = s.tasks) (h2 : s'.permits = s.permits)
    (h3 : s'.granted = s.granted) : Lawful r s' where
  wf := by rw [h1]; exact h.wf
  bound := by rw [h2, total_congr h1]; exact h.bound
  grants := by rw [h3]; exact h.grants

theorem Lawful.step {r : Rules T} {cfg : Cfg T} {n : Nat} {as : List Act} {s s' : State T} {a : Act} (h : Lawful r s)
    (hr : Run cfg as s) (hf : Fair r cfg n (as ++ [a])) (hs : step cfg s a = some s') (hl : s'.live ≤ n) : Lawful r s' := by
  have hr' := Run.snoc hr hs
  -- the counter is bounded whenever it is below the permit setting
  have low : ∀ {x : State T}, (∀ (i : Nat) (t : Task T) (c : Code T), x.tasks[i]? = some t → t.stage = .running c → due r.A c ≤ r.A) →
      x.live ≤ n → x.permits.toNat < r.P → x.permits.toNat + total (due r.A) x ≤ r.N := by
    intro x hx hl hp
    have h1 := due_total hx
    have h2 : r.A * x.live ≤ r.A * n := Nat.mul_le_mul_left _ hl
    have := hf.bound
    omega
  cases step_cases hs with
  | deliver e => exact h.congr rfl rfl rfl
  | close => exact h.congr rfl rfl rfl
  | skip => exact h.congr rfl rfl rfl
  | spawn j =>
    obtain ⟨w1, w2, _, _⟩ := hf.jobs j (by simp [Consumer.jobs])
    refine ⟨?_, ?_, h.grants⟩
    · intro i t c g1 g2
      rw [List.getElem?_append] at g1
      split at g1
      · exact h.wf i t c g1 g2
      · cases hx : i - s.tasks.length with
        | zero =>
          rw [hx] at g1
          simp only [List.getElem?_cons_zero, Option.some.injEq] at g1
          subst g1
          cases g2
          exact ⟨w1, by omega⟩
        | succ n => rw [hx] at g1; cases g1
    · have hb := h.bound
      simpa [total, onStage, w2] using hb
  | ret i t ht o hc =>
    refine (h.goto ht (st := after t.job o) (fun c e => absurd e (after_ne _ _ _)) ?_).congr rfl rfl rfl
    have : onStage (due r.A) (after t.job o) = 0 := by
      cases he : after t.job o with
      | running c => exact absurd he (after_ne _ _ _)
      | _ => rfl
    omega
  | load i t ht k hc =>
    have hw := (h.wf i t _ ht hc).1 s.permits (by have := h.bound; omega)
    have hb := h.bound
    rcases hw with ⟨w1, w2, ⟨w3, w4, w5⟩ | ⟨w3, m, f, w4, w5⟩⟩
    · have hwf : ∀ (j : Nat) (t' : Task T) (c : Code T), (s.goto i t (.running (k s.permits))).tasks[j]? = some t' → t'.stage = .running c →
          Wf r c ∧ due r.A c ≤ r.A := by
        intro j t' c g1 g2
        rcases upd g1 with ⟨rfl, rfl⟩ | ⟨_, g1⟩
        · cases g2; exact ⟨w1, w4⟩
        · exact h.wf j t' c g1 g2
      exact ⟨hwf, low (fun j t' c g1 g2 => (hwf j t' c g1 g2).2) hl w3, h.grants⟩
    · have hd : due r.A (k s.permits) = 0 := by rw [w4]; rfl
      refine h.goto ht (by intro c e; cases e; exact ⟨w1, by omega⟩) ?_
      show due r.A (k s.permits) ≤ _
      omega
  | store i t ht n' k hc =>
    obtain ⟨rfl, w1, w2, _, _⟩ := (h.wf i t _ ht hc).1
    have hwf : ∀ (j : Nat) (t' : Task T) (c : Code T), (s.goto i t (.running k)).tasks[j]? = some t' → t'.stage = .running c →
        Wf r c ∧ due r.A c ≤ r.A := by
      intro j t' c g1 g2
      rcases upd g1 with ⟨rfl, rfl⟩ | ⟨_, g1⟩
      · cases g2; exact ⟨w1, w2⟩
      · exact h.wf j t' c g1 g2
    exact ⟨hwf, low (fun j t' c g1 g2 => (hwf j t' c g1 g2).2) hl hf.pos, h.grants⟩
  | add i t ht n' k hc =>
    obtain ⟨⟨w1, w2⟩, w3⟩ := h.wf i t _ ht hc
    simp only [due] at w3
    refine ⟨?_, ?_, h.grants⟩
    · intro j t' c g1 g2
      rcases upd g1 with ⟨rfl, rfl⟩ | ⟨_, g1⟩
      · cases g2; exact ⟨w1, by omega⟩
      · exact h.wf j t' c g1 g2
    · have h1 := total_goto ht (due r.A) (.running k)
      have h2 := total_ge ht (due r.A)
      rw [hc] at h1 h2
      simp only [onStage, due] at h1 h2
      have hb := h.bound
      have hsm := hf.small
      show (s.permits + n').toNat + total (due r.A) (s.goto i t (.running k)) ≤ r.N
      rw [toNat_add_of_lt (by omega)]
      omega
  | flow i t ht n' k hc ho =>
    obtain ⟨w1, ⟨w2, n2, k2, w3⟩, _⟩ := (h.wf i t _ ht hc).1
    have hd : due r.A (k (.ok ())) = 0 := by rw [w3]; rfl
    have := h.goto ht (st := .running (k (.ok ()))) (by intro c e; cases e; exact ⟨w2, by omega⟩) (by
      show due r.A (k (.ok ())) ≤ _
      omega)
    refine ⟨this.wf, this.bound, ?_⟩
    intro g hg
    simp only [List.mem_append, List.mem_singleton] at hg
    rcases hg with hg | rfl
    · exact h.grants g hg
    · exact w1
  | refuse i t ht n' k hc ho =>
    obtain ⟨w1, _, o, w2⟩ := (h.wf i t _ ht hc).1
    rw [w2]
    exact h.goto ht (by intro c e; cases e; exact ⟨trivial, Nat.zero_le _⟩) (Nat.zero_le _)
  | lock i t ht k hc hh =>
    have hb : r.B s.buffer := hf.buf as s (List.prefix_append _ _) hr
    obtain ⟨w1, w2, _, _⟩ := (h.wf i t _ ht hc).1 s.buffer hb
    refine (h.goto ht (st := .running (k s.buffer)) (by intro c e; cases e; exact ⟨w1, w2⟩) ?_).congr rfl rfl rfl
    rw [hc]
    exact w2
  | write i t ht b k hc =>
    obtain ⟨⟨w1, _⟩, w2⟩ := h.wf i t _ ht hc
    refine (h.goto ht (st := .running k) (by intro c e; cases e; exact ⟨w1, w2⟩) ?_).congr rfl rfl rfl
    rw [hc]
    exact Nat.le_refl _
  | recv i t ht k hc m q hq =>
    have hm : r.M m := hf.msgs m (mem_delivered_of_received hr' (by simp))
    obtain ⟨w1, w2, _, _⟩ := (h.wf i t _ ht hc).1.1 m hm
    refine (h.goto ht (st := .running (k (.ok m))) (by intro c e; cases e; exact ⟨w1, w2⟩) ?_).congr rfl rfl rfl
    rw [hc]
    exact w2
  | gone i t ht k hc hq ho =>
    obtain ⟨o, w2⟩ := (h.wf i t _ ht hc).1.2
    rw [w2]
    exact h.goto ht (by intro c e; cases e; exact ⟨trivial, Nat.zero_le _⟩) (Nat.zero_le _)
  | plugins i t ht m hc _ =>
    exact (h.goto ht (st := .offering m 0) (by intro c e; cases e) (Nat.zero_le _)).congr rfl rfl rfl
  | loop i t ht m k hc _ =>
    have hjob := (along hr (M := fun _ => True) fun _ _ => trivial).consume i t ht (by rw [hc]; simp) (by rw [hc]; simp)
    obtain ⟨w1, w2, _, _⟩ := hf.jobs .consume (by
      rw [jobs_append, ← task_jobs hr]
      exact List.mem_append_left _ (List.mem_map.mpr ⟨t, List.mem_of_getElem? ht, hjob⟩))
    have w2 : due r.A (nextMessage cfg) = 0 := w2
    refine (h.goto ht (st := .running (nextMessage cfg)) (by intro c e; cases e; exact ⟨w1, by omega⟩) ?_).congr rfl rfl rfl
    show due r.A (nextMessage cfg) ≤ _
    omega
  | accepted i t ht m k hc _ =>
    exact (h.goto ht (st := .offering m (k + 1)) (by intro c e; cases e) (Nat.zero_le _)).congr rfl rfl rfl
  | rejected i t ht m k hc _ _ _ =>
    exact (h.goto ht (st := .ended) (by intro c e; cases e) (Nat.zero_le _)).congr rfl rfl rfl
  | cancel i t ht hw =>
    exact (h.goto ht (st := .ended) (by intro c e; cases e) (Nat.zero_le _)).congr rfl rfl rfl

theorem lawful {r : Rules T} {cfg : Cfg T} {n : Nat} {as : List Act} {s : State T} (h : AtMost cfg n as s) (hf : Fair r cfg n as) :
    Lawful r s := by
  induction h with
  | nil =>
    refine ⟨fun i t c h => by simp [init] at h, by simp [init, total], ?_⟩
    intro g hg
    simp only [init, List.mem_singleton] at hg
    subst hg
    have h1 := hf.permits
    have h2 := hf.twice
    rw [UInt32.toNat_mul, h1, show (2 : UInt32).toNat = 2 from rfl, Nat.mod_eq_of_lt (by omega)]
    omega
  | @snoc as s s' a h hs hl ih => exact (ih hf.head).step (atMost_run h) hf hs hl

/-- What was used up against what was counted and what was granted. -/
def Acct (r : Rules T) (D : Nat) (s : State T) : Prop :=
  ∃ W q, s.used ≤ D * (W + s.permits.toNat + total owed s) ∧ W ≤ r.N * q ∧ q + total wipes s + 1 ≤ s.granted.length

theorem Acct.goto {r : Rules T} {D : Nat} {s : State T} (h : Acct r D s) {i : Nat} {t : Task T} (ht : s.tasks[i]? = some t) {st : Stage T}
    (h1 : onStage owed t.stage ≤ onStage owed st) (h2 : onStage wipes st ≤ onStage wipes t.stage) : Acct r D (s.goto i t st) := by
  obtain ⟨W, q, g1, g2, g3⟩ := h
  have e1 := total_goto ht owed st
  have e2 := total_goto ht wipes st
  refine ⟨W, q, Nat.le_trans g1 (Nat.mul_le_mul_left _ ?_), g2, ?_⟩
  · show W + s.permits.toNat + total owed s ≤ W + s.permits.toNat + total owed (s.goto i t st)
    omega
  · show q + total wipes (s.goto i t st) + 1 ≤ s.granted.length
    omega

theorem Acct.congr {r : Rules T} {D : Nat} {s s' : State T} (h : Acct r D s) (h1 : s'.tasks = s.tasks) (h2 : s'.permits = s.permits)
    (h3 : s'.granted = s.granted) (h4 : s'.received = s.received) : Acct r D s' := by
  obtain ⟨W, q, g⟩ := h
  refine ⟨W, q, ?_⟩
  rw [State.used, h2, total_congr h1, total_congr h1, h3, h4]
  exact g

theorem Acct.step {r : Rules T} {D : Nat} {cfg : Cfg T} {n : Nat} {as : List Act} {s s' : State T} {a : Act} (h : Acct r D s)
    (hl : Lawful r s) (hr : Run cfg as s) (hf : Fair r cfg n (as ++ [a])) (hc : ∀ m d, r.cost m d → weight m ≤ D * d)
    (hs : step cfg s a = some s') : Acct r D s' := by
  have hr' := Run.snoc hr hs
  cases step_cases hs with
  | deliver e => exact h.congr rfl rfl rfl rfl
  | close => exact h.congr rfl rfl rfl rfl
  | skip => exact h.congr rfl rfl rfl rfl
  | spawn j =>
    obtain ⟨_, _, w3, w4⟩ := hf.jobs j (by simp [Consumer.jobs])
    obtain ⟨W, q, g1, g2, g3⟩ := h
    refine ⟨W, q, ?_, g2, ?_⟩
    · simpa [total, onStage, w3, State.used] using g1
    · simpa [total, onStage, plain_wipes w4] using g3
  | ret i t ht o hc' =>
    have : ∀ f : Code T → Nat, onStage f (after t.job o) = 0 := by
      intro f
      cases he : after t.job o with
      | running c => exact absurd he (after_ne _ _ _)
      | _ => rfl
    refine (h.goto ht (st := after t.job o) ?_ ?_).congr rfl rfl rfl rfl
    · rw [hc']; exact Nat.zero_le _
    · rw [this]; exact Nat.zero_le _
  | load i t ht k hc' =>
    have hw := (hl.wf i t _ ht hc').1 s.permits (by have := hl.bound; omega)
    refine h.goto ht (by rw [hc']; exact Nat.zero_le _) ?_
    have : wipes (k s.permits) = 0 := by
      rcases hw with ⟨w1, w2, ⟨w3, w4, w5⟩ | ⟨w3, m, f, w4, w5⟩⟩
      · exact plain_wipes w5
      · rw [w4]; rfl
    show wipes (k s.permits) ≤ _
    omega
  | store i t ht n' k hc' =>
    obtain ⟨rfl, w1, w2, w3, w4⟩ := (hl.wf i t _ ht hc').1
    obtain ⟨W, q, g1, g2, g3⟩ := h
    have e1 := total_goto ht owed (.running k)
    have e2 := total_goto ht wipes (.running k)
    rw [hc'] at e1 e2
    change _ + 0 = _ + owed k at e1
    change _ + 1 = _ + wipes k at e2
    rw [w3] at e1
    rw [plain_wipes w4] at e2
    have hb := hl.bound
    refine ⟨W + s.permits.toNat, q + 1, ?_, ?_, ?_⟩
    · show s.used ≤ D * (W + s.permits.toNat + (0 : UInt32).toNat + total owed (s.goto i t (.running k)))
      rw [show (0 : UInt32).toNat = 0 from rfl, Nat.add_zero, show total owed (s.goto i t (.running k)) = total owed s by omega]
      exact g1
    · rw [Nat.mul_add]; omega
    · show q + 1 + total wipes (s.goto i t (.running k)) + 1 ≤ s.granted.length
      omega
  | add i t ht n' k hc' =>
    obtain ⟨⟨w1, w2⟩, w3⟩ := hl.wf i t _ ht hc'
    obtain ⟨W, q, g1, g2, g3⟩ := h
    have e1 := total_goto ht owed (.running k)
    have e2 := total_goto ht wipes (.running k)
    have e3 := total_ge ht (due r.A)
    rw [hc'] at e1 e2 e3
    change _ + (n'.toNat + owed k) = _ + owed k at e1
    change _ + 0 = _ + wipes k at e2
    change n'.toNat + due r.A k ≤ _ at e3
    rw [plain_wipes w2] at e2
    have hb := hl.bound
    have hsm := hf.small
    refine ⟨W, q, ?_, g2, ?_⟩
    · show s.used ≤ D * (W + (s.permits + n').toNat + total owed (s.goto i t (.running k)))
      rw [toNat_add_of_lt (by omega), show W + (s.permits.toNat + n'.toNat) + total owed (s.goto i t (.running k)) =
        W + s.permits.toNat + total owed s by omega]
      exact g1
    · show q + total wipes (s.goto i t (.running k)) + 1 ≤ s.granted.length
      omega
  | flow i t ht n' k hc' ho =>
    obtain ⟨w1, ⟨w2, n2, k2, w3⟩, _⟩ := (hl.wf i t _ ht hc').1
    obtain ⟨W, q, g1, g2, g3⟩ := h
    have e1 := total_goto ht owed (.running (k (.ok ())))
    have e2 := total_goto ht wipes (.running (k (.ok ())))
    rw [hc', w3] at e1 e2
    simp only [onStage, owed, wipes] at e1 e2
    refine ⟨W, q, ?_, g2, ?_⟩
    · show s.used ≤ D * (W + s.permits.toNat + total owed (s.goto i t (.running (k (.ok ())))))
      rw [w3, show total owed (s.goto i t (.running (.store n2 k2))) = total owed s by omega]
      exact g1
    · show q + total wipes (s.goto i t (.running (k (.ok ())))) + 1 ≤ (s.granted ++ [n']).length
      rw [w3, List.length_append, List.length_singleton]
      omega
  | refuse i t ht n' k hc' ho =>
    obtain ⟨w1, _, o, w2⟩ := (hl.wf i t _ ht hc').1
    rw [w2]
    exact h.goto ht (by rw [hc']; exact Nat.zero_le _) (Nat.zero_le _)
  | lock i t ht k hc' hh =>
    have hb : r.B s.buffer := hf.buf as s (List.prefix_append _ _) hr
    obtain ⟨w1, w2, w3, w4⟩ := (hl.wf i t _ ht hc').1 s.buffer hb
    refine (h.goto ht (st := .running (k s.buffer)) (by rw [hc']; exact Nat.zero_le _) ?_).congr rfl rfl rfl rfl
    show wipes (k s.buffer) ≤ _
    rw [plain_wipes w4]
    exact Nat.zero_le _
  | write i t ht b k hc' =>
    obtain ⟨⟨w1, w2⟩, _⟩ := hl.wf i t _ ht hc'
    refine (h.goto ht (st := .running k) (by rw [hc']; exact Nat.le_refl _) ?_).congr rfl rfl rfl rfl
    show wipes k ≤ _
    rw [plain_wipes w2]
    exact Nat.zero_le _
  | recv i t ht k hc' m q' hq =>
    have hm : r.M m := hf.msgs m (mem_delivered_of_received hr' (by simp))
    obtain ⟨w1, w2, w3, w4⟩ := (hl.wf i t _ ht hc').1.1 m hm
    obtain ⟨W, q, g1, g2, g3⟩ := h
    have e1 := total_goto ht owed (.running (k (.ok m)))
    have e2 := total_goto ht wipes (.running (k (.ok m)))
    rw [hc'] at e1 e2
    change _ + 0 = _ + owed (k (.ok m)) at e1
    change _ + 0 = _ + wipes (k (.ok m)) at e2
    rw [plain_wipes w4] at e2
    have hw := hc m _ w3
    refine ⟨W, q, ?_, g2, ?_⟩
    · show ((s.received ++ [m]).map weight).sum ≤ D * (W + s.permits.toNat + total owed (s.goto i t (.running (k (.ok m)))))
      rw [List.map_append, List.sum_append, show total owed (s.goto i t (.running (k (.ok m)))) = total owed s + owed (k (.ok m)) by omega,
        ← Nat.add_assoc, Nat.mul_add D _ (owed (k (.ok m)))]
      have : (s.received.map weight).sum ≤ D * (W + s.permits.toNat + total owed s) := g1
      simpa using Nat.add_le_add this hw
    · show q + total wipes (s.goto i t (.running (k (.ok m)))) + 1 ≤ s.granted.length
      omega
  | gone i t ht k hc' hq ho =>
    obtain ⟨o, w2⟩ := (hl.wf i t _ ht hc').1.2
    rw [w2]
    exact h.goto ht (by rw [hc']; exact Nat.zero_le _) (Nat.zero_le _)
  | plugins i t ht m hc' _ =>
    exact (h.goto ht (st := .offering m 0) (by rw [hc']; exact Nat.zero_le _) (Nat.zero_le _)).congr rfl rfl rfl rfl
  | loop i t ht m k hc' _ =>
    refine (h.goto ht (st := .running (nextMessage cfg)) (by rw [hc']; exact Nat.zero_le _) ?_).congr rfl rfl rfl rfl
    exact Nat.zero_le _
  | accepted i t ht m k hc' _ =>
    exact (h.goto ht (st := .offering m (k + 1)) (by rw [hc']; exact Nat.zero_le _) (Nat.zero_le _)).congr rfl rfl rfl rfl
  | rejected i t ht m k hc' _ _ _ =>
    exact (h.goto ht (st := .ended) (by rw [hc']; exact Nat.zero_le _) (Nat.zero_le _)).congr rfl rfl rfl rfl
  | cancel i t ht hw =>
    refine (h.goto ht (st := .ended) ?_ (Nat.zero_le _)).congr rfl rfl rfl rfl
    cases hst : t.stage with
    | running c =>
      rw [hst] at hw
      cases c <;> first | exact Nat.zero_le _ | (simp [Stage.waits] at hw)
    | _ => exact Nat.zero_le _

theorem acct {r : Rules T} {D : Nat} {cfg : Cfg T} {n : Nat} {as : List Act} {s : State T} (h : AtMost cfg n as s) (hf : Fair r cfg n as)
    (hc : ∀ m d, r.cost m d → weight m ≤ D * d) : Acct r D s := by
  induction h with
  | nil => exact ⟨0, 0, by simp [init, State.used], by simp, by simp [init, total]⟩
  | @snoc as s s' a h hs hl ih => exact (ih hf.head).step (lawful h hf.head) (atMost_run h) hf hc hs

theorem sum_zero (l : List Nat) (h : ∀ x ∈ l, x = 0) : l.sum = 0 := by
  induction l with
  | nil => rfl
  | cons a l ih => simp [h a (by simp), ih fun x hx => h x (by simp [hx])]

/-- While a call waits, no call has a received message to count. -/
theorem owed_zero {R : List (Outcome (Received T)) → List (Outcome (Received T)) → Prop} {B : List (Received T) → Prop}
    {M : Message → Prop} {y : Message → List (Outcome (Received T))} {s : State T} (hi : Inv R B M y s) {i : Nat} (hw : s.waiting i) :
    total owed s = 0 ∧ s.holder = some i := by
  obtain ⟨t, k, ht, hc⟩ := hw
  have hh : s.holder = some i := by
    by_contra hh
    exact (hi.pre i t _ ht hc hh).elim
  refine ⟨?_, hh⟩
  unfold total
  apply sum_zero
  intro x hx
  rw [List.mem_map] at hx
  obtain ⟨t', ht', rfl⟩ := hx
  obtain ⟨j, hj⟩ := List.getElem?_of_mem ht'
  cases hst : t'.stage with
  | running c =>
    by_cases hij : j = i
    · subst hij
      rw [ht] at hj; cases hj
      rw [hc] at hst; cases hst
      rfl
    · have := hi.pre j t' c hj hst (by rw [hh]; intro h; cases h; exact hij rfl)
      cases c <;> first | rfl | exact this.elim
  | _ => rfl

theorem grants_ge (P : Nat) (s : State T) (h : ∀ g ∈ s.granted, 2 * P ≤ g.toNat) : 2 * P * s.granted.length ≤ s.grants := by
  unfold State.grants
  generalize s.granted = l at h
  induction l with
  | nil => simp
  | cons a l ih =>
    have h1 := ih fun g hg => h g (by simp [hg])
    have h2 := h a (by simp)
    rw [List.length_cons, Nat.mul_add, List.map_cons, List.sum_cons]
    omega

/-- A waiting call has left the broker a permit. -/
theorem not_starved {R : List (Outcome (Received T)) → List (Outcome (Received T)) → Prop} {B : List (Received T) → Prop}
    {M : Message → Prop} {r : Rules T} {D : Nat} {cfg : Cfg T} {n : Nat} {as : List Act} {s : State T} (h : AtMost cfg n as s)
    (hf : Fair r cfg n as) (hc : ∀ m d, r.cost m d → weight m ≤ D * d) (hi : Inv R B M (yields cfg.decode) s) (hA : 0 < r.A) (hD : 0 < D)
    (hN : D * r.N ≤ 2 * r.P) {i : Nat} (hw : s.waiting i) : s.used < s.grants := by
  obtain ⟨W, q, g1, g2, g3⟩ := acct h hf hc
  have hl := lawful h hf
  rw [(owed_zero hi hw).1, Nat.add_zero] at g1
  obtain ⟨t, k, ht, hst⟩ := hw
  have e := total_ge ht (due r.A)
  rw [hst] at e
  simp only [onStage, due] at e
  have hb := hl.bound
  have hg := grants_ge r.P s hl.grants
  have h1 : W + s.permits.toNat + 1 ≤ r.N * (q + 1) := by rw [Nat.mul_add]; omega
  have h2 : D * (W + s.permits.toNat) + D ≤ D * (r.N * (q + 1)) := by
    have := Nat.mul_le_mul_left D h1
    rw [Nat.mul_add] at this
    omega
  have h3 : D * (r.N * (q + 1)) ≤ 2 * r.P * (q + 1) := by
    rw [← Nat.mul_assoc]
    exact Nat.mul_le_mul_right _ hN
  have h4 : 2 * r.P * (q + 1) ≤ 2 * r.P * s.granted.length := Nat.mul_le_mul_left _ (by omega)
  omega

end Neutron.Consumer
