import Verif.Proof.ConsumerFlow

/-!
# Which code follows the accounting rules; exact accounting when calls do not overlap
-/

namespace Neutron.Consumer

open Neutron
open scoped List

variable {T : Type}

theorem wf_checkAndFlow {r : Rules T} (cfg : Cfg T) {k : Code T} (hP : cfg.permits.toNat = r.P)
    (hN : r.N + r.P < 4294967296) (h2 : 2 * r.P < 4294967296) (h : Wf r k) (hd : due r.A k ≤ r.A) (ho : owed k = 0) (hp : plain k) :
    Wf r (checkAndFlow cfg k) := by
  intro n hn
  dsimp only
  split
  · rename_i hge
    have hle : r.P ≤ n.toNat := by rw [← hP]; exact UInt32.le_iff_toNat_le.mp hge
    have hm : (cfg.permits * 2 + (n - cfg.permits)).toNat = r.P + n.toNat := by
      have h1 : (cfg.permits * 2).toNat = 2 * r.P := by
        rw [UInt32.toNat_mul, hP, show (2 : UInt32).toNat = 2 from rfl, Nat.mod_eq_of_lt (by omega)]
        omega
      have h3 : (n - cfg.permits).toNat = n.toNat - r.P := by
        rw [UInt32.toNat_sub_of_le _ _ hge, hP]
      rw [toNat_add_of_lt (by omega), h1, h3]
      omega
    refine ⟨⟨by omega, ⟨⟨rfl, h, hd, ho, hp⟩, _, _, rfl⟩, _, rfl⟩, rfl, .inr ⟨hle, _, _, rfl, hm⟩⟩
  · rename_i hlt
    refine ⟨h, ho, .inl ⟨?_, hd, hp⟩⟩
    rw [← hP]
    exact Nat.lt_of_not_le fun hle => hlt (UInt32.le_iff_toNat_le.mpr hle)

/-- Rules for `next_message` on messages of at most `D` payloads: a call counts 1. -/
def messageRules (cfg : Cfg T) (n D : Nat) : Rules T where
  P := cfg.permits.toNat
  N := cfg.permits.toNat - 1 + 1 * n
  A := 1
  cost := fun m d => weight m ≤ D * d
  M := fun m => decodable cfg.decode m ∧ filled m ∧ weight m ≤ D
  B := fun _ => True

theorem wf_message (cfg : Cfg T) (n D : Nat) (hN : cfg.permits.toNat - 1 + n + cfg.permits.toNat < 4294967296)
    (h2 : 2 * cfg.permits.toNat < 4294967296) : Wf (messageRules cfg n D) (nextMessage cfg) := by
  refine wf_checkAndFlow cfg rfl (by simpa [messageRules] using hN) h2 ?_ (Nat.le_refl _) rfl trivial
  intro b _
  cases b with
  | cons m rest => exact ⟨⟨trivial, trivial⟩, Nat.zero_le _, rfl, trivial⟩
  | nil =>
    refine ⟨⟨fun m hm => ?_, _, rfl⟩, Nat.le_refl _, rfl, trivial⟩
    obtain ⟨hm1, hm2, hm3⟩ := hm
    rcases unpack_yields cfg.decode m with ⟨r, rs, h1, _⟩ | ⟨_, _, h3⟩ | ⟨_, _, h3, _⟩ | ⟨_, _, h3, _⟩
    · simp only [h1]
      refine ⟨⟨⟨trivial, trivial⟩, trivial⟩, Nat.le_refl _, ?_, trivial⟩
      show weight m ≤ D * ((1 : UInt32).toNat + 0)
      simpa using hm3
    · exact absurd hm2 h3
    · exact absurd hm1 h3
    · exact absurd hm1 h3

/-- Rules for streams that leave nothing in the buffer: what a call counts is what it received, at most `D`. -/
def exactRules (cfg : Cfg T) (n D : Nat) (single : Bool) : Rules T where
  P := cfg.permits.toNat
  N := cfg.permits.toNat - 1 + D * n
  A := D
  cost := fun m d => weight m = d
  M := fun m => decodable cfg.decode m ∧ filled m ∧ weight m ≤ D ∧ (single = true → isSingle m = true)
  B := fun b => b = []

theorem wf_single (cfg : Cfg T) (n : Nat) (hN : cfg.permits.toNat - 1 + n + cfg.permits.toNat < 4294967296)
    (h2 : 2 * cfg.permits.toNat < 4294967296) : Wf (exactRules cfg n 1 true) (nextMessage cfg) := by
  refine wf_checkAndFlow cfg rfl (by simpa [exactRules] using hN) h2 ?_ (Nat.le_refl _) rfl trivial
  rintro b rfl
  refine ⟨⟨fun m hm => ?_, _, rfl⟩, Nat.le_refl _, rfl, trivial⟩
  obtain ⟨hm1, hm2, hm3, hm4⟩ := hm
  rcases unpack_yields cfg.decode m with ⟨r, rs, h1, _, _, _, h6⟩ | ⟨_, _, h3⟩ | ⟨_, _, h3, _⟩ | ⟨_, _, h3, _⟩
  · simp only [h1]
    refine ⟨⟨⟨trivial, trivial⟩, trivial⟩, Nat.le_refl _, ?_, trivial⟩
    show weight m = (1 : UInt32).toNat + 0
    cases m with
    | single => rfl
    | batch => cases hm4 rfl
  · exact absurd hm2 h3
  · exact absurd hm1 h3
  · exact absurd hm1 h3

theorem wf_batch (cfg : Cfg T) (n D k : Nat) (single : Bool) (hk : k = 0 ∨ D ≤ k) (hD : 0 < D)
    (hN : cfg.permits.toNat - 1 + D * n + cfg.permits.toNat < 4294967296)
    (hD2 : D < 4294967296) (h2 : 2 * cfg.permits.toNat < 4294967296) : Wf (exactRules cfg n D single) (nextBatch cfg k) := by
  refine wf_checkAndFlow cfg rfl (by simpa [exactRules] using hN) h2 ?_ (Nat.le_refl _) rfl trivial
  rintro b rfl
  dsimp only
  rw [pops_nil]
  rcases hk with rfl | hk
  · exact ⟨⟨⟨trivial, trivial⟩, trivial⟩, Nat.zero_le _, rfl, trivial⟩
  · have hk0 : ¬ (0 = k) := by omega
    simp only [List.length_nil, hk0, if_false, Nat.sub_zero, List.nil_append]
    refine ⟨⟨⟨fun m hm => ?_, _, rfl⟩, trivial⟩, Nat.le_refl _, rfl, trivial⟩
    obtain ⟨hm1, hm2, hm3, hm4⟩ := hm
    rcases unpack_yields cfg.decode m with ⟨r, rs, h1, _, _, _, h6⟩ | ⟨_, _, h3⟩ | ⟨_, _, h3, _⟩ | ⟨_, _, h3, _⟩
    · simp only [h1]
      have hl : (pops k (r :: rs)).2.length = weight m := by rw [pops_length, h6]; omega
      have hu : (UInt32.ofNat (pops k (r :: rs)).2.length).toNat = weight m := by
        rw [hl, UInt32.toNat_ofNat', Nat.mod_eq_of_lt (by omega)]
      refine ⟨⟨trivial, trivial⟩, ?_, ?_, trivial⟩
      · show (UInt32.ofNat (pops k (r :: rs)).2.length).toNat + 0 ≤ D
        omega
      · show weight m = (UInt32.ofNat (pops k (r :: rs)).2.length).toNat + 0
        omega
    · exact absurd hm2 h3
    · exact absurd hm1 h3
    · exact absurd hm1 h3

/-- `next_batch` alone leaves nothing in the buffer. -/
theorem pre_batch_nil (cfg : Cfg T) (n : Nat) : Pre List.Subperm (fun b => b = []) (fun _ => True) (yields cfg.decode) (nextBatch cfg n) := by
  apply pre_checkAndFlow
  rintro b rfl
  dsimp only
  rw [pops_nil]
  refine ⟨rfl, ?_⟩
  split
  · exact List.nil_subperm
  · refine ⟨⟨rfl, List.nil_subperm⟩, fun m _ => ?_, List.nil_subperm⟩
    rcases unpack_yields cfg.decode m with ⟨r, rs, h1, h2, _⟩ | ⟨h1, h2, _⟩ | ⟨h1, h2, _⟩ | ⟨h1, h2, _⟩
    · simp only [h1, h2, Held, handed, List.map_nil, List.append_nil, List.nil_append]
      have hq := (pops_perm (n - ([] : List (Received T)).length) (r :: rs)).map (Outcome.ok (α := Received T))
      rw [List.map_append] at hq
      exact (List.sublist_append_left _ _).subperm.trans hq.subperm
    · simp only [h1, h2, Held, handed, pops_nil, List.append_nil, List.map_nil]
      exact List.nil_subperm
    · simp only [h1, h2, Held, handed, List.map_nil, List.append_nil, List.nil_append]
      exact List.Subperm.refl _
    · simp only [h1, h2, Held, handed, List.map_nil, List.append_nil, List.nil_append]
      exact List.Subperm.refl _

/-! ## One call at a time -/

theorem live_one {s : State T} (hl : s.live ≤ 1) {i j : Nat} {t u : Task T} (ht : s.tasks[i]? = some t) (hu : s.tasks[j]? = some u)
    (h1 : t.stage.live = true) (h2 : u.stage.live = true) : i = j := by
  have key : ∀ (l : List (Task T)) (i j : Nat) (t u : Task T), l.countP (fun t => t.stage.live) ≤ 1 → l[i]? = some t → l[j]? = some u →
      t.stage.live = true → u.stage.live = true → i < j → False := by
    intro l
    induction l with
    | nil => intro i j t u _ h; simp at h
    | cons a l ih =>
      intro i j t u hc h1 h2 h3 h4 hij
      rw [List.countP_cons] at hc
      cases j with
      | zero => omega
      | succ j =>
        rw [List.getElem?_cons_succ] at h2
        cases i with
        | zero =>
          simp only [List.getElem?_cons_zero, Option.some.injEq] at h1
          subst h1
          rw [if_pos h3] at hc
          have : l.countP (fun t => t.stage.live) = 0 := by omega
          rw [List.countP_eq_zero] at this
          exact this u (List.mem_of_getElem? h2) h4
        | succ i =>
          rw [List.getElem?_cons_succ] at h1
          exact ih i j t u (by omega) h1 h2 h3 h4 (by omega)
  rcases Nat.lt_trichotomy i j with h | h | h
  · exact (key _ i j t u hl ht hu h1 h2 h).elim
  · exact h
  · exact (key _ j i u t hl hu ht h2 h1 h).elim

theorem total_one {s : State T} (hl : s.live ≤ 1) {i : Nat} {t : Task T} (ht : s.tasks[i]? = some t) (h1 : t.stage.live = true)
    (f : Code T → Nat) : total f s = onStage f t.stage := by
  have e := total_goto ht f .ended
  have h0 : total f (s.goto i t .ended) = 0 := by
    apply sum_zero
    intro x hx
    rw [List.mem_map] at hx
    obtain ⟨u, hu, rfl⟩ := hx
    obtain ⟨j, hj⟩ := List.getElem?_of_mem hu
    rcases upd hj with ⟨rfl, rfl⟩ | ⟨hne, hj⟩
    · rfl
    · cases hst : u.stage with
      | running c =>
        exact absurd (live_one hl hj ht (by rw [hst]; rfl) h1) hne
      | _ => rfl
  change _ = _ + 0 at e
  omega

/-- Exact accounting. -/
def Exact (r : Rules T) (s : State T) : Prop :=
  (∀ (i : Nat) (t : Task T) (m : UInt32) (k : Outcome Unit → Code T), s.tasks[i]? = some t → t.stage = .running (.flow m k) →
    m.toNat = r.P + s.permits.toNat ∧ r.P ≤ s.permits.toNat) ∧
  ∃ W f, s.used = W + (if total wipes s = 0 then s.permits.toNat else 0) + total owed s ∧
    s.grants = 2 * r.P + r.P * f + W ∧ s.granted.length = f + 1 ∧ r.P * f ≤ W ∧ W ≤ r.N * f

theorem Exact.congr {r : Rules T} {s s' : State T} (h : Exact r s) (h1 : s'.tasks = s.tasks) (h2 : s'.permits = s.permits)
    (h3 : s'.granted = s.granted) (h4 : s'.received = s.received) : Exact r s' := by
  unfold Exact State.used State.grants
  rw [h1, h2, h3, h4, total_congr h1, total_congr h1]
  exact h

/-- A step that neither counts nor grants. -/
theorem Exact.goto {r : Rules T} {s : State T} (h : Exact r s) {i : Nat} {t : Task T} (ht : s.tasks[i]? = some t) {st : Stage T}
    (h1 : onStage owed st = onStage owed t.stage) (h2 : onStage wipes st = onStage wipes t.stage)
    (h3 : ∀ m k, st = .running (.flow m k) → m.toNat = r.P + s.permits.toNat ∧ r.P ≤ s.permits.toNat) : Exact r (s.goto i t st) := by
  obtain ⟨g1, W, f, g2, g3⟩ := h
  refine ⟨?_, W, f, ?_, g3⟩
  · intro j u m k e1 e2
    rcases upd e1 with ⟨rfl, rfl⟩ | ⟨_, e1⟩
    · exact h3 m k e2
    · exact g1 j u m k e1 e2
  · have e1 := total_goto ht owed st
    have e2 := total_goto ht wipes st
    rw [show total owed (s.goto i t st) = total owed s by omega, show total wipes (s.goto i t st) = total wipes s by omega]
    exact g2

theorem plain_ne_flow {c : Code T} (h : plain c) {m : UInt32} {k : Outcome Unit → Code T} : c ≠ .flow m k := by
  rintro rfl; exact h

theorem Exact.step {r : Rules T} {cfg : Cfg T} {as : List Act} {s s' : State T} {a : Act} (h : Exact r s)
    (hl : Lawful r s) (hr : Run cfg as s) (hf : Fair r cfg 1 (as ++ [a])) (hc : ∀ m d, r.cost m d → weight m = d)
    (hs : step cfg s a = some s') (hv : s.live ≤ 1) : Exact r s' := by
  have hr' := Run.snoc hr hs
  cases step_cases hs with
  | deliver e => exact h.congr rfl rfl rfl rfl
  | close => exact h.congr rfl rfl rfl rfl
  | skip => exact h.congr rfl rfl rfl rfl
  | spawn j =>
    obtain ⟨_, _, w3, w4⟩ := hf.jobs j (by simp [Consumer.jobs])
    obtain ⟨g1, W, f, g2, g3⟩ := h
    refine ⟨?_, W, f, ?_, g3⟩
    · intro i t m k e1 e2
      rw [List.getElem?_append] at e1
      split at e1
      · exact g1 i t m k e1 e2
      · cases hx : i - s.tasks.length with
        | zero =>
          rw [hx] at e1
          simp only [List.getElem?_cons_zero, Option.some.injEq] at e1
          subst e1
          simp only [Stage.running.injEq] at e2
          exact absurd e2 (plain_ne_flow w4)
        | succ n => rw [hx] at e1; cases e1
    · have e1 : total owed { s with tasks := s.tasks ++ [⟨j, .running (j.code cfg)⟩] } = total owed s := by
        simp [total, onStage, w3]
      have e2 : total wipes { s with tasks := s.tasks ++ [⟨j, .running (j.code cfg)⟩] } = total wipes s := by
        simp [total, onStage, plain_wipes w4]
      rw [e1, e2]
      exact g2
  | ret i t ht o hc' =>
    have : ∀ f : Code T → Nat, onStage f (after t.job o) = 0 := by
      intro f
      cases he : after t.job o with
      | running c => exact absurd he (after_ne _ _ _)
      | _ => rfl
    refine (h.goto ht (st := after t.job o) ?_ ?_ ?_).congr rfl rfl rfl rfl
    · rw [this, hc']; rfl
    · rw [this, hc']; rfl
    · intro m k e; exact absurd e (after_ne _ _ _)
  | load i t ht k hc' =>
    rcases (hl.wf i t _ ht hc').1 s.permits (by have := hl.bound; omega) with ⟨w1, w2, ⟨w3, w4, w5⟩ | ⟨w3, m, f, w4, w5⟩⟩
    · refine h.goto ht (by rw [hc']; exact w2) (by rw [hc']; exact plain_wipes w5) ?_
      intro m k' e
      simp only [Stage.running.injEq] at e
      exact absurd e (plain_ne_flow w5)
    · rw [w4]
      refine h.goto ht (by rw [hc']; rfl) (by rw [hc']; rfl) ?_
      intro m' k' e
      cases e
      exact ⟨w5, w3⟩
  | store i t ht n' k hc' =>
    obtain ⟨rfl, w1, w2, w3, w4⟩ := (hl.wf i t _ ht hc').1
    have hlive : t.stage.live = true := by rw [hc']; rfl
    have o1 := total_one hv ht hlive owed
    have o2 := total_one hv ht hlive wipes
    rw [hc'] at o1 o2
    change _ = 0 at o1
    change _ = 1 at o2
    obtain ⟨g1, W, f, g2, g3⟩ := h
    have e1 := total_goto ht owed (.running k)
    have e2 := total_goto ht wipes (.running k)
    rw [hc'] at e1 e2
    change _ + 0 = _ + owed k at e1
    change _ + 1 = _ + wipes k at e2
    rw [w3] at e1
    rw [plain_wipes w4] at e2
    refine ⟨?_, W, f, ?_, g3⟩
    · intro j u m k' x1 x2
      rcases upd x1 with ⟨rfl, rfl⟩ | ⟨hne, x1⟩
      · simp only [Stage.running.injEq] at x2
        exact absurd x2 (plain_ne_flow w4)
      · exact absurd (live_one hv x1 ht (by rw [x2]; rfl) hlive) hne
    · rw [if_neg (by omega)] at g2
      show s.used = W + (if total wipes (s.goto i t (.running k)) = 0 then (0 : UInt32).toNat else 0) + total owed (s.goto i t (.running k))
      rw [show total owed (s.goto i t (.running k)) = total owed s by omega]
      simpa using g2
  | add i t ht n' k hc' =>
    obtain ⟨⟨w1, w2⟩, w3⟩ := hl.wf i t _ ht hc'
    have hlive : t.stage.live = true := by rw [hc']; rfl
    have o2 := total_one hv ht hlive wipes
    rw [hc'] at o2
    change _ = 0 at o2
    obtain ⟨g1, W, f, g2, g3⟩ := h
    have e1 := total_goto ht owed (.running k)
    have e2 := total_goto ht wipes (.running k)
    have e3 := total_ge ht (due r.A)
    rw [hc'] at e1 e2 e3
    change _ + (n'.toNat + owed k) = _ + owed k at e1
    change _ + 0 = _ + wipes k at e2
    change n'.toNat + due r.A k ≤ _ at e3
    rw [plain_wipes w2] at e2
    have hb := hl.bound
    have hsm := hf.small
    refine ⟨?_, W, f, ?_, g3⟩
    · intro j u m k' x1 x2
      rcases upd x1 with ⟨rfl, rfl⟩ | ⟨hne, x1⟩
      · simp only [Stage.running.injEq] at x2
        exact absurd x2 (plain_ne_flow w2)
      · exact absurd (live_one hv x1 ht (by rw [x2]; rfl) hlive) hne
    · rw [if_pos o2] at g2
      show s.used = W + (if total wipes (s.goto i t (.running k)) = 0 then (s.permits + n').toNat else 0) + total owed (s.goto i t (.running k))
      rw [if_pos (by omega), toNat_add_of_lt (by omega)]
      omega
  | flow i t ht n' k hc' ho =>
    obtain ⟨w1, ⟨w2, n2, k2, w3⟩, _⟩ := (hl.wf i t _ ht hc').1
    have hlive : t.stage.live = true := by rw [hc']; rfl
    have o2 := total_one hv ht hlive wipes
    have o1 := total_one hv ht hlive owed
    rw [hc'] at o1 o2
    change _ = 0 at o1
    change _ = 0 at o2
    obtain ⟨g1, W, f, g2, g3, g4, g5, g6⟩ := h
    have e1 := total_goto ht owed (.running (k (.ok ())))
    have e2 := total_goto ht wipes (.running (k (.ok ())))
    rw [hc', w3] at e1 e2
    change _ + 0 = _ + 0 at e1
    change _ + 0 = _ + 1 at e2
    obtain ⟨x1, x2⟩ := g1 i t n' k ht hc'
    refine ⟨?_, W + s.permits.toNat, f + 1, ?_, ?_, ?_, ?_, ?_⟩
    · intro j u m k' x1 x2
      rcases upd x1 with ⟨rfl, rfl⟩ | ⟨hne, x1⟩
      · simp only [Stage.running.injEq] at x2
        rw [w3] at x2; cases x2
      · exact absurd (live_one hv x1 ht (by rw [x2]; rfl) hlive) hne
    · rw [if_pos o2] at g2
      show s.used = W + s.permits.toNat + (if total wipes (s.goto i t (.running (k (.ok ())))) = 0 then s.permits.toNat else 0) +
        total owed (s.goto i t (.running (k (.ok ()))))
      rw [w3, if_neg (by omega)]
      omega
    · show ((s.granted ++ [n']).map (·.toNat)).sum = _
      rw [List.map_append, List.sum_append]
      have : (s.granted.map (·.toNat)).sum = 2 * r.P + r.P * f + W := g3
      rw [this, Nat.mul_add]
      simp only [List.map_cons, List.map_nil, List.sum_cons, List.sum_nil]
      omega
    · show (s.granted ++ [n']).length = _
      simp [g4]
    · rw [Nat.mul_add]; omega
    · have := hl.bound
      rw [Nat.mul_add]; omega
  | refuse i t ht n' k hc' ho =>
    obtain ⟨w1, _, o, w2⟩ := (hl.wf i t _ ht hc').1
    rw [w2]
    exact h.goto ht (by rw [hc']; rfl) (by rw [hc']; rfl) (by intro m k e; cases e)
  | lock i t ht k hc' hh =>
    have hb : r.B s.buffer := hf.buf as s (List.prefix_append _ _) hr
    obtain ⟨w1, w2, w3, w4⟩ := (hl.wf i t _ ht hc').1 s.buffer hb
    refine (h.goto ht (st := .running (k s.buffer)) (by rw [hc']; exact w3) (by rw [hc']; exact plain_wipes w4) ?_).congr rfl rfl rfl rfl
    intro m k' e
    simp only [Stage.running.injEq] at e
    exact absurd e (plain_ne_flow w4)
  | write i t ht b k hc' =>
    obtain ⟨⟨w1, w2⟩, _⟩ := hl.wf i t _ ht hc'
    refine (h.goto ht (st := .running k) (by rw [hc']; rfl) (by rw [hc']; exact plain_wipes w2) ?_).congr rfl rfl rfl rfl
    intro m k' e
    simp only [Stage.running.injEq] at e
    exact absurd e (plain_ne_flow w2)
  | recv i t ht k hc' m q' hq =>
    have hm : r.M m := hf.msgs m (mem_delivered_of_received hr' (by simp))
    obtain ⟨w1, w2, w3, w4⟩ := (hl.wf i t _ ht hc').1.1 m hm
    obtain ⟨g1, W, f, g2, g3⟩ := h
    have e1 := total_goto ht owed (.running (k (.ok m)))
    have e2 := total_goto ht wipes (.running (k (.ok m)))
    rw [hc'] at e1 e2
    change _ + 0 = _ + owed (k (.ok m)) at e1
    change _ + 0 = _ + wipes (k (.ok m)) at e2
    rw [plain_wipes w4] at e2
    have hw := hc m _ w3
    refine ⟨?_, W, f, ?_, g3⟩
    · intro j u m' k' x1 x2
      rcases upd x1 with ⟨rfl, rfl⟩ | ⟨hne, x1⟩
      · simp only [Stage.running.injEq] at x2
        exact absurd x2 (plain_ne_flow w4)
      · exact g1 j u m' k' x1 x2
    · show ((s.received ++ [m]).map weight).sum = W + (if total wipes (s.goto i t (.running (k (.ok m)))) = 0 then s.permits.toNat else 0) +
        total owed (s.goto i t (.running (k (.ok m))))
      rw [List.map_append, List.sum_append, show total wipes (s.goto i t (.running (k (.ok m)))) = total wipes s by omega]
      have : (s.received.map weight).sum = W + (if total wipes s = 0 then s.permits.toNat else 0) + total owed s := g2
      rw [this]
      simp only [List.map_cons, List.map_nil, List.sum_cons, List.sum_nil]
      omega
  | gone i t ht k hc' hq ho =>
    obtain ⟨o, w2⟩ := (hl.wf i t _ ht hc').1.2
    rw [w2]
    exact h.goto ht (by rw [hc']; rfl) (by rw [hc']; rfl) (by intro m k e; cases e)
  | plugins i t ht m hc' _ =>
    exact (h.goto ht (st := .offering m 0) (by rw [hc']; rfl) (by rw [hc']; rfl) (by intro m k e; cases e)).congr rfl rfl rfl rfl
  | loop i t ht m k hc' _ =>
    refine (h.goto ht (st := .running (nextMessage cfg)) (by rw [hc']; rfl) (by rw [hc']; rfl) ?_).congr rfl rfl rfl rfl
    intro m k e
    cases e
  | accepted i t ht m k hc' _ =>
    exact (h.goto ht (st := .offering m (k + 1)) (by rw [hc']; rfl) (by rw [hc']; rfl) (by intro m k e; cases e)).congr rfl rfl rfl rfl
  | rejected i t ht m k hc' _ _ _ =>
    exact (h.goto ht (st := .ended) (by rw [hc']; rfl) (by rw [hc']; rfl) (by intro m k e; cases e)).congr rfl rfl rfl rfl
  | cancel i t ht hw =>
    have : onStage owed t.stage = 0 ∧ onStage wipes t.stage = 0 := by
      cases hst : t.stage with
      | running c =>
        rw [hst] at hw
        cases c <;> first | exact ⟨rfl, rfl⟩ | (simp [Stage.waits] at hw)
      | _ => exact ⟨rfl, rfl⟩
    exact (h.goto ht (st := .ended) this.1.symm this.2.symm (by intro m k e; cases e)).congr rfl rfl rfl rfl

theorem atMost_live {cfg : Cfg T} {n : Nat} {as : List Act} {s : State T} (h : AtMost cfg n as s) : s.live ≤ n := by
  cases h with
  | nil => simp [init, State.live]
  | snoc _ _ hl => exact hl

theorem exact_of {r : Rules T} {cfg : Cfg T} {as : List Act} {s : State T} (h : AtMost cfg 1 as s) (hf : Fair r cfg 1 as)
    (hc : ∀ m d, r.cost m d → weight m = d) : Exact r s := by
  induction h with
  | nil =>
    refine ⟨fun i t m k h => by simp [init] at h, 0, 0, by simp [init, State.used, total], ?_, by simp [init], by simp, by simp⟩
    have h1 := hf.permits
    have h2 := hf.twice
    show (cfg.permits * 2).toNat + 0 = _
    rw [UInt32.toNat_mul, h1, show (2 : UInt32).toNat = 2 from rfl, Nat.mod_eq_of_lt (by omega)]
    omega
  | @snoc as s s' a h hs hl ih => exact (ih hf.head).step (lawful h hf.head) (atMost_run h) hf hc hs (atMost_live h)

end Neutron.Consumer
