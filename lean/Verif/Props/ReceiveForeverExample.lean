import Verif.Props.ReceiveForever

/-!
# Infinite executions of a consumer, concretely: C145
-/

namespace Neutron.Props

open Neutron Neutron.Consumer Neutron.Sys

variable {T : Type}

theorem consumer_snoc {cfg : Consumer.Cfg T} {x : Consumer.Act} : ∀ (as : List Consumer.Act) (s : Consumer.State T),
    Consumer.exec cfg s (as ++ [x]) = (Consumer.exec cfg s as).bind fun s' => Consumer.step cfg s' x := by
  intro as
  induction as with
  | nil =>
    intro s
    simp only [List.nil_append, Consumer.exec]
    cases h : Consumer.step cfg s x <;> simp [h]
  | cons y as ih =>
    intro s
    simp only [List.cons_append, Consumer.exec]
    cases Consumer.step cfg s y with
    | none => rfl
    | some s' => exact ih s'

theorem consumer_take {cfg : Consumer.Cfg T} {as : List Consumer.Act} : ∀ {s e : Consumer.State T}, Consumer.exec cfg s as = some e → ∀ n,
    ∃ t, Consumer.exec cfg s (as.take n) = some t := by
  induction as with
  | nil => intro s e _ n; exact ⟨s, by simp [Consumer.exec]⟩
  | cons y as ih =>
    intro s e h n
    cases n with
    | zero => exact ⟨s, rfl⟩
    | succ n =>
      simp only [Consumer.exec] at h
      simp only [List.take_succ_cons, Consumer.exec]
      cases hy : Consumer.step cfg s y with
      | none => rw [hy] at h; cases h
      | some s' => rw [hy] at h; exact ih h n

/-- The finite execution `as`, and then `tail` forever. -/
theorem play {cfg : Consumer.Cfg T} {as : List Consumer.Act} {tail : Option Consumer.Act} {e : Nat → Consumer.State T}
    (he : Consumer.exec cfg (Consumer.init cfg) as = some (e 0))
    (ht : match tail with
      | some a => ∀ n, Consumer.step cfg (e n) a = some (e (n + 1))
      | none => ∀ n, e (n + 1) = e n) :
    ∃ (σ : Nat → Consumer.State T) (acts : Nat → Option Consumer.Act), Consumer.Forever cfg [] σ acts ∧
      (∀ n, n ≤ as.length → Consumer.exec cfg (Consumer.init cfg) (as.take n) = some (σ n)) ∧ (∀ n, σ (n + as.length) = e n) ∧
      ∀ n, acts n = (as[n]?).or tail := by
  have hσ : ∀ n, n < as.length → Consumer.exec cfg (Consumer.init cfg) (as.take n) =
      some ((Consumer.exec cfg (Consumer.init cfg) (as.take n)).getD (e 0)) := by
    intro n _
    obtain ⟨t, ht⟩ := consumer_take he n
    rw [ht]; rfl
  have hstep : ∀ n (hn : n < as.length), Consumer.step cfg ((Consumer.exec cfg (Consumer.init cfg) (as.take n)).getD (e 0)) as[n] =
      some ((Consumer.exec cfg (Consumer.init cfg) (as.take (n + 1))).getD (e 0)) := by
    intro n hn
    obtain ⟨t, ht⟩ := consumer_take he n
    obtain ⟨u, hu⟩ := consumer_take he (n + 1)
    have hu' := hu
    rw [show as.take (n + 1) = as.take n ++ [as[n]] by simp, consumer_snoc, ht] at hu'
    rw [ht, hu]
    exact hu'
  refine ⟨fun n => if n < as.length then (Consumer.exec cfg (Consumer.init cfg) (as.take n)).getD (e 0) else e (n - as.length),
    fun n => (as[n]?).or tail, ⟨?_, ?_⟩, ?_, ?_, fun _ => rfl⟩
  · by_cases h0 : 0 < as.length
    · simp only [h0, if_true, List.take_zero, Consumer.exec, Option.getD_some]
      exact .nil
    · have : as = [] := List.length_eq_zero_iff.mp (by omega)
      subst this
      simp only [h0, if_false]
      have he : Consumer.init cfg = e 0 := Option.some.inj he
      simp only [List.length_nil, Nat.sub_zero, ← he]
      exact .nil
  · intro n
    by_cases hn : n < as.length
    · have hs := hstep n hn
      simp only [hn, if_true, List.getElem?_eq_getElem hn, Option.some_or]
      by_cases hn1 : n + 1 < as.length
      · simp only [hn1, if_true]
        exact hs
      · simp only [hn1, if_false, show n + 1 - as.length = 0 by omega]
        rw [hs, List.take_of_length_le (by omega), he]
        rfl
    · simp only [hn, if_false, show ¬ n + 1 < as.length by omega, List.getElem?_eq_none (by omega : as.length ≤ n), Option.none_or,
        show n + 1 - as.length = (n - as.length) + 1 by omega]
      cases tail with
      | none => exact ht _
      | some a => exact ht _
  · intro n hn
    by_cases hn' : n < as.length
    · simp only [hn', if_true]; exact hσ n hn'
    · simp only [hn', if_false]
      rw [List.take_of_length_le (by omega), he, show n - as.length = 0 by omega]
  · intro n
    simp only [show ¬ n + as.length < as.length by omega, if_false, Nat.add_sub_cancel]

theorem ended_stays {cfg : Consumer.Cfg T} {s s' : Consumer.State T} {a : Consumer.Act} (hs : Consumer.step cfg s a = some s') {i : Nat}
    {t : Consumer.Task T} (ht : s.tasks[i]? = some t) (he : t.stage = .ended) : s'.tasks[i]? = some t := by
  refine other_task (Consumer.step_cases hs) ht ?_ ?_ ?_ ?_
  · rintro rfl; simp [Consumer.step, ht, runTask, he] at hs
  · rintro rfl; simp [Consumer.step, ht, he] at hs
  · rintro r rfl; simp [Consumer.step, ht, he] at hs
  · rintro rfl; simp [Consumer.step, ht, he, Stage.waits] at hs

/-- A call that is there at the end was there ever since it was made. -/
theorem alive_back {cfg : Consumer.Cfg T} {past : List Consumer.Act} {σ : Nat → Consumer.State T} {acts : Nat → Option Consumer.Act}
    (h : Consumer.Forever cfg past σ acts) {i n m : Nat} (hnm : n ≤ m) (hi : i < (σ n).tasks.length) (hm : (σ m).alive i) : (σ n).alive i := by
  cases ht : (σ n).tasks[i]? with
  | none => rw [List.getElem?_eq_none_iff] at ht; omega
  | some t =>
    refine ⟨t, ht, fun he => ?_⟩
    have key : ∀ k, ∃ t', (σ (n + k)).tasks[i]? = some t' ∧ t'.stage = .ended := by
      intro k
      induction k with
      | zero => exact ⟨t, ht, he⟩
      | succ k ih =>
        obtain ⟨t', h1, h2⟩ := ih
        have hs := h.steps (n + k)
        split at hs
        · exact ⟨t', ended_stays hs h1 h2, h2⟩
        · rw [show n + (k + 1) = n + k + 1 from rfl, hs]; exact ⟨t', h1, h2⟩
    obtain ⟨t', h1, h2⟩ := key (m - n)
    rw [show n + (m - n) = m by omega] at h1
    obtain ⟨t'', h3, h4⟩ := hm
    rw [h1] at h3
    cases h3
    exact h4 h2

namespace ReceiveExample

/-- One `consume` waits; a message arrives, and the plugin gets it. -/
abbrev served : List Consumer.Act := [.spawn .consume] ++ go 0 2 ++ [one 1 [7]] ++ go 0 5 ++ [.offer 0 (.ok ())] ++ go 0 3

abbrev cfgP : Consumer.Cfg UInt8 := byteCfg 250 1

def served_end : Consumer.State UInt8 := (Consumer.exec cfgP (Consumer.init cfgP) served).getD (Consumer.init cfgP)

theorem served_exec : Consumer.exec cfgP (Consumer.init cfgP) served = some served_end := rfl

theorem served_run : ∃ (σ : Nat → Consumer.State UInt8) (acts : Nat → Option Consumer.Act), Consumer.Forever cfgP [] σ acts ∧
    Consumer.Attended cfgP σ acts ∧ (∀ n, n ≤ 13 → Consumer.exec cfgP (Consumer.init cfgP) (served.take n) = some (σ n)) ∧
    (∀ n, σ (n + 13) = served_end) ∧ ∀ n, acts n = served[n]? := by
  obtain ⟨σ, acts, h1, h2, h3, h4⟩ := play (tail := none) (e := fun _ => served_end) served_exec (fun _ => rfl)
  have hend : ∀ n, 13 ≤ n → σ n = served_end := fun n hn => by
    have := h3 (n - 13)
    rwa [show n - 13 + served.length = n by show n - 13 + 13 = n; omega] at this
  refine ⟨σ, acts, h1, ⟨fun n => ?_, fun i hag => ?_, fun i hag => ?_⟩, h2, fun n => hend _ (by omega), fun n => by rw [h4 n, Option.or_none]⟩
  · by_cases hn : n < 13
    · have : ∀ n, n < 13 → ((Consumer.exec cfgP (Consumer.init cfgP) (served.take n)).map (·.isOpen)) = some true := by
        intro n hn
        rcases (show n = 0 ∨ n = 1 ∨ n = 2 ∨ n = 3 ∨ n = 4 ∨ n = 5 ∨ n = 6 ∨ n = 7 ∨ n = 8 ∨ n = 9 ∨ n = 10 ∨ n = 11 ∨ n = 12 by omega) with
          rfl | rfl | rfl | rfl | rfl | rfl | rfl | rfl | rfl | rfl | rfl | rfl | rfl <;> rfl
      have := this n hn
      rw [h2 n (by show n ≤ 13; omega)] at this
      exact Option.some.inj this
    · rw [hend n (by omega)]; rfl
  · obtain ⟨m, hm, s', hs⟩ := hag 13
    rw [hend m hm] at hs
    cases i with
    | zero => cases hs
    | succ i => cases hs
  · obtain ⟨m, hm, t, x, k, ht, hst, _⟩ := hag 13
    rw [hend m hm] at ht
    cases i with
    | zero => cases ht; cases hst
    | succ i => cases ht

theorem history_take {acts : Nat → Option Consumer.Act} {as : List Consumer.Act} (h : ∀ n, acts n = as[n]?) (n : Nat) :
    Consumer.history [] acts n = as.take n := by
  induction n with
  | zero => simp [Consumer.history]
  | succ n ih => rw [Consumer.history, ih, h, List.take_add_one]

theorem served_jobs (n : Nat) : jobs (served.take n) <+: [.consume] := by
  rcases Nat.lt_or_ge n 13 with hn | hn
  · rcases (show n = 0 ∨ n = 1 ∨ n = 2 ∨ n = 3 ∨ n = 4 ∨ n = 5 ∨ n = 6 ∨ n = 7 ∨ n = 8 ∨ n = 9 ∨ n = 10 ∨ n = 11 ∨ n = 12 by omega) with
      rfl | rfl | rfl | rfl | rfl | rfl | rfl | rfl | rfl | rfl | rfl | rfl | rfl <;> decide
  · rw [List.take_of_length_le hn]; decide

/-- The hypotheses of `C145_all_handed_out`, `C145_all_offered`, `C145_consume` and `C145_waiting` are met: a `consume` is called; it
waits; a message arrives, which the call returns inside and gives to the only plugin; then it waits, forever. -/
example : ∃ (σ : Nat → Consumer.State UInt8) (acts : Nat → Option Consumer.Act), Consumer.Forever cfgP [] σ acts ∧
    Consumer.Attended cfgP σ acts ∧ (∀ n, jobs (Consumer.history [] acts n) <+: [.consume]) ∧ (∀ m, 1 ≤ m → (σ m).alive 0) ∧
    (σ 1).jobOf 0 = some .consume ∧ NotDropped acts 0 4 ∧ (σ 4).waiting 0 ∧ .message (.single 3 (msgId 1) [7]) ∈ (σ 4).inbox ∧
    (∃ m o, 4 ≤ m ∧ (σ (m + 1)).results = (σ m).results ++ [(0, o)]) ∧
    (∃ m, 4 ≤ m ∧ [.ok ⟨7, msgId 1⟩] <+: (σ m).handedOut) ∧ (∃ m, 4 ≤ m ∧ (0, 0, ⟨7, msgId 1⟩, .ok ()) ∈ (σ m).offers) ∧
    ∃ m, 13 ≤ m ∧ ∀ x, x ∈ (σ 13).handedTo 0 → ∀ k, k < 1 → (0, k, x, .ok ()) ∈ (σ m).offers := by
  obtain ⟨σ, acts, h1, h2, h3, h4, h5⟩ := served_run
  have hh := history_take h5
  have hj : ∀ n, jobs (Consumer.history [] acts n) <+: [.consume] := fun n => by rw [hh]; exact served_jobs n
  have hend : ∀ n, 13 ≤ n → σ n = served_end := fun n hn => by
    have := h4 (n - 13)
    rwa [show n - 13 + 13 = n by omega] at this
  have hal : ∀ m, 1 ≤ m → (σ m).alive 0 := by
    intro m hm
    refine alive_back h1 (show m ≤ m + 13 by omega) ?_ ?_
    · have : (σ m).tasks.map (·.job) = jobs (served.take m) := by rw [Consumer.task_jobs (h1.run m), hh]
      have hx := congrArg List.length this
      rw [List.length_map] at hx
      rw [hx]
      rcases Nat.lt_or_ge m 13 with hn | hn
      · rcases (show m = 1 ∨ m = 2 ∨ m = 3 ∨ m = 4 ∨ m = 5 ∨ m = 6 ∨ m = 7 ∨ m = 8 ∨ m = 9 ∨ m = 10 ∨ m = 11 ∨ m = 12 by omega) with
          rfl | rfl | rfl | rfl | rfl | rfl | rfl | rfl | rfl | rfl | rfl | rfl <;> decide
      · rw [List.take_of_length_le hn]; decide
    · rw [h4]; exact ⟨_, rfl, by intro h; cases h⟩
  have hnd : NotDropped acts 0 4 := by
    intro m _ he
    rw [h5] at he
    have := List.mem_of_getElem? he
    simp [served, Consumer.go, one] at this
  have e1 : σ 1 = _ := (Option.some.inj (h3 1 (by omega))).symm
  have e4 : σ 4 = _ := (Option.some.inj (h3 4 (by omega))).symm
  have hjob : (σ 1).jobOf 0 = some .consume := by rw [e1]; rfl
  have hw : (σ 4).waiting 0 := by rw [e4]; exact ⟨_, _, rfl, rfl⟩
  have hin : .message (.single 3 (msgId 1) [7]) ∈ (σ 4).inbox := by rw [e4]; exact List.mem_singleton.mpr rfl
  have hst : stream cfgP (Consumer.history [] acts 4) = [.ok ⟨7, msgId 1⟩] := by rw [hh]; rfl
  refine ⟨σ, acts, h1, h2, hj, hal, hjob, hnd, hw, hin, C145_waiting h1 h2 hw hin hnd, ?_, ?_, ?_⟩
  · obtain ⟨m, hm, hp⟩ := C145_all_handed_out h1 h2 (fun n k hk => by
      have := (hj n).subset hk
      simp at this) hal 4
    rw [hst] at hp
    exact ⟨m, hm, hp⟩
  · obtain ⟨m, hm, hp⟩ := C145_consume h1 h2 hj hal 4
    exact ⟨m, hm, hp _ (by rw [hst]; simp) 0 (by decide)⟩
  · exact C145_all_offered h1 h2 hjob hal 13

/-- A `next_message` and a `next_batch` compete; two messages arrive. -/
abbrev both : List Consumer.Act := [.spawn .message, .spawn (.batch 2)] ++ Consumer.go 0 2 ++ Consumer.go 1 1 ++ [one 1 [7]] ++
  Consumer.go 0 4 ++ Consumer.go 1 2 ++ [one 2 [8]] ++ Consumer.go 1 3

def both_end : Consumer.State UInt8 := (Consumer.exec cfgP (Consumer.init cfgP) both).getD (Consumer.init cfgP)

theorem both_exec : Consumer.exec cfgP (Consumer.init cfgP) both = some both_end := rfl

/-- The hypotheses of `C145_returns` are met: a `next_message` and a `next_batch` are called; messages arrive forever, and both return. -/
example : ∃ (σ : Nat → Consumer.State UInt8) (acts : Nat → Option Consumer.Act), Consumer.Forever cfgP [] σ acts ∧
    Consumer.Attended cfgP σ acts ∧ (AgainAndAgain fun n => ∃ x, acts n = some (.deliver (.message x))) ∧ (σ 2).alive 0 ∧ (σ 2).alive 1 ∧
    (σ 2).jobOf 0 = some .message ∧ (σ 2).jobOf 1 = some (.batch 2) ∧ NotDropped acts 0 2 ∧ NotDropped acts 1 2 ∧
    (∃ m o, 2 ≤ m ∧ (σ (m + 1)).results = (σ m).results ++ [(0, o)]) ∧ ∃ m o, 2 ≤ m ∧ (σ (m + 1)).results = (σ m).results ++ [(1, o)] := by
  obtain ⟨σ, acts, h1, h2, h3, h4⟩ := play (tail := some (one 3 [9]))
    (e := fun n => { both_end with inbox := List.replicate n (.message (.single 3 (msgId 3) [9])) }) both_exec (by
      intro n
      simp only [Consumer.step, one, show both_end.isOpen = true from rfl, if_true, List.replicate_succ'])
  have hlen : both.length = 16 := rfl
  have hend : ∀ n, 16 ≤ n → ∃ q, σ n = { both_end with inbox := q } := fun n hn => ⟨_, by
    have := h3 (n - 16)
    rwa [hlen, show n - 16 + 16 = n by omega] at this⟩
  have e2 : σ 2 = _ := (Option.some.inj (h2 2 (by rw [hlen]; omega))).symm
  have hA : Consumer.Attended cfgP σ acts := by
    refine ⟨fun n => ?_, fun i hag => ?_, fun i hag => ?_⟩
    · by_cases hn : n < 16
      · have : ∀ n, n < 16 → ((Consumer.exec cfgP (Consumer.init cfgP) (both.take n)).map (·.isOpen)) = some true := by
          intro n hn
          rcases (show n = 0 ∨ n = 1 ∨ n = 2 ∨ n = 3 ∨ n = 4 ∨ n = 5 ∨ n = 6 ∨ n = 7 ∨ n = 8 ∨ n = 9 ∨ n = 10 ∨ n = 11 ∨ n = 12 ∨ n = 13 ∨
            n = 14 ∨ n = 15 by omega) with
            rfl | rfl | rfl | rfl | rfl | rfl | rfl | rfl | rfl | rfl | rfl | rfl | rfl | rfl | rfl | rfl <;> rfl
        have := this n hn
        rw [h2 n (by rw [hlen]; omega)] at this
        exact Option.some.inj this
      · obtain ⟨q, hq⟩ := hend n (by omega)
        rw [hq]; rfl
    · obtain ⟨m, hm, s', hs⟩ := hag 16
      obtain ⟨q, hq⟩ := hend m hm
      rw [hq] at hs
      cases i with
      | zero => cases hs
      | succ i => cases i <;> cases hs
    · obtain ⟨m, hm, t, x, k, ht, hst, _⟩ := hag 16
      obtain ⟨q, hq⟩ := hend m hm
      rw [hq] at ht
      cases i with
      | zero => cases ht; cases hst
      | succ i =>
        cases i with
        | zero => cases ht; cases hst
        | succ i => cases ht
  have hmore : AgainAndAgain fun n => ∃ x, acts n = some (.deliver (.message x)) := fun n => ⟨n + 16, by omega, _, by
    rw [h4, List.getElem?_eq_none (by rw [hlen]; omega)]; rfl⟩
  have hnd : ∀ i, NotDropped acts i 2 := by
    intro i m _ he
    rw [h4] at he
    cases hb : both[m]? with
    | none => rw [hb] at he; cases he
    | some a =>
      rw [hb] at he
      cases he
      have := List.mem_of_getElem? hb
      simp [both, Consumer.go, one] at this
  have a0 : (σ 2).alive 0 := by rw [e2]; exact ⟨_, rfl, by intro h; cases h⟩
  have a1 : (σ 2).alive 1 := by rw [e2]; exact ⟨_, rfl, by intro h; cases h⟩
  have j0 : (σ 2).jobOf 0 = some .message := by rw [e2]; rfl
  have j1 : (σ 2).jobOf 1 = some (.batch 2) := by rw [e2]; rfl
  exact ⟨σ, acts, h1, hA, hmore, a0, a1, j0, j1, hnd 0, hnd 1, C145_returns h1 hA hmore a0 (by rw [j0]; simp) (hnd 0),
    C145_returns h1 hA hmore a1 (by rw [j1]; simp) (hnd 1)⟩

end ReceiveExample

end Neutron.Props
