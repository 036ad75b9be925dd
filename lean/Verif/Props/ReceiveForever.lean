import Verif.Proof.ConsumerForever
import Verif.Proof.ConsumerPlugins

/-!
# C145: under a fair scheduler everything that arrives is handed out

Infinite executions and fairness are those of `Spec/ConsumerForever.lean`; `stream` and `handedOut` those of `Spec/Consumer.lean`.
-/

namespace Neutron.Props

open Neutron Neutron.Consumer Neutron.Sys

variable {T : Type}

section
variable {cfg : Consumer.Cfg T} {past : List Consumer.Act} {σ : Nat → Consumer.State T} {acts : Nat → Option Consumer.Act}

theorem straight_gets (h : Consumer.Forever cfg past σ acts) (hA : Attended cfg σ acts) {i : Nat} (c : Code T) : Straight c → ∀ {n : Nat},
    NotDropped acts i n → atCode (σ n) i c → Gets σ i n := by
  induction c with
  | ret o =>
    intro _ n hn hc
    rcases Consumer.progress h hA _ hn hc with h1 | ⟨m, k, hm, hl⟩ | ⟨m, k, hm, hl⟩
    · exact h1
    all_goals
      obtain ⟨m', hm', ⟨t, ht, hst⟩, ha⟩ := Consumer.taken h hA hn hc fun _ _ _ _ => ⟨_, rfl⟩
      refine ⟨m', o, hm', ?_, t, ht, hst⟩
      have hs := h.steps m'
      rw [ha] at hs
      simp only [Consumer.step, ht, runTask, hst, runCode, Option.some.injEq] at hs
      rw [← hs]; rfl
  | add x k ih =>
    intro hs n hn hc
    obtain ⟨m, hm, ⟨t, ht, hst⟩, ha⟩ := Consumer.taken h hA hn hc fun _ _ _ _ => ⟨_, rfl⟩
    have hs' := h.steps m
    rw [ha] at hs'
    simp only [Consumer.step, ht, runTask, hst, runCode, Option.some.injEq] at hs'
    exact (ih hs (n := m + 1) (fun k hk => hn k (by omega)) (by rw [← hs']; exact ⟨_, upd_self ht, rfl⟩)).mono (by omega)
  | write x k ih =>
    intro hs n hn hc
    obtain ⟨m, hm, ⟨t, ht, hst⟩, ha⟩ := Consumer.taken h hA hn hc fun _ _ _ _ => ⟨_, rfl⟩
    have hs' := h.steps m
    rw [ha] at hs'
    simp only [Consumer.step, ht, runTask, hst, runCode, Option.some.injEq] at hs'
    exact (ih hs (n := m + 1) (fun k hk => hn k (by omega)) (by rw [← hs']; exact ⟨_, upd_self ht, rfl⟩)).mono (by omega)
  | _ => exact fun hs => hs.elim

theorem pending_of_mem {q : List Inbound} {x : Message} (h : .message x ∈ q) : pendingIn q ≠ [] := by
  intro e
  have : x ∈ pendingIn q := List.mem_filterMap.mpr ⟨_, h, rfl⟩
  rw [e] at this; cases this

/-- C145. A call that waits for a message returns once one is in the channel, if the scheduler does not neglect the calls: whatever the
other calls do, the message is for this one. -/
theorem C145_waiting (h : Consumer.Forever cfg past σ acts) (hA : Attended cfg σ acts) {i n : Nat} (hw : (σ n).waiting i) {x : Message}
    (hx : .message x ∈ (σ n).inbox) (hn : NotDropped acts i n) :
    ∃ m o, n ≤ m ∧ (σ (m + 1)).results = (σ m).results ++ [(i, o)] := by
  obtain ⟨t, k, ht, hst⟩ := hw
  rcases until_or (Q := fun m => atCode (σ m) i (.recv k)) (E := fun m => ∃ x, atCode (σ (m + 1)) i (k (.ok x))) ⟨t, ht, hst⟩
    (fun m hm hq he => by
      by_cases ha : acts m = some (.run i)
      · obtain ⟨t, ht, hst⟩ := hq
        have hs := h.steps m
        rw [ha] at hs
        simp only [Consumer.step, ht, runTask, hst, runCode] at hs
        split at hs
        · simp only [Option.some.injEq] at hs
          exact absurd ⟨_, by rw [← hs]; exact ⟨_, upd_self ht, rfl⟩⟩ he
        · simp only [Option.some.injEq] at hs
          rw [← hs]; exact ⟨t, ht, hst⟩
        · rw [hA.isOpen m, if_pos rfl] at hs; cases hs
      · exact code_kept h hA.isOpen hq ha (hn m hm)) with ⟨m, hm, hq, y, hy⟩ | hall
  · obtain ⟨m', o, h1, h2, _⟩ := straight_gets h hA _ (recv_straight (h.run m) hq y) (n := m + 1) (fun k hk => hn k (by omega)) hy
    exact ⟨m', o, by omega, h2.symm⟩
  · exact absurd (nothing_pending h hA hall n (Nat.le_refl _)) (pending_of_mem hx)

theorem not_forever (hm : AgainAndAgain fun n => ∃ x, acts n = some (.deliver (.message x))) (h : Consumer.Forever cfg past σ acts) {n : Nat} :
    ¬ ∀ m, n ≤ m → pendingIn (σ m).inbox = [] := by
  intro hp
  obtain ⟨m, hm, x, ha⟩ := hm n
  have hs := h.steps m
  rw [ha] at hs
  simp only [Consumer.step] at hs
  split at hs
  · simp only [Option.some.injEq] at hs
    refine pending_of_mem (q := (σ (m + 1)).inbox) (x := x) ?_ (hp (m + 1) (by omega))
    rw [← hs]; simp
  · cases hs

/-- C145. If messages keep arriving and no call is neglected, every `next_message` and `next_batch` returns, however many calls compete. -/
theorem C145_returns (h : Consumer.Forever cfg past σ acts) (hA : Attended cfg σ acts)
    (hm : AgainAndAgain fun n => ∃ x, acts n = some (.deliver (.message x))) {i n : Nat} (hl : (σ n).alive i)
    (hj : (σ n).jobOf i ≠ some .consume) (hn : NotDropped acts i n) :
    ∃ m o, n ≤ m ∧ (σ (m + 1)).results = (σ m).results ++ [(i, o)] := by
  obtain ⟨t, ht, hst⟩ := hl
  have hc : ∃ c, t.stage = .running c := by
    refine Classical.byContradiction fun hx => hj ?_
    have := (along (h.run n) (M := fun _ => True) fun _ _ => trivial).consume i t ht (fun c e => hx ⟨c, e⟩) hst
    simp [State.jobOf, ht, this]
  obtain ⟨c, hc⟩ := hc
  rcases gets_or_waits h hA hn ⟨t, ht, hc⟩ with ⟨m, o, h1, h2, _⟩ | ⟨j, m, k, h1, h2⟩
  · exact ⟨m, o, h1, h2.symm⟩
  · exact absurd (fun m' hm' => (h2 m' hm').2) (not_forever hm h)

/-! ### Everything is handed out -/

theorem not_dropped (h : Consumer.Forever cfg past σ acts) {i n : Nat} (hl : ∀ m, n ≤ m → (σ m).alive i) : NotDropped acts i n := by
  intro m hm ha
  have hs := h.act ha
  have := hl (m + 1) (by omega)
  revert hs this
  generalize σ (m + 1) = s', σ m = s
  intro hs this
  cases hs with
  | cancel _ t' ht' =>
    obtain ⟨t'', h1, h2⟩ := this
    have : some t'' = some { t' with stage := .ended } := by rw [← h1]; exact upd_self ht'
    cases this
    exact h2 rfl

theorem results_grow (h : Consumer.Forever cfg past σ acts) {n m : Nat} (hm : n ≤ m) : (σ n).results <+: (σ m).results := by
  induction m with
  | zero =>
    have : n = 0 := by omega
    subst this; exact List.prefix_rfl
  | succ m ih =>
    by_cases he : n = m + 1
    · subst he; exact List.prefix_rfl
    · refine (ih (by omega)).trans ?_
      cases ha : acts m with
      | none => rw [h.idle ha]; exact List.prefix_rfl
      | some a =>
        have hs := h.act ha
        revert hs
        generalize σ (m + 1) = s', σ m = s
        intro hs
        cases hs with
        | ret i t ht o => exact ⟨[(i, o)], rfl⟩
        | _ => exact List.prefix_rfl

theorem handedOut_grow (h : Consumer.Forever cfg past σ acts) {n m : Nat} (hm : n ≤ m) : (σ n).handedOut <+: (σ m).handedOut := by
  obtain ⟨d, hd⟩ := results_grow h hm
  exact ⟨d.flatMap fun r => handed r.2, by simp [State.handedOut, ← hd]⟩

theorem delivered_grow {n m : Nat} (hm : n ≤ m) : stream cfg (history past acts n) <+: stream cfg (history past acts m) := by
  induction m with
  | zero =>
    have : n = 0 := by omega
    subst this; exact List.prefix_rfl
  | succ m ih =>
    by_cases he : n = m + 1
    · subst he; exact List.prefix_rfl
    · refine (ih (by omega)).trans ?_
      exact ⟨(delivered (acts m).toList).flatMap (yields cfg.decode), by simp [stream, history, delivered_append]⟩

/-- A live call's result is a message. -/
theorem live_result (h : Consumer.Forever cfg past σ acts) {i m : Nat} {o : Outcome (List (Received T))} (hr : (σ m).results ++ [(i, o)] = (σ (m + 1)).results)
    (hl : (σ (m + 1)).alive i) : ∃ x, o = .ok [x] := by
  cases ha : acts m with
  | none => rw [h.idle ha] at hr; simp at hr
  | some a =>
    have hs := h.act ha
    revert hs hr hl
    generalize σ (m + 1) = s', σ m = s
    intro hr hl hs
    cases hs with
    | ret i' t ht o' hc' =>
      have : i = i' ∧ o = o' := by simpa [Consumer.finish, State.goto] using hr
      obtain ⟨rfl, rfl⟩ := this
      obtain ⟨t'', h1, h2⟩ := hl
      have : some t'' = some { t with stage := after t.job o } := by rw [← h1]; exact upd_self ht
      cases this
      unfold after at h2
      split at h2
      · exact ⟨_, rfl⟩
      · exact absurd rfl h2
    | _ => simp [State.goto] at hr

theorem more_or_all (h : Consumer.Forever cfg past σ acts) (hA : Attended cfg σ acts) (hj : ∀ n k, Job.batch k ∉ jobs (history past acts n))
    {i n0 : Nat} (hl : ∀ m, n0 ≤ m → (σ m).alive i) (n : Nat) (d : Nat) :
    ∃ m, n ≤ m ∧ (d ≤ (σ m).handedOut.length ∨ (σ m).handedOut = stream cfg (history past acts m)) := by
  induction d with
  | zero => exact ⟨n, Nat.le_refl _, .inl (Nat.zero_le _)⟩
  | succ d ih =>
    obtain ⟨m, hm, hd | he⟩ := ih
    · obtain ⟨m1, hm1, c, hc⟩ := loops h hA (n := max m n0) fun m' hm' => hl m' (by omega)
      rcases gets_or_waits h hA (not_dropped h fun m' hm' => hl m' (by omega)) hc with ⟨m2, o, hm2, hr, _⟩ | ⟨j, m2, k, hm2, hw⟩
      · refine ⟨m2 + 1, by omega, .inl ?_⟩
        obtain ⟨x, rfl⟩ := live_result h hr (hl (m2 + 1) (by omega))
        have h1 := (handedOut_grow h (show m ≤ m2 by omega)).length_le
        have h2 : (σ (m2 + 1)).handedOut = (σ m2).handedOut ++ [.ok x] := by simp [State.handedOut, ← hr, handed]
        rw [h2]
        simp; omega
      · refine ⟨m2, by omega, .inr ?_⟩
        obtain ⟨⟨t, ht, hst⟩, hp⟩ := hw m2 (Nat.le_refl _)
        have hi := message_inv (h.run m2) (hj m2)
        have hh := recv_holds (h.run m2) ⟨t, ht, hst⟩
        obtain ⟨t', c, p, h1, h2, h3, h4⟩ := hi.held j hh
        rw [ht] at h1; cases h1
        rw [hst] at h2; cases h2
        have hp' : [] = p := h3.1.2
        subst hp'
        show _ = (delivered _).flatMap _
        rw [← received_delivered (h.run m2), hp, List.append_nil, ← h4, List.append_nil]
    · exact ⟨m, hm, .inr he⟩

/-- C145. As long as one call (a `consume`, or a `next_message` that waits) is there, everything that has arrived is handed out, in
order, however many `next_message` and `consume` calls there are and whichever are dropped, if no call is neglected. -/
theorem C145_all_handed_out (h : Consumer.Forever cfg past σ acts) (hA : Attended cfg σ acts)
    (hj : ∀ n k, Job.batch k ∉ jobs (history past acts n)) {i n0 : Nat} (hl : ∀ m, n0 ≤ m → (σ m).alive i) (n : Nat) :
    ∃ m, n ≤ m ∧ stream cfg (history past acts n) <+: (σ m).handedOut := by
  obtain ⟨m, hm, hd | he⟩ := more_or_all h hA hj hl n (stream cfg (history past acts n)).length
  · exact ⟨m, hm, List.prefix_of_prefix_length_le (delivered_grow hm) (prefix_of_inv (h.run m) (message_inv (h.run m) (hj m))) hd⟩
  · exact ⟨m, hm, he ▸ delivered_grow hm⟩

theorem jobs_grow {n m : Nat} (hm : n ≤ m) : jobs (history past acts n) <+: jobs (history past acts m) := by
  induction m with
  | zero =>
    have : n = 0 := by omega
    subst this; exact List.prefix_rfl
  | succ m ih =>
    by_cases he : n = m + 1
    · subst he; exact List.prefix_rfl
    · exact (ih (by omega)).trans ⟨jobs (acts m).toList, by simp [history, jobs_append]⟩

theorem job_stays (h : Consumer.Forever cfg past σ acts) {i n m : Nat} {j : Job} (hm : n ≤ m) (hj : (σ n).jobOf i = some j) :
    (σ m).jobOf i = some j := by
  obtain ⟨d, hd⟩ := jobs_grow (past := past) (acts := acts) hm
  have e : ∀ n, (σ n).jobOf i = (jobs (history past acts n))[i]? := fun n => by
    rw [← task_jobs (h.run n), List.getElem?_map]; rfl
  rw [e] at hj ⊢
  rw [← hd, List.getElem?_append_left (List.getElem?_eq_some_iff.mp hj).1]
  exact hj

theorem handedTo_mem (h : Consumer.Forever cfg past σ acts) {i n m : Nat} (hm : n ≤ m) {x : Received T} (hx : x ∈ (σ n).handedTo i) :
    x ∈ (σ m).handedTo i := by
  obtain ⟨d, hd⟩ := results_grow h hm
  unfold State.handedTo at hx ⊢
  rw [← hd, List.filterMap_append, List.flatMap_append]
  exact List.mem_append_left _ hx

/-- C145. Every message a `consume` has been handed is given to every plugin, as long as it is there and no call is neglected. -/
theorem C145_all_offered (h : Consumer.Forever cfg past σ acts) (hA : Attended cfg σ acts) {i n0 : Nat}
    (hc : (σ n0).jobOf i = some .consume) (hl : ∀ m, n0 ≤ m → (σ m).alive i) (n : Nat) :
    ∃ m, n ≤ m ∧ ∀ x, x ∈ (σ n).handedTo i → ∀ k, k < cfg.plugins → (i, k, x, .ok ()) ∈ (σ m).offers := by
  obtain ⟨m, hm, c, t, ht, hst⟩ := loops h hA (n := max n n0) fun m' hm' => hl m' (by omega)
  refine ⟨m, by omega, fun x hx k hk => ?_⟩
  have hj := job_stays h (show n0 ≤ m by omega) hc
  have hjt : t.job = .consume := by simpa [State.jobOf, ht] using hj
  have ht := (plugged (h.run m)).told i t ht hjt
  rw [hst] at ht
  have hx := handedTo_mem h (show n ≤ m by omega) hx
  have key : ∀ {ms fs os}, Told cfg.plugins (.cancel i ∈ history past acts m) (.running c) ms fs os → x ∈ ms → (k, x, .ok ()) ∈ os := by
    intro ms fs os h hx
    cases h with
    | running => exact List.mem_map.mpr ⟨(k, x), List.mem_flatMap.mpr ⟨x, hx, List.mem_map.mpr ⟨k, List.mem_range.mpr hk, rfl⟩⟩, rfl⟩
  have := key ht hx
  unfold State.offersOf at this
  obtain ⟨⟨i', y⟩, h1, h2⟩ := List.mem_filterMap.mp this
  split at h2
  · rename_i e
    dsimp only at e
    subst e
    cases h2
    exact h1
  · cases h2

/-- C145. So if the only call ever made on a consumer is one `consume`, every message that arrives is given to every plugin, as long as
the call is there (no plugin fails, nothing arrives that cannot be decoded, it is not dropped) and not neglected. -/
theorem C145_consume (h : Consumer.Forever cfg past σ acts) (hA : Attended cfg σ acts) (hj : ∀ n, jobs (history past acts n) <+: [.consume])
    {n0 : Nat} (hl : ∀ m, n0 ≤ m → (σ m).alive 0) (n : Nat) :
    ∃ m, n ≤ m ∧ ∀ x, .ok x ∈ stream cfg (history past acts n) → ∀ k, k < cfg.plugins → (0, k, x, .ok ()) ∈ (σ m).offers := by
  have hnb : ∀ n k, Job.batch k ∉ jobs (history past acts n) := by
    intro n k hm
    have := (hj n).subset hm
    simp at this
  obtain ⟨m1, hm1, hp⟩ := C145_all_handed_out h hA hnb hl n
  have hc : (σ n0).jobOf 0 = some .consume := by
    obtain ⟨t, ht, _⟩ := hl n0 (Nat.le_refl _)
    have e : (σ n0).jobOf 0 = (jobs (history past acts n0))[0]? := by
      rw [← task_jobs (h.run n0), List.getElem?_map]; rfl
    have hlen : 0 < (jobs (history past acts n0)).length := by
      rw [← task_jobs (h.run n0), List.length_map]
      exact (List.getElem?_eq_some_iff.mp ht).1
    rw [e]
    obtain ⟨d, hd⟩ := hj n0
    have := List.getElem?_append_left (l₂ := d) hlen
    rw [hd] at this
    exact this.symm
  obtain ⟨m2, hm2, ho⟩ := C145_all_offered h hA hc hl m1
  refine ⟨m2, by omega, fun x hx k hk => ho x ?_ k hk⟩
  have hx := hp.subset hx
  unfold State.handedOut at hx
  obtain ⟨⟨i, o⟩, h1, h2⟩ := List.mem_flatMap.mp hx
  have hi : i = 0 := by
    obtain ⟨t, ht, _⟩ := (along (h.run m1) (M := fun _ => True) fun _ _ => trivial).results i o h1
    have h3 := (List.getElem?_eq_some_iff.mp ht).1
    have h4 : (σ m1).tasks.length = (jobs (history past acts m1)).length := by rw [← task_jobs (h.run m1), List.length_map]
    have h5 := (hj m1).length_le
    simp at h5
    omega
  subst hi
  unfold State.handedTo
  refine List.mem_flatMap.mpr ⟨o, List.mem_filterMap.mpr ⟨(0, o), h1, by simp⟩, ?_⟩
  dsimp only at h2
  unfold handed at h2
  split at h2
  · obtain ⟨y, hy, e⟩ := List.mem_map.mp h2
    cases e
    exact hy
  all_goals simp at h2

end

end Neutron.Props
