import Verif.Spec.ConsumerForever
import Verif.Proof.ConsumerBatches
import Verif.Proof.ConsumerCalls

/-!
# The receiving calls in executions that go on forever
-/

namespace Neutron.Consumer

open Neutron Neutron.Sys

variable {T : Type}

theorem until_or {Q E : Nat → Prop} {n : Nat} (h0 : Q n) (hs : ∀ m, n ≤ m → Q m → ¬ E m → Q (m + 1)) :
    (∃ m, n ≤ m ∧ Q m ∧ E m) ∨ ∀ m, n ≤ m → Q m := by
  by_cases h : ∃ m, n ≤ m ∧ Q m ∧ E m
  · exact .inl h
  · refine .inr fun m hm => ?_
    induction m with
    | zero =>
      have : n = 0 := by omega
      subst this; exact h0
    | succ m ih =>
      by_cases he : n = m + 1
      · subst he; exact h0
      · have hm' : n ≤ m := by omega
        exact hs m hm' (ih hm') fun e => h ⟨m, hm', ih hm', e⟩

theorem Forever.act {cfg : Cfg T} {past : List Act} {σ : Nat → State T} {acts : Nat → Option Act} (h : Forever cfg past σ acts) {n : Nat}
    {a : Act} (ha : acts n = some a) : Step cfg (σ n) a (σ (n + 1)) := by
  have := h.steps n
  rw [ha] at this
  exact step_cases this

theorem Forever.idle {cfg : Cfg T} {past : List Act} {σ : Nat → State T} {acts : Nat → Option Act} (h : Forever cfg past σ acts) {n : Nat}
    (ha : acts n = none) : σ (n + 1) = σ n := by
  have := h.steps n
  rw [ha] at this
  exact this

theorem Forever.run {cfg : Cfg T} {past : List Act} {σ : Nat → State T} {acts : Nat → Option Act} (h : Forever cfg past σ acts) (n : Nat) :
    Run cfg (history past acts n) (σ n) := by
  induction n with
  | zero => exact h.start
  | succ n ih =>
    have hs := h.steps n
    cases ha : acts n with
    | none =>
      rw [ha] at hs
      dsimp only at hs
      rw [hs]
      simpa [history, ha] using ih
    | some a =>
      rw [ha] at hs
      simp only [history, ha, Option.toList]
      exact .snoc ih hs

/-- What one step does to a call that does not take part in it. -/
theorem other_task {cfg : Cfg T} {s s' : State T} {a : Act} (h : Step cfg s a s') {i : Nat} {t : Task T} (ht : s.tasks[i]? = some t)
    (h1 : a ≠ .run i) (h2 : a ≠ .refuse i) (h3 : ∀ r, a ≠ .offer i r) (h4 : a ≠ .cancel i) : s'.tasks[i]? = some t := by
  have key : ∀ {j : Nat} {t' : Task T}, j ≠ i → (s.tasks.set j t')[i]? = some t := by
    intro j t' hji
    rw [List.getElem?_set, if_neg hji]; exact ht
  cases h with
  | deliver | close => exact ht
  | skip => exact ht
  | spawn j => exact List.getElem?_append_left (List.getElem?_eq_some_iff.mp ht).1 ▸ ht
  | refuse j => exact key fun e => h2 (by rw [e])
  | accepted j => exact key fun e => h3 _ (by rw [e])
  | rejected j => exact key fun e => h3 _ (by rw [e])
  | cancel j => exact key fun e => h4 (by rw [e])
  | ret j | load j | store j | add j | flow j | lock j | write j | recv j | gone j | plugins j | loop j =>
    exact key fun e => h1 (by rw [e])

/-- Call `i` is at `c`. -/
def atCode (s : State T) (i : Nat) (c : Code T) : Prop := ∃ t, s.tasks[i]? = some t ∧ t.stage = .running c

section
variable {cfg : Cfg T} {past : List Act} {σ : Nat → State T} {acts : Nat → Option Act}

theorem code_kept (h : Forever cfg past σ acts) (ho : ∀ n, (σ n).isOpen = true) {i m : Nat} {c : Code T} (hc : atCode (σ m) i c)
    (h1 : acts m ≠ some (.run i)) (h2 : acts m ≠ some (.cancel i)) : atCode (σ (m + 1)) i c := by
  obtain ⟨t, ht, hst⟩ := hc
  cases ha : acts m with
  | none => rw [h.idle ha]; exact ⟨t, ht, hst⟩
  | some a =>
    have hs := h.act ha
    have ho := ho m
    revert hs ho
    rw [ha] at h1 h2
    generalize σ (m + 1) = s', σ m = s at *
    intro hs ho
    refine ⟨t, other_task hs ht (fun e => h1 (by rw [e])) ?_ ?_ (fun e => h2 (by rw [e])), hst⟩
    · rintro rfl
      cases hs with
      | refuse _ _ _ _ _ _ hcl => rw [ho] at hcl; cases hcl
    · rintro r rfl
      cases hs with
      | accepted _ t' ht' m' k hc' => rw [ht] at ht'; cases ht'; rw [hst] at hc'; cases hc'
      | rejected _ t' ht' m' k hc' => rw [ht] at ht'; cases ht'; rw [hst] at hc'; cases hc'

/-- A call at code that can always go on goes on. -/
theorem taken (h : Forever cfg past σ acts) (hA : Attended cfg σ acts) {i n : Nat} (hn : NotDropped acts i n) {c : Code T}
    (hc : atCode (σ n) i c) (hg : ∀ m t, (σ m).tasks[i]? = some t → t.stage = .running c → ∃ s', runCode (σ m) i t c = some s') :
    ∃ m, n ≤ m ∧ atCode (σ m) i c ∧ acts m = some (.run i) := by
  rcases until_or (Q := fun m => atCode (σ m) i c) (E := fun m => acts m = some (.run i)) hc
    (fun m hm hq he => code_kept h hA.isOpen hq he (hn m hm)) with hx | hx
  · exact hx
  · obtain ⟨m, hm, ha⟩ := hA.calls i (fun k => by
      obtain ⟨t, ht, hst⟩ := hx (max n k) (Nat.le_max_left _ _)
      obtain ⟨s', hs'⟩ := hg _ t ht hst
      exact ⟨max n k, Nat.le_max_right _ _, s', by simp only [step, ht, runTask, hst, hs']⟩) n
    exact ⟨m, hm, hx m hm, ha⟩

/-- A call gets a result at some time after `n`. -/
def Gets (σ : Nat → State T) (i n : Nat) : Prop := ∃ m o, n ≤ m ∧ (σ m).results ++ [(i, o)] = (σ (m + 1)).results ∧ atCode (σ m) i (.ret o)

theorem Gets.mono {i n n' : Nat} (hn : n ≤ n') (h : Gets σ i n') : Gets σ i n := by
  obtain ⟨m, o, h1, h2⟩ := h
  exact ⟨m, o, Nat.le_trans hn h1, h2⟩

/-- A call gets a result, or waits forever for the buffer or for a message. -/
theorem progress (h : Forever cfg past σ acts) (hA : Attended cfg σ acts) {i : Nat} (c : Code T) : ∀ {n : Nat}, NotDropped acts i n →
    atCode (σ n) i c → Gets σ i n ∨ (∃ m k, n ≤ m ∧ ∀ m', m ≤ m' → atCode (σ m') i (.lock k)) ∨
      ∃ m k, n ≤ m ∧ ∀ m', m ≤ m' → atCode (σ m') i (.recv k) := by
  have next : ∀ {n m : Nat} {c' : Code T}, n ≤ m → NotDropped acts i n → atCode (σ (m + 1)) i c' →
      (∀ {n : Nat}, NotDropped acts i n → atCode (σ n) i c' → Gets σ i n ∨ (∃ m k, n ≤ m ∧ ∀ m', m ≤ m' → atCode (σ m') i (.lock k)) ∨
        ∃ m k, n ≤ m ∧ ∀ m', m ≤ m' → atCode (σ m') i (.recv k)) →
      Gets σ i n ∨ (∃ m k, n ≤ m ∧ ∀ m', m ≤ m' → atCode (σ m') i (.lock k)) ∨
        ∃ m k, n ≤ m ∧ ∀ m', m ≤ m' → atCode (σ m') i (.recv k) := by
    intro n m c' hm hn hc ih
    rcases ih (fun k hk => hn k (by omega)) hc with h1 | ⟨m', k, h1, h2⟩ | ⟨m', k, h1, h2⟩
    · exact .inl (h1.mono (by omega))
    · exact .inr (.inl ⟨m', k, by omega, h2⟩)
    · exact .inr (.inr ⟨m', k, by omega, h2⟩)
  induction c with
  | ret o =>
    intro n hn hc
    obtain ⟨m, hm, ⟨t, ht, hst⟩, ha⟩ := taken h hA hn hc fun _ _ _ _ => ⟨_, rfl⟩
    refine .inl ⟨m, o, hm, ?_, t, ht, hst⟩
    have hs := h.steps m
    rw [ha] at hs
    simp only [step, ht, runTask, hst, runCode, Option.some.injEq] at hs
    rw [← hs]; rfl
  | load k ih =>
    intro n hn hc
    obtain ⟨m, hm, ⟨t, ht, hst⟩, ha⟩ := taken h hA hn hc fun _ _ _ _ => ⟨_, rfl⟩
    have hs := h.steps m
    rw [ha] at hs
    simp only [step, ht, runTask, hst, runCode, Option.some.injEq] at hs
    refine next hm hn (c' := k (σ m).permits) ?_ (ih _)
    rw [← hs]; exact ⟨_, upd_self ht, rfl⟩
  | store x k ih =>
    intro n hn hc
    obtain ⟨m, hm, ⟨t, ht, hst⟩, ha⟩ := taken h hA hn hc fun _ _ _ _ => ⟨_, rfl⟩
    have hs := h.steps m
    rw [ha] at hs
    simp only [step, ht, runTask, hst, runCode, Option.some.injEq] at hs
    refine next hm hn (c' := k) ?_ ih
    rw [← hs]; exact ⟨_, upd_self ht, rfl⟩
  | add x k ih =>
    intro n hn hc
    obtain ⟨m, hm, ⟨t, ht, hst⟩, ha⟩ := taken h hA hn hc fun _ _ _ _ => ⟨_, rfl⟩
    have hs := h.steps m
    rw [ha] at hs
    simp only [step, ht, runTask, hst, runCode, Option.some.injEq] at hs
    refine next hm hn (c' := k) ?_ ih
    rw [← hs]; exact ⟨_, upd_self ht, rfl⟩
  | write x k ih =>
    intro n hn hc
    obtain ⟨m, hm, ⟨t, ht, hst⟩, ha⟩ := taken h hA hn hc fun _ _ _ _ => ⟨_, rfl⟩
    have hs := h.steps m
    rw [ha] at hs
    simp only [step, ht, runTask, hst, runCode, Option.some.injEq] at hs
    refine next hm hn (c' := k) ?_ ih
    rw [← hs]; exact ⟨_, upd_self ht, rfl⟩
  | flow x k ih =>
    intro n hn hc
    obtain ⟨m, hm, ⟨t, ht, hst⟩, ha⟩ := taken h hA hn hc fun m _ _ _ => ⟨_, by simp only [runCode, hA.isOpen m, if_true]; rfl⟩
    have hs := h.steps m
    rw [ha] at hs
    simp only [step, ht, runTask, hst, runCode, hA.isOpen m, if_true, Option.some.injEq] at hs
    refine next hm hn (c' := k (.ok ())) ?_ (ih _)
    rw [← hs]; exact ⟨_, upd_self ht, rfl⟩
  | lock k ih =>
    intro n hn hc
    rcases until_or (Q := fun m => atCode (σ m) i (.lock k)) (E := fun m => acts m = some (.run i)) hc
      (fun m hm hq he => code_kept h hA.isOpen hq he (hn m hm)) with ⟨m, hm, ⟨t, ht, hst⟩, ha⟩ | hx
    · have hs := h.steps m
      rw [ha] at hs
      simp only [step, ht, runTask, hst, runCode] at hs
      split at hs
      · simp only [Option.some.injEq] at hs
        refine next hm hn (c' := k (σ m).buffer) ?_ (ih _)
        rw [← hs]; exact ⟨_, upd_self ht, rfl⟩
      · cases hs
    · exact .inr (.inl ⟨n, k, Nat.le_refl _, hx⟩)
  | recv k ih =>
    intro n hn hc
    rcases until_or (Q := fun m => atCode (σ m) i (.recv k)) (E := fun m => ∃ x, atCode (σ (m + 1)) i (k (.ok x))) hc
      (fun m hm hq he => by
        by_cases ha : acts m = some (.run i)
        · obtain ⟨t, ht, hst⟩ := hq
          have hs := h.steps m
          rw [ha] at hs
          simp only [step, ht, runTask, hst, runCode] at hs
          split at hs
          · simp only [Option.some.injEq] at hs
            exact absurd ⟨_, by rw [← hs]; exact ⟨_, upd_self ht, rfl⟩⟩ he
          · simp only [Option.some.injEq] at hs
            rw [← hs]; exact ⟨t, ht, hst⟩
          · rw [hA.isOpen m, if_pos rfl] at hs; cases hs
        · exact code_kept h hA.isOpen hq ha (hn m hm)) with ⟨m, hm, _, x, hx⟩ | hx
    · exact next hm hn hx (ih _)
    · exact .inr (.inr ⟨n, k, Nat.le_refl _, hx⟩)

end

/-! ## Who holds the buffer -/

theorem any_inv {cfg : Cfg T} {as : List Act} {s : State T} (h : Run cfg as s) :
    Inv List.Subperm (fun _ => True) (fun _ => True) (yields cfg.decode) s :=
  .run compat_subperm trivial (fun j _ => pre_subperm cfg j) (fun _ _ => trivial) h

theorem recv_holds {cfg : Cfg T} {as : List Act} {s : State T} (h : Run cfg as s) {i : Nat} {k : Outcome Message → Code T}
    (hc : atCode s i (.recv k)) : s.holder = some i := by
  obtain ⟨t, ht, hst⟩ := hc
  exact Classical.byContradiction fun hh => (any_inv h).pre i t _ ht hst hh

theorem lock_free {cfg : Cfg T} {as : List Act} {s : State T} (h : Run cfg as s) {i : Nat} {k : List (Received T) → Code T}
    (hc : atCode s i (.lock k)) : s.holder ≠ some i := by
  obtain ⟨t, ht, hst⟩ := hc
  intro hh
  obtain ⟨t', c, p, h1, h2, h3, _⟩ := (any_inv h).held i hh
  rw [ht] at h1; cases h1
  rw [hst] at h2; cases h2
  exact h3

theorem holder_code {cfg : Cfg T} {as : List Act} {s : State T} (h : Run cfg as s) {i : Nat} (hh : s.holder = some i) : ∃ c, atCode s i c := by
  obtain ⟨t, c, p, h1, h2, _⟩ := (any_inv h).held i hh
  exact ⟨c, t, h1, h2⟩

theorem holder_next {cfg : Cfg T} {s s' : State T} {a : Act} (h : Step cfg s a s') {i : Nat} (hh : s.holder = some i) :
    s'.holder = some i ∨ s'.holder = none := by
  have rel : ∀ j, release s.holder j = some i ∨ release s.holder j = none := by
    intro j
    unfold release
    split
    · exact .inr rfl
    · exact .inl hh
  cases h with
  | ret j => exact rel j
  | cancel j => exact rel j
  | lock j t ht k hc hn => rw [hh] at hn; cases hn
  | _ => exact .inl hh

section
variable {cfg : Cfg T} {past : List Act} {σ : Nat → State T} {acts : Nat → Option Act}

/-- While a call waits for a message nobody else takes anything from the channel. -/
theorem inbox_kept {s s' : State T} {a : Act} {as : List Act} (hr : Run cfg as s) (hs : Step cfg s a s') {i : Nat} {k : Outcome Message → Code T}
    (hc : atCode s i (.recv k)) (ha : a ≠ .run i) : s.inbox <+: s'.inbox := by
  have key : ∀ {j : Nat} {t : Task T} {k' : Outcome Message → Code T}, s.tasks[j]? = some t → t.stage = .running (.recv k') →
      Act.run j ≠ .run i → False := by
    intro j t k' ht hst hj
    have h1 := recv_holds hr ⟨t, ht, hst⟩
    rw [recv_holds hr hc] at h1
    cases h1
    exact hj rfl
  cases hs with
  | deliver e => exact ⟨[e], rfl⟩
  | recv j t ht k' hst => exact (key ht hst ha).elim
  | skip j t ht k' hst => exact (key ht hst ha).elim
  | _ => exact ⟨[], List.append_nil _⟩

theorem recv_straight {s : State T} {as : List Act} (hr : Run cfg as s) {i : Nat} {k : Outcome Message → Code T} (hc : atCode s i (.recv k))
    (m : Message) : Straight (k (.ok m)) := by
  obtain ⟨t, ht, hst⟩ := hc
  exact (Waits.leads ((along hr (M := fun _ => True) fun _ _ => trivial).running i t _ ht hst) (waits_code cfg t.job)).1 m

/-- A call that waits forever for a message waits for nothing that is there. -/
theorem nothing_pending (h : Forever cfg past σ acts) (hA : Attended cfg σ acts) {i n : Nat} {k : Outcome Message → Code T}
    (hc : ∀ m, n ≤ m → atCode (σ m) i (.recv k)) : ∀ m, n ≤ m → pendingIn (σ m).inbox = [] := by
  have key : ∀ (pre : List Inbound) (m : Nat), n ≤ m → ∀ x q, (σ m).inbox = pre ++ .message x :: q → (∀ e ∈ pre, ∀ y, e ≠ .message y) → False := by
    intro pre
    induction pre with
    | nil =>
      intro m hm x q hq _
      rcases until_or (Q := fun m => ∃ q, (σ m).inbox = .message x :: q) (E := fun m => acts m = some (.run i)) ⟨q, hq⟩
        (fun m' hm' hq he => by
          obtain ⟨q, hq⟩ := hq
          cases ha : acts m' with
          | none => rw [h.idle ha]; exact ⟨q, hq⟩
          | some a =>
            obtain ⟨d, hd⟩ := inbox_kept (h.run m') (h.act ha) (hc m' (by omega)) fun e => he (by rw [ha, e])
            exact ⟨q ++ d, by rw [← hd, hq]; rfl⟩) with ⟨m', hm', ⟨q, hq⟩, ha⟩ | hx
      · obtain ⟨t, ht, hst⟩ := hc m' (by omega)
        have hs := h.steps m'
        rw [ha] at hs
        simp only [step, ht, runTask, hst, runCode, hq, Option.some.injEq] at hs
        obtain ⟨t', ht', hst'⟩ := hc (m' + 1) (by omega)
        rw [← hs] at ht'
        have : some t' = some { t with stage := .running (k (.ok x)) } := by rw [← ht']; exact upd_self ht
        cases this
        have := recv_straight (h.run m') (hc m' (by omega)) x
        injection hst' with hst'
        rw [hst'] at this
        exact this
      · obtain ⟨m', hm', ha⟩ := hA.calls i (fun j => by
          obtain ⟨t, ht, hst⟩ := hc (max m j) (by omega)
          obtain ⟨q, hq⟩ := hx (max m j) (by omega)
          exact ⟨max m j, by omega, _, by simp only [step, ht, runTask, hst, runCode, hq]; rfl⟩) m
        obtain ⟨t, ht, hst⟩ := hc m' (by omega)
        obtain ⟨q, hq⟩ := hx m' hm'
        have hs := h.steps m'
        rw [ha] at hs
        simp only [step, ht, runTask, hst, runCode, hq, Option.some.injEq] at hs
        obtain ⟨t', ht', hst'⟩ := hc (m' + 1) (by omega)
        rw [← hs] at ht'
        have : some t' = some { t with stage := .running (k (.ok x)) } := by rw [← ht']; exact upd_self ht
        cases this
        have := recv_straight (h.run m') (hc m' (by omega)) x
        injection hst' with hst'
        rw [hst'] at this
        exact this
    | cons e pre ih =>
      intro m hm x q hq hp
      have skip : ∀ {m' : Nat} {q : List Inbound}, n ≤ m' → (σ m').inbox = e :: pre ++ .message x :: q → acts m' = some (.run i) →
          (σ (m' + 1)).inbox = pre ++ .message x :: q := by
        intro m' q hm' hq ha
        obtain ⟨t, ht, hst⟩ := hc m' hm'
        have hs := h.steps m'
        rw [ha] at hs
        simp only [step, ht, runTask, hst, runCode, hq, List.cons_append] at hs
        cases e with
        | message y => exact absurd rfl (hp _ (by simp) y)
        | _ => simp only [Option.some.injEq] at hs; rw [← hs]
      rcases until_or (Q := fun m => ∃ q, (σ m).inbox = e :: pre ++ .message x :: q) (E := fun m => acts m = some (.run i)) ⟨q, hq⟩
        (fun m' hm' hq he => by
          obtain ⟨q, hq⟩ := hq
          cases ha : acts m' with
          | none => rw [h.idle ha]; exact ⟨q, hq⟩
          | some a =>
            obtain ⟨d, hd⟩ := inbox_kept (h.run m') (h.act ha) (hc m' (by omega)) fun e => he (by rw [ha, e])
            exact ⟨q ++ d, by rw [← hd, hq]; simp⟩) with ⟨m', hm', ⟨q, hq⟩, ha⟩ | hx
      · exact ih (m' + 1) (by omega) x q (skip (by omega) hq ha) fun e he => hp e (by simp [he])
      · obtain ⟨m', hm', ha⟩ := hA.calls i (fun j => by
          obtain ⟨t, ht, hst⟩ := hc (max m j) (by omega)
          obtain ⟨q, hq⟩ := hx (max m j) (by omega)
          refine ⟨max m j, by omega, ?_⟩
          simp only [step, ht, runTask, hst, runCode, hq, List.cons_append]
          split <;> first | exact ⟨_, rfl⟩ | (rename_i hx; cases hx)) m
        obtain ⟨q, hq⟩ := hx m' hm'
        exact ih (m' + 1) (by omega) x q (skip (by omega) hq ha) fun e he => hp e (by simp [he])
  intro m hm
  have split : ∀ l : List Inbound, pendingIn l ≠ [] → ∃ pre x q, l = pre ++ .message x :: q ∧ ∀ e ∈ pre, ∀ y, e ≠ .message y := by
    intro l
    induction l with
    | nil => intro h; exact absurd rfl h
    | cons e l ih =>
      intro h
      by_cases he : ∃ y, e = .message y
      · obtain ⟨y, rfl⟩ := he
        exact ⟨[], y, l, rfl, by simp⟩
      · have : pendingIn l ≠ [] := by
          intro hl
          apply h
          rw [← hl]
          cases e <;> first | rfl | exact absurd ⟨_, rfl⟩ he
        obtain ⟨pre, x, q, h1, h2⟩ := ih this
        refine ⟨e :: pre, x, q, by rw [h1]; rfl, ?_⟩
        intro e' he' y hy
        rcases List.mem_cons.mp he' with rfl | he'
        · exact he ⟨y, hy⟩
        · exact h2 e' he' y hy
  refine Classical.byContradiction fun hp => ?_
  obtain ⟨pre, x, q, h1, h2⟩ := split _ hp
  exact key pre m hm x q h1 h2

/-- A call gets a result, or some call waits forever for a message and none is there. -/
theorem gets_or_waits (h : Forever cfg past σ acts) (hA : Attended cfg σ acts) {i n : Nat} (hn : NotDropped acts i n) {c : Code T}
    (hc : atCode (σ n) i c) : Gets σ i n ∨ ∃ j m k, n ≤ m ∧ ∀ m', m ≤ m' → atCode (σ m') j (.recv k) ∧ pendingIn (σ m').inbox = [] := by
  rcases progress h hA c hn hc with h1 | ⟨m, k, hm, hl⟩ | ⟨m, k, hm, hl⟩
  · exact .inl h1
  · -- the buffer is never free from some time on
    have hex : ∃ N, m ≤ N ∧ ∀ m', N ≤ m' → (σ m').holder ≠ none := by
      refine Classical.byContradiction fun hx => ?_
      have hen : AgainAndAgain (fun n => ∃ s', step cfg (σ n) (.run i) = some s') := by
        intro j
        refine Classical.byContradiction fun hy => hx ⟨max m j, by omega, fun m' hm' hh => hy ⟨m', by omega, ?_⟩⟩
        obtain ⟨t, ht, hst⟩ := hl m' (by omega)
        simp only [step, ht, runTask, hst, runCode, hh, if_true]
        exact ⟨_, rfl⟩
      have htk := hA.calls i hen
      -- each time it is taken the call gets the buffer
      obtain ⟨m', hm', ha⟩ := htk m
      obtain ⟨t, ht, hst⟩ := hl m' hm'
      have hs := h.steps m'
      rw [ha] at hs
      simp only [step, ht, runTask, hst, runCode] at hs
      split at hs
      · simp only [Option.some.injEq] at hs
        exact lock_free (h.run (m' + 1)) (hl (m' + 1) (by omega)) (by rw [← hs])
      · cases hs
    obtain ⟨N, hN, hh⟩ := hex
    obtain ⟨j, hj⟩ := Option.ne_none_iff_exists'.mp (hh N (Nat.le_refl _))
    have hall : ∀ m', N ≤ m' → (σ m').holder = some j := by
      intro m' hm'
      induction m' with
      | zero =>
        have : N = 0 := by omega
        subst this; exact hj
      | succ m' ih =>
        by_cases he : N = m' + 1
        · subst he; exact hj
        · have ih := ih (by omega)
          cases ha : acts m' with
          | none => rw [h.idle ha]; exact ih
          | some a =>
            rcases holder_next (h.act ha) ih with h1 | h1
            · exact h1
            · exact absurd h1 (hh (m' + 1) (by omega))
    obtain ⟨c', hc'⟩ := holder_code (h.run N) hj
    have hnd : NotDropped acts j N := by
      intro m' hm' ha
      have hs := h.act ha
      have h1 := hall m' hm'
      have h2 := hall (m' + 1) (by omega)
      revert hs h1 h2
      generalize σ (m' + 1) = s', σ m' = s
      intro hs h1 h2
      cases hs with
      | cancel => simp [h1, release_self] at h2
    rcases progress h hA c' hnd hc' with ⟨m', o, hm', hr, hat⟩ | ⟨m', k', hm', hl'⟩ | ⟨m', k', hm', hl'⟩
    · exfalso
      have h1 := hall m' hm'
      have h2 := hall (m' + 1) (by omega)
      obtain ⟨t, ht, hst⟩ := hat
      cases ha : acts m' with
      | none => rw [h.idle ha] at hr; simp at hr
      | some a =>
        have hs := h.act ha
        revert hs hr h1 h2
        revert ht
        generalize σ (m' + 1) = s', σ m' = s
        intro ht hr h1 h2 hs
        cases hs with
        | ret i' t' ht' o' hc' =>
          have : i' = j := by simp only [finish, State.goto] at hr; simp at hr; exact hr.1.symm
          subst this
          simp [finish, State.goto, h1, release_self] at h2
        | _ => simp [State.goto] at hr
    · exact absurd (hall m' hm') (lock_free (h.run m') (hl' m' (Nat.le_refl _)))
    · exact .inr ⟨j, m', k', by omega, fun m'' hm'' => ⟨hl' m'' hm'', nothing_pending h hA hl' m'' hm''⟩⟩
  · exact .inr ⟨i, m, k, hm, fun m' hm' => ⟨hl m' hm', nothing_pending h hA hl m' hm'⟩⟩

/-- Call `i` is inside the plugins. -/
def atOffer (s : State T) (i : Nat) (m : Received T) (k : Nat) : Prop := ∃ t, s.tasks[i]? = some t ∧ t.stage = .offering m k

theorem plugin_next {s s' : State T} {a : Act} (h : Step cfg s a s') {i : Nat} (hh : s.pluginHolder = some i) :
    s'.pluginHolder = some i ∨ s'.pluginHolder = none := by
  have rel : ∀ j, release s.pluginHolder j = some i ∨ release s.pluginHolder j = none := by
    intro j
    unfold release
    split
    · exact .inr rfl
    · exact .inl hh
  cases h with
  | loop j => exact rel j
  | cancel j => exact rel j
  | rejected j => exact rel j
  | plugins j t ht k hc hn => rw [hh] at hn; cases hn
  | _ => exact .inl hh

/-- Who holds the plugins' mutex is inside the plugins. -/
theorem plugin_held {as : List Act} {s : State T} (h : Run cfg as s) {i : Nat} (hh : s.pluginHolder = some i) : ∃ m k, atOffer s i m k := by
  induction h with
  | nil => cases hh
  | @snoc as s s' a h hs ih =>
    have hs := step_cases hs
    have old : s.pluginHolder = some i → (a ≠ .run i ∧ a ≠ .refuse i ∧ (∀ r, a ≠ .offer i r) ∧ a ≠ .cancel i) → ∃ m k, atOffer s' i m k := by
      rintro h1 ⟨g1, g2, g3, g4⟩
      obtain ⟨m, k, t, ht, hst⟩ := ih h1
      exact ⟨m, k, t, other_task hs ht g1 g2 g3 g4, hst⟩
    have run : ∀ {j : Nat} {t : Task T} {c : Code T}, s.tasks[j]? = some t → t.stage = .running c → s.pluginHolder = some i → j ≠ i := by
      intro j t c ht hc h1 e
      subst e
      obtain ⟨m, k, t', ht', hst'⟩ := ih h1
      rw [ht] at ht'; cases ht'
      rw [hc] at hst'; cases hst'
    have rel : ∀ {j : Nat}, release s.pluginHolder j = some i → s.pluginHolder = some i ∧ j ≠ i := by
      intro j h1
      unfold release at h1
      split at h1
      · cases h1
      · rename_i hx
        exact ⟨h1, fun e => hx (by rw [h1, e])⟩
    cases hs with
    | deliver | close | spawn => exact old hh ⟨by simp, by simp, by simp, by simp⟩
    | ret j t ht o hc | load j t ht o hc | store j t ht o o' hc | add j t ht o o' hc | flow j t ht o o' hc | lock j t ht o hc
      | write j t ht o o' hc | recv j t ht o hc | skip j t ht o hc | gone j t ht o hc =>
      have := run ht hc hh
      exact old hh ⟨by simpa using this, by simp, by simp, by simp⟩
    | refuse j t ht o o' hc =>
      have := run ht hc hh
      exact old hh ⟨by simp, by simpa using this, by simp, by simp⟩
    | plugins j t ht m hc =>
      cases hh
      exact ⟨m, 0, _, upd_self ht, rfl⟩
    | loop j =>
      obtain ⟨h1, h2⟩ := rel hh
      exact old h1 ⟨by simpa using h2, by simp, by simp, by simp⟩
    | accepted j t ht m k hc =>
      by_cases e : j = i
      · subst e; exact ⟨m, k + 1, _, upd_self ht, rfl⟩
      · exact old hh ⟨by simp, by simp, by simpa using e, by simp⟩
    | rejected j =>
      obtain ⟨h1, h2⟩ := rel hh
      exact old h1 ⟨by simp, by simp, by simp [h2], by simp⟩
    | cancel j =>
      obtain ⟨h1, h2⟩ := rel hh
      exact old h1 ⟨by simp, by simp, by simp, by simpa using h2⟩

/-- A call inside the plugins comes out of them: it goes on receiving, or it ends. -/
theorem offered (h : Forever cfg past σ acts) (hA : Attended cfg σ acts) {i : Nat} {x : Received T} (d : Nat) : ∀ {n k : Nat},
    cfg.plugins - k ≤ d → atOffer (σ n) i x k →
    (∃ m, n ≤ m ∧ atCode (σ m) i (nextMessage cfg) ∧ (σ m).pluginHolder ≠ some i) ∨ ∃ m, n ≤ m ∧ ¬ (σ m).alive i := by
  have keep : ∀ {n k : Nat}, atOffer (σ n) i x k → acts n ≠ some (.run i) → (∀ r, acts n ≠ some (.offer i r)) → acts n ≠ some (.cancel i) →
      atOffer (σ (n + 1)) i x k := by
    rintro n k ⟨t, ht, hst⟩ h1 h2 h3
    cases ha : acts n with
    | none => rw [h.idle ha]; exact ⟨t, ht, hst⟩
    | some a =>
      rw [ha] at h1 h2 h3
      have hs := h.act ha
      refine ⟨t, other_task hs ht (fun e => h1 (by rw [e])) ?_ (fun r e => h2 r (by rw [e])) (fun e => h3 (by rw [e])), hst⟩
      rintro rfl
      revert hs ht
      generalize σ (n + 1) = s', σ n = s
      intro ht hs
      cases hs with
      | refuse _ t' ht' _ _ hc' => rw [ht] at ht'; cases ht'; rw [hst] at hc'; cases hc'
  have dead : ∀ {n k : Nat}, atOffer (σ n) i x k → acts n = some (.cancel i) → ∃ m, n ≤ m ∧ ¬ (σ m).alive i := by
    rintro n k ⟨t, ht, hst⟩ ha
    refine ⟨n + 1, by omega, ?_⟩
    have hs := h.act ha
    revert hs ht
    generalize σ (n + 1) = s', σ n = s
    intro ht hs
    cases hs with
    | cancel _ t' ht' =>
      rintro ⟨t'', h1, h2⟩
      have : some t'' = some { t' with stage := .ended } := by rw [← h1]; exact upd_self ht'
      cases this
      exact h2 rfl
  induction d with
  | zero =>
    intro n k hd hc
    rcases until_or (Q := fun m => atOffer (σ m) i x k) (E := fun m => acts m = some (.run i) ∨ (∃ r, acts m = some (.offer i r)) ∨ acts m = some (.cancel i)) hc
      (fun m hm hq he => keep hq (fun e => he (.inl e)) (fun r e => he (.inr (.inl ⟨r, e⟩))) (fun e => he (.inr (.inr e)))) with
      ⟨m, hm, hq, ha | ⟨r, ha⟩ | ha⟩ | hx
    · obtain ⟨t, ht, hst⟩ := hq
      have hs := h.act ha
      refine .inl ⟨m + 1, by omega, ?_⟩
      revert hs ht
      generalize σ (m + 1) = s', σ m = s
      intro ht hs
      cases hs with
      | loop _ t' ht' =>
        refine ⟨⟨_, upd_self ht', rfl⟩, ?_⟩
        intro e
        unfold release at e
        dsimp only at e
        split at e
        · cases e
        · rename_i hx; exact hx e
      | ret _ t' ht' _ hc' | load _ t' ht' _ hc' | store _ t' ht' _ _ hc' | add _ t' ht' _ _ hc' | flow _ t' ht' _ _ hc' | lock _ t' ht' _ hc'
      | write _ t' ht' _ _ hc' | recv _ t' ht' _ hc' | skip _ t' ht' _ hc' | gone _ t' ht' _ hc' | plugins _ t' ht' _ hc' =>
        rw [ht] at ht'; cases ht'; rw [hst] at hc'; cases hc'
    · exfalso
      obtain ⟨t, ht, hst⟩ := hq
      have hs := h.act ha
      revert hs ht
      generalize σ (m + 1) = s', σ m = s
      intro ht hs
      cases hs with
      | accepted _ t' ht' _ _ hc' hk => rw [ht] at ht'; cases ht'; rw [hst] at hc'; cases hc'; omega
      | rejected _ t' ht' _ _ hc' hk => rw [ht] at ht'; cases ht'; rw [hst] at hc'; cases hc'; omega
    · obtain ⟨m', h1, h2⟩ := dead hq ha
      exact .inr ⟨m', by omega, h2⟩
    · exfalso
      obtain ⟨m, hm, ha⟩ := hA.calls i (fun j => by
        obtain ⟨t, ht, hst⟩ := hx (max n j) (by omega)
        refine ⟨max n j, by omega, ?_⟩
        simp only [step, ht, runTask, hst]
        rw [if_neg (by omega)]
        exact ⟨_, rfl⟩) n
      obtain ⟨t, ht, hst⟩ := hx m hm
      obtain ⟨t1, ht1, hst1⟩ := hx (m + 1) (by omega)
      have hs := h.steps m
      rw [ha] at hs
      simp only [step, ht, runTask, hst] at hs
      rw [if_neg (by omega)] at hs
      simp only [Option.some.injEq] at hs
      rw [← hs] at ht1
      have : some t1 = some { t with stage := .running (nextMessage cfg) } := by rw [← ht1]; exact upd_self ht
      cases this
      cases hst1
  | succ d ih =>
    intro n k hd hc
    by_cases hk : cfg.plugins - k ≤ d
    · exact ih hk hc
    · rcases until_or (Q := fun m => atOffer (σ m) i x k) (E := fun m => acts m = some (.run i) ∨ (∃ r, acts m = some (.offer i r)) ∨ acts m = some (.cancel i)) hc
        (fun m hm hq he => keep hq (fun e => he (.inl e)) (fun r e => he (.inr (.inl ⟨r, e⟩))) (fun e => he (.inr (.inr e)))) with
        ⟨m, hm, hq, ha | ⟨r, ha⟩ | ha⟩ | hx
      · exfalso
        obtain ⟨t, ht, hst⟩ := hq
        have hs := h.steps m
        rw [ha] at hs
        simp only [step, ht, runTask, hst] at hs
        rw [if_pos (by omega)] at hs
        cases hs
      · obtain ⟨t, ht, hst⟩ := hq
        have hs := h.act ha
        have : atOffer (σ (m + 1)) i x (k + 1) ∨ ¬ (σ (m + 1)).alive i := by
          revert hs ht
          generalize σ (m + 1) = s', σ m = s
          intro ht hs
          cases hs with
          | accepted _ t' ht' _ _ hc' hk =>
            rw [ht] at ht'; cases ht'; rw [hst] at hc'; cases hc'
            exact .inl ⟨_, upd_self ht, rfl⟩
          | rejected _ t' ht' _ _ hc' hk =>
            refine .inr ?_
            rintro ⟨t'', h1, h2⟩
            have : some t'' = some { t' with stage := .ended } := by rw [← h1]; exact upd_self ht'
            cases this
            exact h2 rfl
        rcases this with h1 | h1
        · rcases ih (by omega) h1 with ⟨m', g1, g2⟩ | ⟨m', g1, g2⟩
          · exact .inl ⟨m', by omega, g2⟩
          · exact .inr ⟨m', by omega, g2⟩
        · exact .inr ⟨m + 1, by omega, h1⟩
      · obtain ⟨m', h1, h2⟩ := dead hq ha
        exact .inr ⟨m', by omega, h2⟩
      · exfalso
        obtain ⟨m, hm, r, ha⟩ := hA.plugins i (fun j => by
          obtain ⟨t, ht, hst⟩ := hx (max n j) (by omega)
          exact ⟨max n j, by omega, t, x, k, ht, hst, by omega⟩) n
        obtain ⟨t, ht, hst⟩ := hx m hm
        obtain ⟨t1, ht1, hst1⟩ := hx (m + 1) (by omega)
        have hs := h.act ha
        revert hs ht ht1
        generalize σ (m + 1) = s', σ m = s
        intro ht ht1 hs
        cases hs with
        | accepted _ t' ht' x' k' hc' hk =>
          have : some t1 = some { t' with stage := .offering x' (k' + 1) } := by rw [← ht1]; exact upd_self ht'
          rw [ht] at ht'; cases ht'; rw [hst] at hc'; cases hc'
          cases this
          injection hst1 with _ e
          omega
        | rejected _ t' ht' _ _ hc' hk =>
          have : some t1 = some { t' with stage := .ended } := by rw [← ht1]; exact upd_self ht'
          cases this
          cases hst1

/-- A call that is not running code, and stays there, comes back to receiving. -/
theorem loops (h : Forever cfg past σ acts) (hA : Attended cfg σ acts) {i n : Nat} (hl : ∀ m, n ≤ m → (σ m).alive i) :
    ∃ m, n ≤ m ∧ ∃ c, atCode (σ m) i c := by
  obtain ⟨t, ht, hst⟩ := hl n (Nat.le_refl _)
  cases hs : t.stage with
  | running c => exact ⟨n, Nat.le_refl _, c, t, ht, hs⟩
  | ended => exact absurd hs hst
  | offering x k =>
    rcases offered h hA _ (Nat.le_refl _) ⟨t, ht, hs⟩ with ⟨m, h1, h2, _⟩ | ⟨m, h1, h2⟩
    · exact ⟨m, h1, _, h2⟩
    · exact absurd (hl m h1) h2
  | plugins x =>
    have nd : NotDropped acts i n := by
      intro m hm ha
      have hs := h.act ha
      have := hl (m + 1) (by omega)
      revert hs this
      generalize σ (m + 1) = s', σ m = s
      intro hs this
      cases hs with
      | cancel _ t' ht' =>
        obtain ⟨t'', h1, h2⟩ := this
        have : some t'' = some { t' with stage := .ended } := by rw [← h1]; exact upd_self ht'
        cases this
        exact h2 rfl
    rcases until_or (Q := fun m => ∃ t, (σ m).tasks[i]? = some t ∧ t.stage = .plugins x) (E := fun m => acts m = some (.run i)) ⟨t, ht, hs⟩
      (fun m hm hq he => by
        obtain ⟨t, ht, hst⟩ := hq
        cases ha : acts m with
        | none => rw [h.idle ha]; exact ⟨t, ht, hst⟩
        | some a =>
          have hnd := nd m hm
          rw [ha] at he hnd
          have hs := h.act ha
          refine ⟨t, other_task hs ht (fun e => he (by rw [e])) ?_ ?_ (fun e => hnd (by rw [e])), hst⟩
          · rintro rfl
            revert hs ht
            generalize σ (m + 1) = s', σ m = s
            intro ht hs
            cases hs with
            | refuse _ t' ht' _ _ hc' => rw [ht] at ht'; cases ht'; rw [hst] at hc'; cases hc'
          · rintro r rfl
            revert hs ht
            generalize σ (m + 1) = s', σ m = s
            intro ht hs
            cases hs with
            | accepted _ t' ht' _ _ hc' => rw [ht] at ht'; cases ht'; rw [hst] at hc'; cases hc'
            | rejected _ t' ht' _ _ hc' => rw [ht] at ht'; cases ht'; rw [hst] at hc'; cases hc') with ⟨m, hm, ⟨t, ht, hst⟩, ha⟩ | hx
    · have hs := h.steps m
      rw [ha] at hs
      simp only [step, ht, runTask, hst] at hs
      split at hs
      · simp only [Option.some.injEq] at hs
        have : atOffer (σ (m + 1)) i x 0 := by rw [← hs]; exact ⟨_, upd_self ht, rfl⟩
        rcases offered h hA _ (Nat.le_refl _) this with ⟨m', h1, h2, _⟩ | ⟨m', h1, h2⟩
        · exact ⟨m', by omega, _, h2⟩
        · exact absurd (hl m' (by omega)) h2
      · cases hs
    · exfalso
      have hex : ∃ N, n ≤ N ∧ ∀ m', N ≤ m' → (σ m').pluginHolder ≠ none := by
        refine Classical.byContradiction fun hy => ?_
        have hen : AgainAndAgain (fun n => ∃ s', step cfg (σ n) (.run i) = some s') := by
          intro j
          refine Classical.byContradiction fun hz => hy ⟨max n j, by omega, fun m' hm' hh => hz ⟨m', by omega, ?_⟩⟩
          obtain ⟨t, ht, hst⟩ := hx m' (by omega)
          simp only [step, ht, runTask, hst, hh, if_true]
          exact ⟨_, rfl⟩
        obtain ⟨m', hm', ha⟩ := hA.calls i hen n
        obtain ⟨t, ht, hst⟩ := hx m' hm'
        obtain ⟨t1, ht1, hst1⟩ := hx (m' + 1) (by omega)
        have hs := h.steps m'
        rw [ha] at hs
        simp only [step, ht, runTask, hst] at hs
        split at hs
        · simp only [Option.some.injEq] at hs
          rw [← hs] at ht1
          have : some t1 = some { t with stage := .offering x 0 } := by rw [← ht1]; exact upd_self ht
          cases this
          cases hst1
        · cases hs
      obtain ⟨N, hN, hh⟩ := hex
      obtain ⟨j, hj⟩ := Option.ne_none_iff_exists'.mp (hh N (Nat.le_refl _))
      have hall : ∀ m', N ≤ m' → (σ m').pluginHolder = some j := by
        intro m' hm'
        induction m' with
        | zero =>
          have : N = 0 := by omega
          subst this; exact hj
        | succ m' ih =>
          by_cases he : N = m' + 1
          · subst he; exact hj
          · have ih := ih (by omega)
            cases ha : acts m' with
            | none => rw [h.idle ha]; exact ih
            | some a =>
              rcases plugin_next (h.act ha) ih with h1 | h1
              · exact h1
              · exact absurd h1 (hh (m' + 1) (by omega))
      obtain ⟨y, k, hk⟩ := plugin_held (h.run N) hj
      rcases offered h hA _ (Nat.le_refl _) hk with ⟨m', h1, h2, h3⟩ | ⟨m', h1, h2⟩
      · exact h3 (hall m' h1)
      · obtain ⟨y', k', t', ht', hst'⟩ := plugin_held (h.run m') (hall m' h1)
        exact h2 ⟨t', ht', by rw [hst']; simp⟩

end

end Neutron.Consumer
