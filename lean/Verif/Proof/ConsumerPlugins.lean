import Verif.Proof.ConsumerCalls

/-!
# What `consume` does with its plugins
-/

namespace Neutron.Consumer

open Neutron

variable {T : Type}

theorem handedTo_snoc {s s' : State T} {i : Nat} {o : Outcome (List (Received T))} (h : s'.results = s.results ++ [(i, o)]) (j : Nat) :
    s'.handedTo j = s.handedTo j ++ (if i = j then (match o with | .ok ms => ms | _ => []) else []) ∧
      s'.failures j = s.failures j ++ (if i = j then (match o with | .ok _ => [] | _ => [o]) else []) := by
  unfold State.handedTo State.failures
  rw [h, List.filterMap_append]
  by_cases hij : i = j
  · subst hij
    cases o <;> simp
  · simp [hij]

theorem handedTo_congr {s s' : State T} (h : s'.results = s.results) (j : Nat) : s'.handedTo j = s.handedTo j ∧ s'.failures j = s.failures j := by
  unfold State.handedTo State.failures
  rw [h]; exact ⟨rfl, rfl⟩

theorem offersOf_snoc {s s' : State T} {i : Nat} {x : Nat × Received T × Outcome Unit} (h : s'.offers = s.offers ++ [(i, x)]) (j : Nat) :
    s'.offersOf j = s.offersOf j ++ (if i = j then [x] else []) := by
  unfold State.offersOf
  rw [h, List.filterMap_append]
  by_cases hij : i = j <;> simp [hij]

theorem offersOf_congr {s s' : State T} (h : s'.offers = s.offers) (j : Nat) : s'.offersOf j = s.offersOf j := by
  unfold State.offersOf; rw [h]

/-- All of it offered, all of it accepted. -/
def told (xs : List (Nat × Received T)) : List (Nat × Received T × Outcome Unit) := xs.map fun x => (x.1, x.2, .ok ())

/-- The first `k` plugins. -/
def upto (k : Nat) (m : Received T) : List (Nat × Received T) := (List.range k).map fun k => (k, m)

/-- How a `consume` call can have come to its end. -/
inductive Stopped (P : Nat) (cancelled : Prop) : List (Received T) → List (Outcome (List (Received T))) →
    List (Nat × Received T × Outcome Unit) → Prop where
  | failed (ms : List (Received T)) (o : Outcome (List (Received T))) (ho : ∀ r, o ≠ .ok r) :
      Stopped P cancelled ms [o] (told (offering P ms))
  | rejected (ms : List (Received T)) (m : Received T) (k : Nat) (r : Outcome Unit) (hk : k < P) (hr : r ≠ .ok ()) :
      Stopped P cancelled (ms ++ [m]) [] (told (offering P ms ++ upto k m) ++ [(k, m, r)])
  | idle (ms : List (Received T)) (hc : cancelled) : Stopped P cancelled ms [] (told (offering P ms))
  | busy (ms : List (Received T)) (m : Received T) (k : Nat) (hk : k ≤ P) (hc : cancelled) :
      Stopped P cancelled (ms ++ [m]) [] (told (offering P ms ++ upto k m))

/-- What a `consume` call has done so far. -/
inductive Told (P : Nat) (cancelled : Prop) : Stage T → List (Received T) → List (Outcome (List (Received T))) →
    List (Nat × Received T × Outcome Unit) → Prop where
  | running (c : Code T) (ms : List (Received T)) : Told P cancelled (.running c) ms [] (told (offering P ms))
  | plugins (m : Received T) (ms : List (Received T)) : Told P cancelled (.plugins m) (ms ++ [m]) [] (told (offering P ms))
  | offering (m : Received T) (k : Nat) (ms : List (Received T)) (hk : k ≤ P) :
      Told P cancelled (.offering m k) (ms ++ [m]) [] (told (offering P ms ++ upto k m))
  | ended (ms : List (Received T)) (fs : List (Outcome (List (Received T)))) (os : List (Nat × Received T × Outcome Unit))
      (h : Stopped P cancelled ms fs os) : Told P cancelled .ended ms fs os

structure Plugged (cfg : Cfg T) (as : List Act) (s : State T) : Prop where
  told : ∀ (i : Nat) (t : Task T), s.tasks[i]? = some t → t.job = .consume →
    Told cfg.plugins (.cancel i ∈ as) t.stage (s.handedTo i) (s.failures i) (s.offersOf i)
  fresh : ∀ i, s.tasks.length ≤ i → s.handedTo i = [] ∧ s.failures i = [] ∧ s.offersOf i = []

theorem Stopped.mono {P : Nat} {c c' : Prop} (hc : c → c') {ms : List (Received T)} {fs : List (Outcome (List (Received T)))}
    {os : List (Nat × Received T × Outcome Unit)} (h : Stopped P c ms fs os) : Stopped P c' ms fs os := by
  cases h with
  | failed _ o ho => exact .failed ms o ho
  | rejected ms m k r hk hr => exact .rejected ms m k r hk hr
  | idle _ h => exact .idle ms (hc h)
  | busy ms m k hk h => exact .busy ms m k hk (hc h)

theorem Told.mono {P : Nat} {c c' : Prop} (hc : c → c') {st : Stage T} {ms : List (Received T)} {fs : List (Outcome (List (Received T)))}
    {os : List (Nat × Received T × Outcome Unit)} (h : Told P c st ms fs os) : Told P c' st ms fs os := by
  cases h with
  | running c' ms => exact .running c' ms
  | plugins m ms => exact .plugins m ms
  | offering m k ms hk => exact .offering m k ms hk
  | ended _ _ _ h => exact .ended ms fs os (h.mono hc)

theorem told_append (a b : List (Nat × Received T)) : told (a ++ b) = told a ++ told b := List.map_append ..

theorem offering_snoc (P : Nat) (ms : List (Received T)) (m : Received T) : offering P (ms ++ [m]) = offering P ms ++ upto P m := by
  simp [offering, upto]

theorem upto_succ (k : Nat) (m : Received T) : upto (k + 1) m = upto k m ++ [(k, m)] := by
  simp [upto, List.range_succ]

theorem upto_zero (m : Received T) : upto 0 m = [] := rfl

/-- A step that changes only where call `i` is. -/
theorem Plugged.goto {cfg : Cfg T} {as : List Act} {s s' : State T} {a : Act} (h : Plugged cfg as s) {i : Nat} {t : Task T} {st : Stage T}
    (ht : s.tasks[i]? = some t) (h1 : s'.tasks = s.tasks.set i { t with stage := st })
    (hne : ∀ j, j ≠ i → s'.handedTo j = s.handedTo j ∧ s'.failures j = s.failures j ∧ s'.offersOf j = s.offersOf j)
    (hi : t.job = .consume → Told cfg.plugins (.cancel i ∈ as) t.stage (s.handedTo i) (s.failures i) (s.offersOf i) →
      Told cfg.plugins (.cancel i ∈ as ++ [a]) st (s'.handedTo i) (s'.failures i) (s'.offersOf i)) : Plugged cfg (as ++ [a]) s' := by
  obtain ⟨hl, _⟩ := List.getElem?_eq_some_iff.mp ht
  refine ⟨?_, ?_⟩
  · intro j u hu hj
    rw [h1] at hu
    rcases upd hu with ⟨rfl, rfl⟩ | ⟨hji, hu⟩
    · exact hi hj (h.told _ t ht hj)
    · obtain ⟨e1, e2, e3⟩ := hne j hji
      rw [e1, e2, e3]
      exact (h.told j u hu hj).mono (by simp +contextual)
  · intro j hj
    rw [h1, List.length_set] at hj
    obtain ⟨e1, e2, e3⟩ := hne j (by omega)
    rw [e1, e2, e3]
    exact h.fresh j hj

theorem Plugged.congr {cfg : Cfg T} {as : List Act} {s s' : State T} {a : Act} (h : Plugged cfg as s) (h1 : s'.tasks = s.tasks)
    (h2 : s'.results = s.results) (h3 : s'.offers = s.offers) : Plugged cfg (as ++ [a]) s' := by
  refine ⟨?_, ?_⟩
  · intro j u hu hj
    rw [h1] at hu
    rw [(handedTo_congr h2 j).1, (handedTo_congr h2 j).2, offersOf_congr h3]
    exact (h.told j u hu hj).mono (by simp +contextual)
  · intro j hj
    rw [h1] at hj
    rw [(handedTo_congr h2 j).1, (handedTo_congr h2 j).2, offersOf_congr h3]
    exact h.fresh j hj

/-- A step from running code to running code. -/
theorem Plugged.code {cfg : Cfg T} {as : List Act} {s s' : State T} {a : Act} (h : Plugged cfg as s) {i : Nat} {t : Task T} {c c' : Code T}
    (ht : s.tasks[i]? = some t) (hc : t.stage = .running c) (h1 : s'.tasks = s.tasks.set i { t with stage := .running c' })
    (h2 : s'.results = s.results) (h3 : s'.offers = s.offers) : Plugged cfg (as ++ [a]) s' := by
  refine h.goto ht h1 (fun j _ => ⟨(handedTo_congr h2 j).1, (handedTo_congr h2 j).2, offersOf_congr h3 j⟩) ?_
  intro _ h
  rw [(handedTo_congr h2 i).1, (handedTo_congr h2 i).2, offersOf_congr h3]
  rw [hc] at h
  generalize s.handedTo i = A at h ⊢
  generalize s.failures i = F at h ⊢
  generalize s.offersOf i = O at h ⊢
  cases h with
  | running => exact .running _ _

/-- What `next_message` can return: one message, or a failure. -/
theorem all_single (cfg : Cfg T) :
    All True (fun _ => True) (fun o => ∀ ms, o = .ok ms → ∃ m, ms = [m]) True (nextMessage cfg) := by
  refine all_checkAndFlow cfg ?_ (by intro _ ms h; cases h)
  intro b
  cases b with
  | cons m rest => simp [All]
  | nil =>
    refine ⟨trivial, fun m _ => ?_, fun _ => by simp [All]⟩
    rcases unpack_yields cfg.decode m with ⟨r, rs, h1, _⟩ | ⟨h1, _⟩ | ⟨h1, _⟩ | ⟨h1, _⟩ <;> simp [h1, All]

theorem plugged {cfg : Cfg T} {as : List Act} {s : State T} (h : Run cfg as s) : Plugged cfg as s := by
  induction h with
  | nil =>
    exact ⟨fun i t h => by simp [init] at h, fun i _ => ⟨rfl, rfl, rfl⟩⟩
  | @snoc as s s' a hr hs ih =>
    have hal := along (M := fun _ => True) hr (fun _ _ => trivial)
    cases step_cases hs with
    | deliver e => exact ih.congr rfl rfl rfl
    | close => exact ih.congr rfl rfl rfl
    | skip => exact ih.congr rfl rfl rfl
    | load i t ht k hc => exact ih.code ht hc rfl rfl rfl
    | store i t ht n k hc => exact ih.code ht hc rfl rfl rfl
    | add i t ht n k hc => exact ih.code ht hc rfl rfl rfl
    | flow i t ht n k hc => exact ih.code ht hc rfl rfl rfl
    | refuse i t ht n k hc => exact ih.code ht hc rfl rfl rfl
    | lock i t ht k hc => exact ih.code ht hc rfl rfl rfl
    | write i t ht b k hc => exact ih.code ht hc rfl rfl rfl
    | recv i t ht k hc m q hq => exact ih.code ht hc rfl rfl rfl
    | gone i t ht k hc => exact ih.code ht hc rfl rfl rfl
    | spawn j =>
      refine ⟨?_, ?_⟩
      · intro i t h1 hj
        rw [List.getElem?_append] at h1
        split at h1
        · exact (ih.told i t h1 hj).mono (by simp +contextual)
        · rename_i hge
          cases hx : i - s.tasks.length with
          | zero =>
            rw [hx] at h1
            simp only [List.getElem?_cons_zero, Option.some.injEq] at h1
            subst h1
            obtain ⟨e1, e2, e3⟩ := ih.fresh i (by omega)
            show Told _ _ (.running _) (s.handedTo i) (s.failures i) (s.offersOf i)
            rw [e1, e2, e3]
            exact .running _ []
          | succ n => rw [hx] at h1; cases h1
      · intro i hi
        exact ih.fresh i (by simp at hi; omega)
    | ret i t ht o hc =>
      have hsn := handedTo_snoc (s := s) (s' := finish s i t o) (i := i) (o := o) rfl
      refine ih.goto (s' := finish s i t o) ht rfl ?_ ?_
      · intro j hj
        have := hsn j
        rw [if_neg (by omega), if_neg (by omega)] at this
        exact ⟨by simpa using this.1, by simpa using this.2, rfl⟩
      · intro hj h
        have := hsn i
        rw [if_pos rfl, if_pos rfl] at this
        rw [this.1, this.2, offersOf_congr (s := s) (s' := finish s i t o) rfl]
        have hq := All.leads (hal.running i t _ ht hc) (by rw [hj]; exact all_single cfg)
        rw [hc] at h
        generalize hA : s.handedTo i = A at h
        generalize hF : s.failures i = F at h
        generalize hO : s.offersOf i = O at h
        cases h with
        | running c ms =>
          cases o with
          | ok rs =>
            obtain ⟨m, rfl⟩ := hq rs rfl
            rw [hj]
            simp only [after, List.append_nil]
            exact .plugins m A
          | err e =>
            rw [hj]
            simp only [after, List.append_nil, List.nil_append]
            exact .ended _ _ _ (.failed A _ (by intro r h; cases h))
          | panic =>
            rw [hj]
            simp only [after, List.append_nil, List.nil_append]
            exact .ended _ _ _ (.failed A _ (by intro r h; cases h))
    | plugins i t ht m hc _ =>
      refine ih.goto ht (st := .offering m 0) rfl (fun _ _ => ⟨rfl, rfl, rfl⟩) ?_
      intro hj h
      rw [hc] at h
      show Told _ _ _ (s.handedTo i) (s.failures i) (s.offersOf i)
      generalize s.handedTo i = A at h
      generalize s.failures i = F at h
      generalize s.offersOf i = O at h
      cases h with
      | plugins _ ms =>
        have := Told.offering (P := cfg.plugins) (cancelled := .cancel i ∈ as ++ [.run i]) m 0 ms (Nat.zero_le _)
        rw [upto_zero, List.append_nil] at this
        exact this
    | loop i t ht m k hc hk =>
      refine ih.goto ht (st := .running (nextMessage cfg)) rfl (fun _ _ => ⟨rfl, rfl, rfl⟩) ?_
      intro hj h
      rw [hc] at h
      show Told _ _ _ (s.handedTo i) (s.failures i) (s.offersOf i)
      generalize s.handedTo i = A at h
      generalize s.failures i = F at h
      generalize s.offersOf i = O at h
      cases h with
      | offering _ _ ms hk' =>
        obtain rfl : k = cfg.plugins := by omega
        rw [← offering_snoc]
        exact .running _ _
    | accepted i t ht m k hc hk =>
      have hsn := offersOf_snoc (s := s) (s' := { s.goto i t (.offering m (k + 1)) with offers := s.offers ++ [(i, k, m, .ok ())] })
        (i := i) (x := (k, m, .ok ())) rfl
      refine ih.goto ht (st := .offering m (k + 1)) rfl (fun j hj => ⟨rfl, rfl, ?_⟩) ?_
      · have := hsn j
        rw [if_neg (by omega)] at this
        simpa using this
      · intro hj h
        rw [hsn i, if_pos rfl]
        rw [hc] at h
        show Told _ _ _ (s.handedTo i) (s.failures i) _
        generalize s.handedTo i = A at h
        generalize s.failures i = F at h
        generalize s.offersOf i = O at h
        cases h with
        | offering _ _ ms hk' =>
          have := Told.offering (P := cfg.plugins) (cancelled := .cancel i ∈ as ++ [.offer i (.ok ())]) m (k + 1) ms hk
          rw [upto_succ, ← List.append_assoc, told_append] at this
          exact this
    | rejected i t ht m k hc hk r hr' =>
      have hsn := offersOf_snoc (s := s) (s' := { s.goto i t .ended with pluginHolder := release s.pluginHolder i, offers := s.offers ++ [(i, k, m, r)] })
        (i := i) (x := (k, m, r)) rfl
      refine ih.goto ht (st := .ended) rfl (fun j hj => ⟨rfl, rfl, ?_⟩) ?_
      · have := hsn j
        rw [if_neg (by omega)] at this
        simpa using this
      · intro hj h
        rw [hsn i, if_pos rfl]
        rw [hc] at h
        show Told _ _ _ (s.handedTo i) (s.failures i) _
        generalize s.handedTo i = A at h
        generalize s.failures i = F at h
        generalize s.offersOf i = O at h
        cases h with
        | offering _ _ ms hk' => exact .ended _ _ _ (.rejected ms m k r hk hr')
    | cancel i t ht hw =>
      refine ih.goto ht (st := .ended) rfl (fun _ _ => ⟨rfl, rfl, rfl⟩) ?_
      intro hj h
      show Told _ _ _ (s.handedTo i) (s.failures i) (s.offersOf i)
      generalize s.handedTo i = A at h
      generalize s.failures i = F at h
      generalize s.offersOf i = O at h
      have hin : Act.cancel i ∈ as ++ [.cancel i] := by simp
      cases hst : t.stage with
      | running c =>
        rw [hst] at h
        cases h with
        | running => exact .ended _ _ _ (.idle _ hin)
      | plugins m =>
        rw [hst] at h
        cases h with
        | plugins _ ms =>
          have := Stopped.busy (P := cfg.plugins) (cancelled := .cancel i ∈ as ++ [.cancel i]) ms m 0 (Nat.zero_le _) hin
          rw [upto_zero, List.append_nil] at this
          exact .ended _ _ _ this
      | offering m k =>
        rw [hst] at h
        cases h with
        | offering _ _ ms hk => exact .ended _ _ _ (.busy ms m k hk hin)
      | ended => rw [hst] at hw; cases hw

end Neutron.Consumer
