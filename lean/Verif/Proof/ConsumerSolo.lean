import Verif.Proof.ConsumerCodes

/-!
# Where code leads, and a call running on its own
-/

namespace Neutron.Consumer

open Neutron

variable {T : Type}

/-- Code `c` can get to `c'`; `closed`: the engine may be gone; `M`: the messages that may come. -/
inductive Leads (closed : Prop) (M : Message → Prop) : Code T → Code T → Prop where
  | refl (c : Code T) : Leads closed M c c
  | load (k : UInt32 → Code T) (n : UInt32) (c' : Code T) : Leads closed M (k n) c' → Leads closed M (.load k) c'
  | store (n : UInt32) (k c' : Code T) : Leads closed M k c' → Leads closed M (.store n k) c'
  | add (n : UInt32) (k c' : Code T) : Leads closed M k c' → Leads closed M (.add n k) c'
  | flow (n : UInt32) (k : Outcome Unit → Code T) (c' : Code T) : Leads closed M (k (.ok ())) c' → Leads closed M (.flow n k) c'
  | refuse (n : UInt32) (k : Outcome Unit → Code T) (c' : Code T) (hc : closed) :
      Leads closed M (k (.err .channelTerminated)) c' → Leads closed M (.flow n k) c'
  | lock (k : List (Received T) → Code T) (b : List (Received T)) (c' : Code T) : Leads closed M (k b) c' → Leads closed M (.lock k) c'
  | write (b : List (Received T)) (k c' : Code T) : Leads closed M k c' → Leads closed M (.write b k) c'
  | recv (k : Outcome Message → Code T) (m : Message) (c' : Code T) (hm : M m) : Leads closed M (k (.ok m)) c' → Leads closed M (.recv k) c'
  | gone (k : Outcome Message → Code T) (c' : Code T) (hc : closed) :
      Leads closed M (k (.err .channelTerminated)) c' → Leads closed M (.recv k) c'

section
variable {closed : Prop} {M : Message → Prop}

theorem Leads.trans {a b c : Code T} (h1 : Leads closed M a b) (h2 : Leads closed M b c) : Leads closed M a c := by
  induction h1 with
  | refl => exact h2
  | load k n c' _ ih => exact .load k n _ (ih h2)
  | store n k c' _ ih => exact .store n k _ (ih h2)
  | add n k c' _ ih => exact .add n k _ (ih h2)
  | flow n k c' _ ih => exact .flow n k _ (ih h2)
  | refuse n k c' hc _ ih => exact .refuse n k _ hc (ih h2)
  | lock k b c' _ ih => exact .lock k b _ (ih h2)
  | write b k c' _ ih => exact .write b k _ (ih h2)
  | recv k m c' hm _ ih => exact .recv k m _ hm (ih h2)
  | gone k c' hc _ ih => exact .gone k _ hc (ih h2)

/-- A property of everything code can get to. -/
def All (closed : Prop) (M : Message → Prop) (Q : Outcome (List (Received T)) → Prop) (V : Prop) : Code T → Prop
  | .ret o => Q o
  | .load k => ∀ n, All closed M Q V (k n)
  | .store _ k => All closed M Q V k
  | .add _ k => All closed M Q V k
  | .flow _ k => All closed M Q V (k (.ok ())) ∧ (closed → All closed M Q V (k (.err .channelTerminated)))
  | .lock k => ∀ b, All closed M Q V (k b)
  | .write _ k => All closed M Q V k
  | .recv k => V ∧ (∀ m, M m → All closed M Q V (k (.ok m))) ∧ (closed → All closed M Q V (k (.err .channelTerminated)))

theorem All.leads {Q : Outcome (List (Received T)) → Prop} {V : Prop} {c c' : Code T} (h : Leads closed M c c')
    (hc : All closed M Q V c) : All closed M Q V c' := by
  induction h with
  | refl => exact hc
  | load k n c' _ ih => exact ih (hc n)
  | store n k c' _ ih => exact ih hc
  | add n k c' _ ih => exact ih hc
  | flow n k c' _ ih => exact ih hc.1
  | refuse n k c' hcl _ ih => exact ih (hc.2 hcl)
  | lock k b c' _ ih => exact ih (hc b)
  | write b k c' _ ih => exact ih hc
  | recv k m c' hm _ ih => exact ih (hc.2.1 m hm)
  | gone k c' hcl _ ih => exact ih (hc.2.2 hcl)

theorem all_checkAndFlow (cfg : Cfg T) {Q : Outcome (List (Received T)) → Prop} {V : Prop} {k : Code T} (h : All closed M Q V k)
    (hq : closed → Q (.err .channelTerminated)) : All closed M Q V (checkAndFlow cfg k) := by
  intro n
  dsimp only
  split
  · exact ⟨h, hq⟩
  · exact h
end

/-- Every call in progress runs code its job can get to, and every result is one its job can return. -/
structure Along (closed : Prop) (cfg : Cfg T) (M : Message → Prop) (s : State T) : Prop where
  running : ∀ (i : Nat) (t : Task T) (c : Code T), s.tasks[i]? = some t → t.stage = .running c → Leads closed M (t.job.code cfg) c
  consume : ∀ (i : Nat) (t : Task T), s.tasks[i]? = some t → (∀ c, t.stage ≠ .running c) → t.stage ≠ .ended → t.job = .consume
  results : ∀ i o, (i, o) ∈ s.results → ∃ t : Task T, s.tasks[i]? = some t ∧ Leads closed M (t.job.code cfg) (.ret o)

theorem Along.congr {closed : Prop} {cfg : Cfg T} {M : Message → Prop} {s s' : State T} (h : Along closed cfg M s) (h1 : s'.tasks = s.tasks)
    (h2 : s'.results = s.results) : Along closed cfg M s' := by
  refine ⟨?_, ?_, ?_⟩
  · rw [h1]; exact h.running
  · rw [h1]; exact h.consume
  · rw [h1, h2]; exact h.results

theorem Along.move {closed : Prop} {cfg : Cfg T} {M : Message → Prop} {s : State T} (h : Along closed cfg M s) {i : Nat} {t : Task T}
    (ht : s.tasks[i]? = some t) {st : Stage T} (h1 : ∀ c, st = .running c → Leads closed M (t.job.code cfg) c)
    (h2 : (∀ c, st ≠ .running c) → st ≠ .ended → t.job = .consume) : Along closed cfg M (s.goto i t st) := by
  refine ⟨?_, ?_, ?_⟩
  · intro j t' c g1 g2
    rcases upd g1 with ⟨rfl, rfl⟩ | ⟨_, g1⟩
    · exact h1 c g2
    · exact h.running j t' c g1 g2
  · intro j t' g1 g2 g3
    rcases upd g1 with ⟨rfl, rfl⟩ | ⟨_, g1⟩
    · exact h2 g2 g3
    · exact h.consume j t' g1 g2 g3
  · intro j o g
    obtain ⟨t', g1, g2⟩ := h.results j o g
    by_cases hij : j = i
    · subst hij
      rw [ht] at g1; cases g1
      exact ⟨_, upd_self ht, g2⟩
    · exact ⟨t', by simpa [State.goto, upd_ne hij] using g1, g2⟩

theorem stays_closed {cfg : Cfg T} {s s' : State T} {a : Act} (hs : step cfg s a = some s') (h : s.isOpen = false) : s'.isOpen = false := by
  cases step_cases hs <;> first | exact h | rfl | (simp [State.goto, finish]; exact h)

theorem along_with {closed : Prop} {cfg : Cfg T} {M : Message → Prop} {as : List Act} {s : State T} (h : Run cfg as s) (hm : ∀ m ∈ delivered as, M m)
    (ho : s.isOpen = false → closed) : Along closed cfg M s := by
  induction h with
  | nil => exact ⟨fun i t c h => by simp [init] at h, fun i t h => by simp [init] at h, fun i o h => by simp [init] at h⟩
  | @snoc as s s' a h hs ih =>
    have h' := Run.snoc h hs
    have ih := ih (fun m h => hm m (by simp [h])) (fun hc => ho (stays_closed hs hc))
    have go : ∀ {i : Nat} {t : Task T} {c c' : Code T}, s.tasks[i]? = some t → t.stage = .running c → Leads closed M c c' → Along closed cfg M (s.goto i t (.running c')) := by
      intro i t c c' ht hc hl
      refine ih.move ht ?_ (fun hne => absurd rfl (hne c'))
      intro c'' e
      cases e
      exact (ih.running i t c ht hc).trans hl
    cases step_cases hs with
    | deliver e => exact ih.congr rfl rfl
    | close => exact ih.congr rfl rfl
    | skip => exact ih.congr rfl rfl
    | spawn j =>
      have key : ∀ {i : Nat} {t : Task T}, (s.tasks ++ [⟨j, .running (j.code cfg)⟩])[i]? = some t → s.tasks[i]? = some t ∨ t = ⟨j, .running (j.code cfg)⟩ := by
        intro i t g
        have := List.mem_of_getElem? g
        rw [List.getElem?_append] at g
        split at g
        · exact .inl g
        · right
          cases hx : i - s.tasks.length with
          | zero => rw [hx] at g; simpa using g.symm
          | succ n => rw [hx] at g; cases g
      refine ⟨?_, ?_, ?_⟩
      · intro i t c g1 g2
        rcases key g1 with g1 | rfl
        · exact ih.running i t c g1 g2
        · cases g2; exact .refl _
      · intro i t g1 g2 g3
        rcases key g1 with g1 | rfl
        · exact ih.consume i t g1 g2 g3
        · exact absurd rfl (g2 _)
      · intro i o g
        obtain ⟨t, g1, g2⟩ := ih.results i o g
        refine ⟨t, ?_, g2⟩
        obtain ⟨hl, _⟩ := List.getElem?_eq_some_iff.mp g1
        show (s.tasks ++ _)[i]? = some t
        rw [List.getElem?_append_left hl]
        exact g1
    | ret i t ht o hc =>
      have mv := ih.move ht (st := after t.job o) (fun c e => absurd e (after_ne _ _ _)) (by
        intro _ he
        unfold after at he
        split at he
        · assumption
        · exact absurd rfl he)
      refine ⟨mv.running, mv.consume, ?_⟩
      intro j o' g
      simp only [finish, List.mem_append, List.mem_singleton, Prod.mk.injEq] at g
      rcases g with g | ⟨rfl, rfl⟩
      · exact mv.results j o' g
      · exact ⟨_, upd_self ht, ih.running j t _ ht hc⟩
    | load i t ht k hc => exact go ht hc (.load _ _ _ (.refl _))
    | store i t ht n k hc => exact (go ht hc (.store _ _ _ (.refl _))).congr rfl rfl
    | add i t ht n k hc => exact (go ht hc (.add _ _ _ (.refl _))).congr rfl rfl
    | flow i t ht n k hc => exact (go ht hc (.flow _ _ _ (.refl _))).congr rfl rfl
    | refuse i t ht n k hc hop => exact go ht hc (.refuse _ _ _ (ho hop) (.refl _))
    | lock i t ht k hc => exact (go ht hc (.lock _ _ _ (.refl _))).congr rfl rfl
    | write i t ht b k hc => exact (go ht hc (.write _ _ _ (.refl _))).congr rfl rfl
    | recv i t ht k hc m q hq =>
      exact (go ht hc (.recv _ _ _ (hm m (mem_delivered_of_received h' (by simp))) (.refl _))).congr rfl rfl
    | gone i t ht k hc _ hop => exact go ht hc (.gone _ _ (ho hop) (.refl _))
    | plugins i t ht m hc =>
      exact (ih.move ht (st := .offering m 0) (by intro c e; cases e)
        (fun _ _ => ih.consume i t ht (by rw [hc]; simp) (by rw [hc]; simp))).congr rfl rfl
    | loop i t ht m k hc =>
      have hj := ih.consume i t ht (by rw [hc]; simp) (by rw [hc]; simp)
      exact (ih.move ht (st := .running (nextMessage cfg)) (by intro c e; cases e; rw [hj]; exact .refl _)
        (fun hne => absurd rfl (hne _))).congr rfl rfl
    | accepted i t ht m k hc =>
      exact (ih.move ht (st := .offering m (k + 1)) (by intro c e; cases e)
        (fun _ _ => ih.consume i t ht (by rw [hc]; simp) (by rw [hc]; simp))).congr rfl rfl
    | rejected i t ht m k hc =>
      exact (ih.move ht (st := .ended) (by intro c e; cases e) (fun _ he => absurd rfl he)).congr rfl rfl
    | cancel i t ht hw =>
      exact (ih.move ht (st := .ended) (by intro c e; cases e) (fun _ he => absurd rfl he)).congr rfl rfl

theorem along {cfg : Cfg T} {M : Message → Prop} {as : List Act} {s : State T} (h : Run cfg as s) (hm : ∀ m ∈ delivered as, M m) :
    Along True cfg M s := along_with h hm fun _ => trivial

/-! ## Running alone -/

/-- `n` steps of call `i`. -/
inductive Goes (cfg : Cfg T) (i : Nat) : State T → List Act → State T → Prop where
  | nil (s : State T) : Goes cfg i s [] s
  | cons {s s1 s' : State T} {as : List Act} : step cfg s (.run i) = some s1 → Goes cfg i s1 as s' → Goes cfg i s (.run i :: as) s'

theorem Goes.run {cfg : Cfg T} {i : Nat} {s s' : State T} {bs : List Act} (hg : Goes cfg i s bs s') :
    ∀ {as}, Run cfg as s → Run cfg (as ++ bs) s' := by
  induction hg with
  | nil => intro as h; simpa using h
  | @cons s s1 s' bs hs _ ih =>
    intro as h
    have := ih (Run.snoc h hs)
    simpa using this

theorem Goes.acts {cfg : Cfg T} {i : Nat} {s s' : State T} {bs : List Act} (hg : Goes cfg i s bs s') : ∀ a ∈ bs, a = .run i := by
  induction hg with
  | nil => simp
  | cons _ _ ih => simpa using ih

theorem Goes.snoc {cfg : Cfg T} {i : Nat} {s s1 s' : State T} {bs : List Act} (hg : Goes cfg i s bs s1)
    (h : step cfg s1 (.run i) = some s') : Goes cfg i s (bs ++ [.run i]) s' := by
  induction hg with
  | nil => exact .cons h (.nil _)
  | cons h1 _ ih => exact .cons h1 (ih h)

/-- A call whose code is `c`, run on its own while the engine is there, gets to a result, to waiting with nothing in the channel,
or to a lock it holds itself. -/
theorem solo {cfg : Cfg T} {i : Nat} (c : Code T) : ∀ (s : State T) (t : Task T), s.tasks[i]? = some t → t.stage = .running c →
    s.isOpen = true → (s.holder = none ∨ s.holder = some i) →
    ∃ (bs : List Act) (s' : State T) (t' : Task T) (c' : Code T), Goes cfg i s bs s' ∧ s'.tasks[i]? = some t' ∧ t'.job = t.job ∧ t'.stage = .running c' ∧ s'.isOpen = true ∧
      s'.results = s.results ∧ s'.tasks.length = s.tasks.length ∧ (s'.holder = none ∨ s'.holder = some i) ∧
      (∀ j, j ≠ i → s'.tasks[j]? = s.tasks[j]?) ∧ Leads False (fun _ => True) c c' ∧
      ((∃ o, c' = .ret o) ∨ (∃ k, c' = .recv k ∧ s'.inbox = []) ∨ (∃ k, c' = .lock k ∧ s'.holder = some i)) := by
  have key : ∀ {c c1 : Code T} {s s1 : State T} {t : Task T}, s.tasks[i]? = some t → step cfg s (.run i) = some s1 →
      s1.tasks = s.tasks.set i { t with stage := .running c1 } → s1.isOpen = true → s1.results = s.results →
      (s1.holder = none ∨ s1.holder = some i) → Leads False (fun _ => True) c c1 →
      (∀ (s : State T) (t : Task T), s.tasks[i]? = some t → t.stage = .running c1 →
        s.isOpen = true → (s.holder = none ∨ s.holder = some i) →
        ∃ (bs : List Act) (s' : State T) (t' : Task T) (c' : Code T), Goes cfg i s bs s' ∧ s'.tasks[i]? = some t' ∧ t'.job = t.job ∧ t'.stage = .running c' ∧ s'.isOpen = true ∧
          s'.results = s.results ∧ s'.tasks.length = s.tasks.length ∧ (s'.holder = none ∨ s'.holder = some i) ∧
          (∀ j, j ≠ i → s'.tasks[j]? = s.tasks[j]?) ∧ Leads False (fun _ => True) c1 c' ∧
          ((∃ o, c' = .ret o) ∨ (∃ k, c' = .recv k ∧ s'.inbox = []) ∨ (∃ k, c' = .lock k ∧ s'.holder = some i))) →
      ∃ (bs : List Act) (s' : State T) (t' : Task T) (c' : Code T), Goes cfg i s bs s' ∧ s'.tasks[i]? = some t' ∧ t'.job = t.job ∧ t'.stage = .running c' ∧ s'.isOpen = true ∧
        s'.results = s.results ∧ s'.tasks.length = s.tasks.length ∧ (s'.holder = none ∨ s'.holder = some i) ∧
        (∀ j, j ≠ i → s'.tasks[j]? = s.tasks[j]?) ∧ Leads False (fun _ => True) c c' ∧
        ((∃ o, c' = .ret o) ∨ (∃ k, c' = .recv k ∧ s'.inbox = []) ∨ (∃ k, c' = .lock k ∧ s'.holder = some i)) := by
    intro c c1 s s1 t ht hs hts ho hr hh hl ih
    obtain ⟨bs, s', t', c', h1, h2, h3, h4, h5, h6, h7, h8, h9, h10, h11⟩ := ih s1 { t with stage := .running c1 }
      (by rw [hts]; exact upd_self ht) rfl ho hh
    refine ⟨_, s', t', c', .cons hs h1, h2, h3, h4, h5, h6.trans hr, h7.trans (by rw [hts]; simp), h8, ?_, hl.trans h10, h11⟩
    intro j hj
    rw [h9 j hj, hts, upd_ne hj]
  induction c with
  | ret o =>
    intro s t ht hc ho hh
    exact ⟨[], s, t, _, .nil _, ht, rfl, hc, ho, rfl, rfl, hh, fun _ _ => rfl, .refl _, .inl ⟨o, rfl⟩⟩
  | load k ih =>
    intro s t ht hc ho hh
    exact key ht (s1 := s.goto i t (.running (k s.permits))) (by simp only [step, ht, runTask, hc, runCode]) rfl ho rfl hh
      (.load _ _ _ (.refl _)) (ih _)
  | store n k ih =>
    intro s t ht hc ho hh
    exact key ht (s1 := { s.goto i t (.running k) with permits := n }) (by simp only [step, ht, runTask, hc, runCode]) rfl ho rfl hh
      (.store _ _ _ (.refl _)) ih
  | add n k ih =>
    intro s t ht hc ho hh
    exact key ht (s1 := { s.goto i t (.running k) with permits := s.permits + n }) (by simp only [step, ht, runTask, hc, runCode])
      rfl ho rfl hh (.add _ _ _ (.refl _)) ih
  | flow n k ih =>
    intro s t ht hc ho hh
    exact key ht (s1 := { s.goto i t (.running (k (.ok ()))) with granted := s.granted ++ [n] })
      (by simp only [step, ht, runTask, hc, runCode, ho, if_true]) rfl ho rfl hh (.flow _ _ _ (.refl _)) (ih _)
  | lock k ih =>
    intro s t ht hc ho hh
    rcases hh with hh | hh
    · exact key ht (s1 := { s.goto i t (.running (k s.buffer)) with holder := some i })
        (by simp only [step, ht, runTask, hc, runCode, hh, if_true]) rfl ho rfl (.inr rfl) (.lock _ _ _ (.refl _)) (ih _)
    · exact ⟨[], s, t, _, .nil _, ht, rfl, hc, ho, rfl, rfl, .inr hh, fun _ _ => rfl, .refl _, .inr (.inr ⟨k, rfl, hh⟩)⟩
  | write b k ih =>
    intro s t ht hc ho hh
    exact key ht (s1 := { s.goto i t (.running k) with buffer := b }) (by simp only [step, ht, runTask, hc, runCode]) rfl ho rfl hh
      (.write _ _ _ (.refl _)) ih
  | recv k ih =>
    intro s
    generalize hq : s.inbox = q
    induction q generalizing s with
    | nil =>
      intro t ht hc ho hh
      exact ⟨[], s, t, _, .nil _, ht, rfl, hc, ho, rfl, rfl, hh, fun _ _ => rfl, .refl _, .inr (.inl ⟨k, rfl, hq⟩)⟩
    | cons e q ihq =>
      intro t ht hc ho hh
      by_cases hm : ∃ m, e = .message m
      · obtain ⟨m, rfl⟩ := hm
        exact key ht (s1 := { s.goto i t (.running (k (.ok m))) with inbox := q, received := s.received ++ [m] })
          (by simp only [step, ht, runTask, hc, runCode, hq]) rfl ho rfl hh (.recv _ m _ trivial (.refl _)) (ih _)
      · obtain ⟨bs, s', t', c', h1, h2, h3, h4, h5, h6, h7, h8, h9, h10, h11⟩ :=
          ihq { s with inbox := q } rfl t ht hc ho hh
        refine ⟨_, s', t', c', .cons (s1 := { s with inbox := q }) ?_ h1, h2, h3, h4, h5, h6, h7, h8, h9, h10, h11⟩
        simp only [step, ht, runTask, hc, runCode, hq]
        cases e <;> first | rfl | exact absurd ⟨_, rfl⟩ hm

end Neutron.Consumer
