import Verif.Spec.Consumer

/-!
# Steps of the consumer, case by case, and facts of every run
-/

namespace Neutron.Consumer

open Neutron

variable {T : Type}

/-- `step` as a relation, one constructor per case. -/
inductive Step (cfg : Cfg T) (s : State T) : Act → State T → Prop where
  | deliver (e : Inbound) (h : s.isOpen = true) : Step cfg s (.deliver e) { s with inbox := s.inbox ++ [e] }
  | close : Step cfg s .close { s with isOpen := false }
  | spawn (j : Job) : Step cfg s (.spawn j) { s with tasks := s.tasks ++ [⟨j, .running (j.code cfg)⟩] }
  | ret (i : Nat) (t : Task T) (ht : s.tasks[i]? = some t) (o : Outcome (List (Received T))) (hc : t.stage = .running (.ret o)) :
      Step cfg s (.run i) (finish s i t o)
  | load (i : Nat) (t : Task T) (ht : s.tasks[i]? = some t) (k : UInt32 → Code T) (hc : t.stage = .running (.load k)) :
      Step cfg s (.run i) (s.goto i t (.running (k s.permits)))
  | store (i : Nat) (t : Task T) (ht : s.tasks[i]? = some t) (n : UInt32) (k : Code T) (hc : t.stage = .running (.store n k)) :
      Step cfg s (.run i) { s.goto i t (.running k) with permits := n }
  | add (i : Nat) (t : Task T) (ht : s.tasks[i]? = some t) (n : UInt32) (k : Code T) (hc : t.stage = .running (.add n k)) :
      Step cfg s (.run i) { s.goto i t (.running k) with permits := s.permits + n }
  | flow (i : Nat) (t : Task T) (ht : s.tasks[i]? = some t) (n : UInt32) (k : Outcome Unit → Code T)
      (hc : t.stage = .running (.flow n k)) (ho : s.isOpen = true) :
      Step cfg s (.run i) { s.goto i t (.running (k (.ok ()))) with granted := s.granted ++ [n] }
  | lock (i : Nat) (t : Task T) (ht : s.tasks[i]? = some t) (k : List (Received T) → Code T)
      (hc : t.stage = .running (.lock k)) (hh : s.holder = none) :
      Step cfg s (.run i) { s.goto i t (.running (k s.buffer)) with holder := some i }
  | write (i : Nat) (t : Task T) (ht : s.tasks[i]? = some t) (b : List (Received T)) (k : Code T)
      (hc : t.stage = .running (.write b k)) :
      Step cfg s (.run i) { s.goto i t (.running k) with buffer := b }
  | recv (i : Nat) (t : Task T) (ht : s.tasks[i]? = some t) (k : Outcome Message → Code T)
      (hc : t.stage = .running (.recv k)) (m : Message) (q : List Inbound) (hq : s.inbox = .message m :: q) :
      Step cfg s (.run i) { s.goto i t (.running (k (.ok m))) with inbox := q, received := s.received ++ [m] }
  | skip (i : Nat) (t : Task T) (ht : s.tasks[i]? = some t) (k : Outcome Message → Code T)
      (hc : t.stage = .running (.recv k)) (e : Inbound) (q : List Inbound) (hq : s.inbox = e :: q) (he : ∀ m, e ≠ .message m) :
      Step cfg s (.run i) { s with inbox := q }
  | gone (i : Nat) (t : Task T) (ht : s.tasks[i]? = some t) (k : Outcome Message → Code T)
      (hc : t.stage = .running (.recv k)) (hq : s.inbox = []) (ho : s.isOpen = false) :
      Step cfg s (.run i) (s.goto i t (.running (k (.err .channelTerminated))))
  | plugins (i : Nat) (t : Task T) (ht : s.tasks[i]? = some t) (m : Received T) (hc : t.stage = .plugins m)
      (hh : s.pluginHolder = none) :
      Step cfg s (.run i) { s.goto i t (.offering m 0) with pluginHolder := some i }
  | loop (i : Nat) (t : Task T) (ht : s.tasks[i]? = some t) (m : Received T) (k : Nat) (hc : t.stage = .offering m k)
      (hk : ¬ k < cfg.plugins) :
      Step cfg s (.run i) { s.goto i t (.running (nextMessage cfg)) with pluginHolder := release s.pluginHolder i }
  | refuse (i : Nat) (t : Task T) (ht : s.tasks[i]? = some t) (n : UInt32) (k : Outcome Unit → Code T)
      (hc : t.stage = .running (.flow n k)) (ho : s.isOpen = false) :
      Step cfg s (.refuse i) (s.goto i t (.running (k (.err .channelTerminated))))
  | accepted (i : Nat) (t : Task T) (ht : s.tasks[i]? = some t) (m : Received T) (k : Nat) (hc : t.stage = .offering m k)
      (hk : k < cfg.plugins) :
      Step cfg s (.offer i (.ok ())) { s.goto i t (.offering m (k + 1)) with offers := s.offers ++ [(i, k, m, .ok ())] }
  | rejected (i : Nat) (t : Task T) (ht : s.tasks[i]? = some t) (m : Received T) (k : Nat) (hc : t.stage = .offering m k)
      (hk : k < cfg.plugins) (r : Outcome Unit) (hr : r ≠ .ok ()) :
      Step cfg s (.offer i r) { s.goto i t .ended with pluginHolder := release s.pluginHolder i, offers := s.offers ++ [(i, k, m, r)] }
  | cancel (i : Nat) (t : Task T) (ht : s.tasks[i]? = some t) (hw : t.stage.waits = true) :
      Step cfg s (.cancel i) { s.goto i t .ended with holder := release s.holder i, pluginHolder := release s.pluginHolder i }

theorem step_cases {cfg : Cfg T} {s s' : State T} {a : Act} (h : step cfg s a = some s') : Step cfg s a s' := by
  cases a with
  | deliver e =>
    simp only [step] at h
    split at h
    · cases h; exact .deliver e ‹_›
    · cases h
  | close => simp only [step] at h; cases h; exact .close
  | spawn j => simp only [step] at h; cases h; exact .spawn j
  | run i =>
    simp only [step] at h
    split at h
    · rename_i t ht
      unfold runTask at h
      split at h
      · rename_i c hc
        unfold runCode at h
        split at h
        · cases h; exact .ret i t ht _ hc
        · cases h; exact .load i t ht _ hc
        · cases h; exact .store i t ht _ _ hc
        · cases h; exact .add i t ht _ _ hc
        · split at h
          · cases h; exact .flow i t ht _ _ hc ‹_›
          · cases h
        · split at h
          · cases h; exact .lock i t ht _ hc ‹_›
          · cases h
        · cases h; exact .write i t ht _ _ hc
        · split at h
          · cases h; exact .recv i t ht _ hc _ _ ‹_›
          · rename_i e q hne hq
            cases h; exact .skip i t ht _ hc e q hq (fun m he => hne m he)
          · split at h
            · cases h
            · cases h; exact .gone i t ht _ hc ‹_› (by simpa using ‹¬ s.isOpen = true›)
      · rename_i m hc
        split at h
        · cases h; exact .plugins i t ht m hc ‹_›
        · cases h
      · rename_i m k hc
        split at h
        · cases h
        · cases h; exact .loop i t ht m k hc ‹_›
      · cases h
    · cases h
  | refuse i =>
    simp only [step] at h
    split at h
    · rename_i t ht
      split at h
      · rename_i n k hc
        split at h
        · cases h
        · cases h; exact .refuse i t ht n k hc (by simpa using ‹¬ s.isOpen = true›)
      · cases h
    · cases h
  | offer i r =>
    simp only [step] at h
    split at h
    · rename_i t ht
      split at h
      · rename_i m k hc
        split at h
        · split at h
          · cases h; exact .accepted i t ht m k hc ‹_›
          · rename_i hr
            cases h; exact .rejected i t ht m k hc ‹_› r (fun h => hr () h)
        · cases h
      · cases h
    · cases h
  | cancel i =>
    simp only [step] at h
    split at h
    · rename_i t ht
      split at h
      · cases h; exact .cancel i t ht ‹_›
      · cases h
    · cases h

@[simp] theorem delivered_append (as bs : List Act) : delivered (as ++ bs) = delivered as ++ delivered bs := by
  induction as with
  | nil => rfl
  | cons a as ih =>
    cases a with
    | deliver e => cases e <;> simp [delivered, ih]
    | _ => simp [delivered, ih]

@[simp] theorem jobs_append (as bs : List Act) : jobs (as ++ bs) = jobs as ++ jobs bs := by
  induction as with
  | nil => rfl
  | cons a as ih => cases a <;> simp [jobs, ih]

/-- The messages still in the channel. -/
def pendingIn (q : List Inbound) : List Message := q.filterMap fun e => match e with
  | .message m => some m
  | _ => none

/-- Everything that arrived has been taken from the channel, in order, or is still there. -/
theorem received_delivered {cfg : Cfg T} {as : List Act} {s : State T} (h : Run cfg as s) :
    s.received ++ pendingIn s.inbox = delivered as := by
  induction h with
  | nil => rfl
  | @snoc as s s' a h hs ih =>
    rw [delivered_append, ← ih]
    cases step_cases hs with
    | deliver e => cases e <;> simp [delivered, pendingIn, List.filterMap_append]
    | recv i t ht k hc m q hq => simp [hq, delivered, pendingIn, State.goto]
    | skip i t ht k hc e q hq he =>
      have : pendingIn (e :: q) = pendingIn q := by
        cases e <;> first | rfl | exact absurd rfl (he _)
      simp [hq, delivered, this]
    | _ => simp [delivered, State.goto, finish]

theorem received_prefix {cfg : Cfg T} {as : List Act} {s : State T} (h : Run cfg as s) : s.received <+: delivered as :=
  ⟨_, received_delivered h⟩

theorem mem_delivered_of_received {cfg : Cfg T} {as : List Act} {s : State T} (h : Run cfg as s) {m : Message}
    (hm : m ∈ s.received) : m ∈ delivered as := (received_prefix h).subset hm

/-- A task keeps its place and its job. -/
theorem task_jobs {cfg : Cfg T} {as : List Act} {s : State T} (h : Run cfg as s) : s.tasks.map (·.job) = jobs as := by
  induction h with
  | nil => rfl
  | @snoc as s s' a h hs ih =>
    have key : ∀ (i : Nat) (t : Task T) (st : Stage T), s.tasks[i]? = some t →
        (s.tasks.set i { t with stage := st }).map (·.job) = s.tasks.map (·.job) := by
      intro i t st ht
      rw [List.map_set]
      apply List.ext_getElem?
      intro j
      rw [List.getElem?_set]
      split
      · subst_vars
        rename_i hij
        obtain ⟨hl, he⟩ := List.getElem?_eq_some_iff.mp ht
        simp [hl, he]
      · rfl
    cases step_cases hs with
    | spawn j => simp [jobs, ih]
    | deliver e => simpa [jobs] using ih
    | close => simpa [jobs] using ih
    | skip => simpa [jobs] using ih
    | _ => simp only [jobs_append, jobs, List.append_nil, State.goto, finish]; rw [key _ _ _ (by assumption)]; exact ih

theorem run_append {cfg : Cfg T} {as : List Act} {s s' : State T} {a : Act} (h : Run cfg as s) (hs : step cfg s a = some s') :
    Run cfg (as ++ [a]) s' := .snoc h hs

theorem atMost_run {cfg : Cfg T} {n : Nat} {as : List Act} {s : State T} (h : AtMost cfg n as s) : Run cfg as s := by
  induction h with
  | nil => exact .nil
  | snoc _ hs _ ih => exact .snoc ih hs

end Neutron.Consumer
