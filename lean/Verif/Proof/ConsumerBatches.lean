import Verif.Proof.ConsumerCalls

/-!
# `next_batch` alone, with room for every batch

The buffer stays empty, and each message received is handed out whole, its parts in reverse order.
-/

namespace Neutron.Consumer

open Neutron

variable {T : Type}

theorem pops_all {α : Type} (n : Nat) (v : List α) (h : v.length ≤ n) : (pops n v).2 = v.reverse := by
  induction n generalizing v with
  | zero =>
    have : v = [] := List.length_eq_zero_iff.mp (Nat.le_zero.mp h)
    subst this; rfl
  | succ n ih =>
    unfold pops
    cases hl : v.getLast? with
    | none =>
      have : v = [] := by simpa using hl
      subst this; rfl
    | some x =>
      rw [List.getLast?_eq_some_iff] at hl
      obtain ⟨ys, rfl⟩ := hl
      simp only [List.length_append, List.length_singleton] at h
      simp [ih ys (by omega)]

/-- The messages that hold something and for which every call has room. -/
def Roomy (js : List Job) (m : Message) : Prop := filled m ∧ ∀ n, Job.batch n ∈ js → 0 < n → weight m ≤ n

theorem pre_whole (cfg : Cfg T) (js : List Job) (n : Nat) (hn : Job.batch n ∈ js) :
    Pre Eq (fun b => b = []) (Roomy js) (fun m => (yields cfg.decode m).reverse) (nextBatch cfg n) := by
  apply pre_checkAndFlow
  rintro b rfl
  dsimp only
  rw [pops_nil]
  refine ⟨rfl, ?_⟩
  cases n with
  | zero => simp [Held, handed]
  | succ n =>
    refine ⟨⟨rfl, rfl⟩, fun m hm => ?_, by simp [Held, handed]⟩
    rcases unpack_yields cfg.decode m with ⟨r, rs, h1, h2, _, _, h6⟩ | ⟨h1, h2, h3⟩ | ⟨h1, h2, _⟩ | ⟨h1, h2, _⟩
    · have hw := hm.2 _ hn (by omega)
      simp only [h1, h2, Held, handed, List.length_nil, Nat.sub_zero, List.nil_append, List.map_nil, List.append_nil]
      rw [pops_all _ _ (by omega), List.map_reverse]
    · exact (h3 hm.1).elim
    · simp [h1, h2, Held, handed]
    · simp [h1, h2, Held, handed]

theorem whole_inv {cfg : Cfg T} {as : List Act} {s : State T} (h : Run cfg as s) {js : List Job} (hsub : ∀ j ∈ jobs as, j ∈ js)
    (hj : ∀ j ∈ jobs as, ∃ n, j = .batch n) (hm : ∀ m ∈ delivered as, Roomy js m) :
    Inv Eq (fun b => b = []) (Roomy js) (fun m => (yields cfg.decode m).reverse) s := by
  refine .run compat_eq rfl ?_ hm h
  intro j hmem
  obtain ⟨n, rfl⟩ := hj j hmem
  exact pre_whole cfg js n (hsub _ hmem)

theorem yields_ne_nil (decode : Bytes → Option T) (m : Message) : yields decode m ≠ [] := by
  rcases unpack_yields decode m with ⟨r, rs, _, h2, _⟩ | ⟨_, h2, _⟩ | ⟨_, h2, _⟩ | ⟨_, h2, _⟩ <;> simp [h2]

/-- `s'` is `s` after call `i` went on to code `c`, up to the permits and the channel. -/
structure At (i : Nat) (c : Code T) (s : State T) (s' : State T) : Prop where
  task : ∃ t', s'.tasks[i]? = some t' ∧ t'.stage = .running c
  results : s'.results = s.results
  isOpen : s'.isOpen = s.isOpen

theorem set_get {α : Type} {l : List α} {i : Nat} {x : α} (h : l[i]? = some x) (y : α) : (l.set i y)[i]? = some y := by
  rw [List.getElem?_set, if_pos rfl, if_pos (List.getElem?_eq_some_iff.mp h).1]

theorem goes_one {cfg : Cfg T} {i : Nat} {s s1 : State T} {t : Task T} {c : Code T} (ht : s.tasks[i]? = some t)
    (hc : t.stage = .running c) (h : runCode s i t c = some s1) : Goes cfg i s [.run i] s1 :=
  .cons (by simp only [step, ht, runTask, hc, h]) (.nil _)

theorem goes_trans {cfg : Cfg T} {i : Nat} {s s1 s' : State T} {bs cs : List Act} (h1 : Goes cfg i s bs s1) (h2 : Goes cfg i s1 cs s') :
    Goes cfg i s (bs ++ cs) s' := by
  induction h1 with
  | nil => exact h2
  | cons h _ ih => exact .cons h (ih h2)

/-- Through `check_and_flow`, which leaves the buffer, its lock and the channel alone. -/
theorem goes_checkAndFlow {cfg : Cfg T} {i : Nat} {s : State T} {k : Code T} {t : Task T} (ht : s.tasks[i]? = some t)
    (hc : t.stage = .running (checkAndFlow cfg k)) (ho : s.isOpen = true) :
    ∃ bs s', Goes cfg i s bs s' ∧ At i k s s' ∧ s'.buffer = s.buffer ∧ s'.holder = s.holder ∧ s'.inbox = s.inbox := by
  have h1 := goes_one (cfg := cfg) ht hc (s1 := s.goto i t (.running _)) rfl
  by_cases hp : s.permits ≥ cfg.permits
  · dsimp only at h1
    rw [if_pos hp] at h1
    have h2 := goes_trans h1 (goes_one (set_get ht _) rfl (by
      show (if s.isOpen then _ else _) = _
      rw [if_pos ho]))
    have h3 := goes_trans h2 (goes_one (set_get (set_get ht _) _) rfl rfl)
    exact ⟨_, _, h3, ⟨⟨_, set_get (set_get (set_get ht _) _) _, rfl⟩, rfl, rfl⟩, rfl, rfl, rfl⟩
  · dsimp only at h1
    rw [if_neg hp] at h1
    exact ⟨_, _, h1, ⟨⟨_, set_get ht _, rfl⟩, rfl, rfl⟩, rfl, rfl, rfl⟩

/-- A call that waits takes the first message there is. -/
theorem goes_recv {cfg : Cfg T} {i : Nat} {k : Outcome Message → Code T} {m : Message} {rest : List Message} :
    ∀ (q : List Inbound) (s : State T) (t : Task T), s.inbox = q → s.tasks[i]? = some t → t.stage = .running (.recv k) →
    pendingIn q = m :: rest → ∃ bs s', Goes cfg i s bs s' ∧ At i (k (.ok m)) s s' := by
  intro q
  induction q with
  | nil => intro s t _ _ _ h; cases h
  | cons e q ih =>
    intro s t hq ht hc hp
    by_cases hm : ∃ m', e = .message m'
    · obtain ⟨m', rfl⟩ := hm
      have : m' = m := by simp [pendingIn] at hp; exact hp.1
      subst this
      refine ⟨_, { s.goto i t (.running (k (.ok m'))) with inbox := q, received := s.received ++ [m'] }, .cons
        (by simp only [step, ht, runTask, hc, runCode, hq]) (.nil _), ⟨⟨_, upd_self ht, rfl⟩, rfl, rfl⟩⟩
    · have hp' : pendingIn q = m :: rest := by
        rw [← hp]
        cases e <;> first | rfl | exact absurd ⟨_, rfl⟩ hm
      obtain ⟨bs, s', h1, h2⟩ := ih { s with inbox := q } t rfl ht hc hp'
      refine ⟨_, s', .cons (s1 := { s with inbox := q }) ?_ h1, ⟨h2.task, h2.results, h2.isOpen⟩⟩
      simp only [step, ht, runTask, hc, runCode, hq]
      cases e <;> first | rfl | exact absurd ⟨_, rfl⟩ hm

/-- A call that has only counting and returning left to do returns. -/
theorem goes_ret {cfg : Cfg T} {i : Nat} (c : Code T) (o : Outcome (List (Received T))) : (c = .ret o ∨ ∃ n, c = .add n (.ret o)) →
    ∀ (s : State T) (t : Task T), s.tasks[i]? = some t → t.stage = .running c →
    ∃ bs s', Goes cfg i s bs s' ∧ s'.results = s.results ++ [(i, o)] := by
  have ret : ∀ (s : State T) (t : Task T), s.tasks[i]? = some t → t.stage = .running (.ret o) →
      ∃ bs s', Goes cfg i s bs s' ∧ s'.results = s.results ++ [(i, o)] := fun s t ht hc =>
    ⟨_, finish s i t o, .cons (by simp only [step, ht, runTask, hc, runCode]) (.nil _), rfl⟩
  rintro (rfl | ⟨n, rfl⟩) s t ht hc
  · exact ret s t ht hc
  · obtain ⟨bs, s', h1, h2⟩ := ret { s.goto i t (.running (.ret o)) with permits := s.permits + n } { t with stage := .running (.ret o) }
      (upd_self ht) rfl
    exact ⟨_, s', .cons (by simp only [step, ht, runTask, hc, runCode]) h1, h2⟩

/-- `next_batch` with an empty buffer. -/
theorem nextBatch_shape (cfg : Cfg T) (n : Nat) (hn : 0 < n) : ∃ k : List (Received T) → Code T, nextBatch cfg n = checkAndFlow cfg (.lock k) ∧
    k [] = .write [] (next cfg fun ms => .add (UInt32.ofNat (pops n ms).2.length) (.ret (.ok (pops n ms).2))) := by
  refine ⟨fun buffer => _, rfl, ?_⟩
  show Code.write (pops n []).1 (if (pops n ([] : List (Received T))).2.length = n then _ else _) = _
  rw [pops_nil, if_neg (by simp; omega)]
  rfl

/-- A new `next_batch` with room for the next message hands out all of it. -/
theorem batch_call {cfg : Cfg T} {as : List Act} {s : State T} (h : Run cfg as s) (n : Nat) (hf : s.free) (ho : s.isOpen = true)
    (hb : s.buffer = []) {m : Message} {rest : List Message} (hp : pendingIn s.inbox = m :: rest) (hfill : filled m) (hn : 0 < n)
    (hw : weight m ≤ n) :
    ∃ bs s' o, (∀ a ∈ bs, a = .run s.tasks.length) ∧ Run cfg (as ++ .spawn (.batch n) :: bs) s' ∧
      s'.results = s.results ++ [(s.tasks.length, o)] ∧ handed o = (yields cfg.decode m).reverse := by
  have h1 : Run cfg (as ++ [.spawn (.batch n)]) { s with tasks := s.tasks ++ [⟨.batch n, .running (nextBatch cfg n)⟩] } := .snoc h rfl
  obtain ⟨k, hk, hk0⟩ := nextBatch_shape cfg n hn
  obtain ⟨b1, s1, g1, ⟨⟨t1, e1, e2⟩, e3, e4⟩, e5, e6, e7⟩ := goes_checkAndFlow (cfg := cfg) (i := s.tasks.length)
    (s := { s with tasks := s.tasks ++ [⟨.batch n, .running (nextBatch cfg n)⟩] }) (t := ⟨.batch n, .running (nextBatch cfg n)⟩)
    (by simp) (by rw [hk]) ho
  have hh : s1.holder = none := e6.trans hf
  have hb1 : s1.buffer = [] := e5.trans hb
  have g2 := goes_trans g1 (goes_one e1 e2 (by
    show (if s1.holder = none then _ else _) = _
    rw [if_pos hh, hb1, hk0]))
  obtain ⟨b0, s3, g3, t3, d1, d2, d3, d4⟩ : ∃ bs s3, Goes cfg s.tasks.length _ bs s3 ∧ ∃ t3 : Task T, s3.tasks[s.tasks.length]? = some t3 ∧
      t3.stage = .running (next cfg fun ms => .add (UInt32.ofNat (pops n ms).2.length) (.ret (.ok (pops n ms).2))) ∧
      s3.inbox = s1.inbox ∧ s3.results = s1.results :=
    ⟨_, _, goes_trans g2 (goes_one (set_get e1 _) rfl rfl), _, set_get (set_get e1 _) _, rfl, rfl, rfl⟩
  obtain ⟨b2, s2, g4, ⟨⟨t2, f1, f2⟩, f3, _⟩⟩ := goes_recv (cfg := cfg) (i := s.tasks.length) (m := m) (rest := rest) s3.inbox
    s3 t3 rfl d1 d2 (by rw [d3, e7]; exact hp)
  have : ∃ o, handed o = (yields cfg.decode m).reverse ∧ ∃ bs s', Goes cfg s.tasks.length s2 bs s' ∧ s'.results = s2.results ++ [(s.tasks.length, o)] := by
    rcases unpack_yields cfg.decode m with ⟨r, rs, u1, u2, _, _, u6⟩ | ⟨u1, u2, u3⟩ | ⟨u1, u2, _⟩ | ⟨u1, u2, _⟩
    · simp only [u1] at f2
      rw [pops_all _ _ (by omega)] at f2
      exact ⟨.ok (r :: rs).reverse, by simp [handed, u2], goes_ret _ _ (.inr ⟨_, rfl⟩) s2 t2 f1 f2⟩
    · exact (u3 hfill).elim
    · simp only [u1] at f2
      exact ⟨.err .deserializationFailed, by simp [handed, u2], goes_ret _ _ (.inl rfl) s2 t2 f1 f2⟩
    · simp only [u1] at f2
      exact ⟨.panic, by simp [handed, u2], goes_ret _ _ (.inl rfl) s2 t2 f1 f2⟩
  obtain ⟨o, ho', b3, s4, g5, g6⟩ := this
  have g := goes_trans (goes_trans g3 g4) g5
  refine ⟨_, s4, o, g.acts, by simpa using g.run h1, ?_, ho'⟩
  rw [g6, f3, d4, e3]

/-! ## Once a call has its message it returns -/

/-- Code that only counts, fills the buffer and returns. -/
def Straight : Code T → Prop
  | .ret _ => True
  | .add _ k => Straight k
  | .write _ k => Straight k
  | _ => False

/-- Wherever the code waits for a message, it goes straight to a result once it has one, or fails if the engine is gone. -/
def Waits : Code T → Prop
  | .ret _ => True
  | .load k => ∀ n, Waits (k n)
  | .store _ k => Waits k
  | .add _ k => Waits k
  | .flow _ k => ∀ r, Waits (k r)
  | .lock k => ∀ b, Waits (k b)
  | .write _ k => Waits k
  | .recv k => (∀ m, Straight (k (.ok m))) ∧ k (.err .channelTerminated) = .ret (.err .channelTerminated)

theorem Straight.waits {c : Code T} (h : Straight c) : Waits c := by
  induction c with
  | ret => trivial
  | add n k ih => exact ih h
  | write b k ih => exact ih h
  | _ => exact h.elim

theorem Waits.leads {closed : Prop} {M : Message → Prop} {c c' : Code T} (h : Leads closed M c c') (hc : Waits c) : Waits c' := by
  induction h with
  | refl => exact hc
  | load k n c' _ ih => exact ih (hc n)
  | store n k c' _ ih => exact ih hc
  | add n k c' _ ih => exact ih hc
  | flow n k c' _ ih => exact ih (hc _)
  | refuse n k c' hcl _ ih => exact ih (hc _)
  | lock k b c' _ ih => exact ih (hc b)
  | write b k c' _ ih => exact ih hc
  | recv k m c' hm _ ih => exact ih (hc.1 m).waits
  | gone k c' hcl _ ih =>
    refine ih ?_
    rw [hc.2]
    trivial

theorem waits_checkAndFlow (cfg : Cfg T) {k : Code T} (h : Waits k) : Waits (checkAndFlow cfg k) := by
  intro n
  dsimp only
  split
  · intro r
    cases r <;> first | exact h | trivial
  · exact h

theorem waits_next (cfg : Cfg T) {k : List (Received T) → Code T} (h : ∀ ms, Straight (k ms)) : Waits (next cfg k) := by
  refine ⟨fun m => ?_, rfl⟩
  dsimp only
  cases unpack cfg.decode m <;> first | exact h _ | trivial

theorem waits_code (cfg : Cfg T) (j : Job) : Waits (j.code cfg) := by
  have hm : Waits (nextMessage cfg) := by
    apply waits_checkAndFlow
    intro b
    cases b with
    | cons m rest => trivial
    | nil =>
      apply waits_next
      intro ms
      cases ms <;> trivial
  cases j with
  | message => exact hm
  | consume => exact hm
  | batch n =>
    apply waits_checkAndFlow
    intro b
    show Waits (if _ then _ else _)
    split
    · trivial
    · exact waits_next cfg fun ms => trivial

theorem goes_straight {cfg : Cfg T} {i : Nat} (c : Code T) : Straight c → ∀ (s : State T) (t : Task T), s.tasks[i]? = some t →
    t.stage = .running c → ∃ bs s' o, Goes cfg i s bs s' ∧ s'.results = s.results ++ [(i, o)] := by
  induction c with
  | ret o => exact fun _ s t ht hc => ⟨_, finish s i t o, o, goes_one ht hc rfl, rfl⟩
  | add n k ih =>
    intro h s t ht hc
    obtain ⟨bs, s', o, h1, h2⟩ := ih h { s.goto i t (.running k) with permits := s.permits + n } _ (set_get ht _) rfl
    exact ⟨_, s', o, goes_trans (goes_one ht hc rfl) h1, h2⟩
  | write b k ih =>
    intro h s t ht hc
    obtain ⟨bs, s', o, h1, h2⟩ := ih h { s.goto i t (.running k) with buffer := b } _ (set_get ht _) rfl
    exact ⟨_, s', o, goes_trans (goes_one ht hc rfl) h1, h2⟩
  | _ => exact fun h => h.elim

/-- A call waiting for a message that is there returns. -/
theorem waiting_returns {cfg : Cfg T} {as : List Act} {s : State T} (h : Run cfg as s) {i : Nat} (hw : s.waiting i)
    (hp : pendingIn s.inbox ≠ []) :
    ∃ bs s' o, (∀ a ∈ bs, a = .run i) ∧ Run cfg (as ++ bs) s' ∧ s'.results = s.results ++ [(i, o)] := by
  obtain ⟨t, k, ht, hc⟩ := hw
  obtain ⟨m, rest, hq⟩ := List.exists_cons_of_ne_nil hp
  have hl := Waits.leads ((along h (M := fun _ => True) fun _ _ => trivial).running i t _ ht hc) (waits_code cfg t.job)
  obtain ⟨b1, s1, g1, ⟨⟨t1, e1, e2⟩, e3, _⟩⟩ := goes_recv (cfg := cfg) (i := i) s.inbox s t rfl ht hc hq
  obtain ⟨b2, s2, o, g2, e4⟩ := goes_straight (cfg := cfg) (i := i) _ (hl.1 m) s1 t1 e1 e2
  exact ⟨_, s2, o, (goes_trans g1 g2).acts, (goes_trans g1 g2).run h, by rw [e4, e3]⟩

/-- A call waiting with no message there, and the engine gone, fails with `ChannelTerminated`. -/
theorem waiting_fails {cfg : Cfg T} {as : List Act} {s : State T} (h : Run cfg as s) {i : Nat} (hw : s.waiting i)
    (hp : pendingIn s.inbox = []) (ho : s.isOpen = false) :
    ∃ bs s', (∀ a ∈ bs, a = .run i) ∧ Run cfg (as ++ bs) s' ∧ s'.results = s.results ++ [(i, .err .channelTerminated)] := by
  obtain ⟨t, k, ht, hc⟩ := hw
  have hl := Waits.leads ((along h (M := fun _ => True) fun _ _ => trivial).running i t _ ht hc) (waits_code cfg t.job)
  have key : ∀ (q : List Inbound) (s : State T), s.inbox = q → s.tasks[i]? = some t → pendingIn q = [] → s.isOpen = false →
      ∃ bs s', Goes cfg i s bs s' ∧ s'.results = s.results ++ [(i, .err .channelTerminated)] := by
    intro q
    induction q with
    | nil =>
      intro s hq ht _ ho
      have h1 := goes_one (cfg := cfg) ht hc (s1 := s.goto i t (.running (.ret (.err .channelTerminated))))
        (by simp only [runCode, hq, ho, hl.2]; rfl)
      exact ⟨_, _, goes_trans h1 (goes_one (set_get ht _) rfl rfl), rfl⟩
    | cons e q ih =>
      intro s hq ht hp ho
      have hm : ¬ ∃ m, e = .message m := by
        rintro ⟨m, rfl⟩
        simp [pendingIn] at hp
      have hp' : pendingIn q = [] := by
        rw [← hp]
        cases e <;> first | rfl | exact absurd ⟨_, rfl⟩ hm
      obtain ⟨bs, s', h1, h2⟩ := ih { s with inbox := q } rfl ht hp' ho
      refine ⟨_, s', .cons (s1 := { s with inbox := q }) ?_ h1, h2⟩
      simp only [step, ht, runTask, hc, runCode, hq]
      cases e <;> first | rfl | exact absurd ⟨_, rfl⟩ hm
  obtain ⟨bs, s', h1, h2⟩ := key s.inbox s rfl ht hp ho
  exact ⟨bs, s', h1.acts, h1.run h, h2⟩

end Neutron.Consumer
