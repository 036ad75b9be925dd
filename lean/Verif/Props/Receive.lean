import Verif.Proof.ConsumerCalls

/-!
# Receiving: C48, C49, C50, C51, C52/C88, C53/C89, C58/C93
-/

namespace Neutron.Props

open Neutron Neutron.Consumer
open scoped List

variable {T : Type}

/-! ## C48 -/

/-- Whatever the number of `next_message` calls (and `consume` loops), their schedule, and the calls dropped: what has been
handed out is, in order, exactly the first part of the stream that arrived. -/
theorem C48_in_order {cfg : Cfg T} {as : List Act} {s : State T} (h : Run cfg as s) (hj : ∀ n, Job.batch n ∉ jobs as) :
    s.handedOut <+: stream cfg as := prefix_of_inv h (message_inv h hj)

/-- And a call gets the next thing of the stream whenever there is one: it returns without waiting for anything else to arrive. -/
theorem C48_next_is_returned {cfg : Cfg T} {as : List Act} {s : State T} (h : Run cfg as s) (hj : ∀ n, Job.batch n ∉ jobs as)
    (hf : s.free) (ho : s.isOpen = true) {x : Outcome (Received T)} {rest : List (Outcome (Received T))}
    (hx : stream cfg as = s.handedOut ++ x :: rest) :
    ∃ bs s' o, (∀ a ∈ bs, a = .run s.tasks.length) ∧ Run cfg (as ++ .spawn .message :: bs) s' ∧
      s'.results = s.results ++ [(s.tasks.length, o)] ∧ handed o = [x] := by
  refine next_available h (B := fun _ => True) (M := fun _ => True) ?_ hf ho hx
  intro bs s' hb hr
  refine message_inv hr fun n hn => ?_
  rw [jobs_append, List.mem_append] at hn
  rcases hn with hn | hn
  · exact hj n hn
  · cases (jobs_spawn hb).1 _ hn

/-- A call waits only when everything that arrived has been handed out. -/
theorem C48_waits_only_at_the_end {cfg : Cfg T} {as : List Act} {s : State T} (h : Run cfg as s) (hj : ∀ n, Job.batch n ∉ jobs as)
    {i : Nat} (hw : s.waiting i) (hstuck : step cfg s (.run i) = none) : s.handedOut = stream cfg as := by
  refine nothing_left h (message_inv h hj) hw ?_
  obtain ⟨t, k, ht, hc⟩ := hw
  simp only [step, ht, runTask, hc, runCode] at hstuck
  split at hstuck
  · cases hstuck
  · cases hstuck
  · assumption

/-- A batch of three and a single message: three calls returned the first three, the fourth message is still to come. (The hypotheses of
C48_in_order and C48_next_is_returned are met.) -/
example : ∃ s : State UInt8, Run (byteCfg 250 0) ([many 5 [[1], [2], [3]], one 6 [4]] ++ [.spawn .message] ++ go 0 6 ++
      [.spawn .message] ++ go 1 4 ++ [.spawn .message] ++ go 2 4) s ∧
    s.handedOut = [.ok ⟨1, withBatchIndex 0 (msgId 5)⟩, .ok ⟨2, withBatchIndex 1 (msgId 5)⟩, .ok ⟨3, withBatchIndex 2 (msgId 5)⟩] ∧
    s.free ∧ s.isOpen = true :=
  ⟨_, run_exec rfl, rfl, rfl, rfl⟩

/-- The stream of these. -/
example : stream (byteCfg 250 0) [many 5 [[1], [2], [3]], one 6 [4]] =
    [.ok ⟨1, withBatchIndex 0 (msgId 5)⟩, .ok ⟨2, withBatchIndex 1 (msgId 5)⟩, .ok ⟨3, withBatchIndex 2 (msgId 5)⟩,
      .ok ⟨4, msgId 6⟩] := rfl

/-! ## C49 -/

/-- With any number of concurrent calls, in any interleaving: the things handed out, paired with the call each went to, are in
arrival order the first part of the stream - so each is handed to exactly one call. -/
theorem C49_serialisable {cfg : Cfg T} {as : List Act} {s : State T} (h : Run cfg as s) (hj : ∀ n, Job.batch n ∉ jobs as) :
    s.handouts.map Prod.snd <+: stream cfg as := by
  have : s.handouts.map Prod.snd = s.handedOut := by
    simp only [State.handouts, State.handedOut, List.map_flatMap, List.map_map]
    congr 1
    funext r
    exact List.map_id'' (fun _ => rfl) _
  rw [this]
  exact C48_in_order h hj

/-- And a `next_message` call gets at most one. -/
theorem C49_at_most_one {cfg : Cfg T} {as : List Act} {s : State T} (h : Run cfg as s) {i : Nat} (hi : s.jobOf i = some .message) :
    (s.handouts.filter fun x => x.1 == i).length ≤ 1 := by
  cases ht : s.tasks[i]? with
  | none => rw [State.jobOf, ht] at hi; cases hi
  | some t =>
    have hj : t.job = .message := by rw [State.jobOf, ht] at hi; simpa using hi
    have h1 := (once h i t ht (by rw [hj]; simp)).1
    have h2 : ∀ r ∈ s.results, r.1 = i → (handed r.2).length ≤ 1 := by
      rintro ⟨i', o⟩ hr rfl
      refine result_all h (M := fun _ => True) (fun _ _ => trivial) hr hi (V := True) (Q := fun o => (handed o).length ≤ 1) ?_
      show All _ _ _ _ (nextMessage cfg)
      apply all_checkAndFlow _ _ (fun _ => by simp [handed])
      intro b
      cases b with
      | cons m rest => simp [All, handed]
      | nil =>
        refine ⟨trivial, fun m _ => ?_, fun _ => by simp [All, handed]⟩
        rcases unpack_yields cfg.decode m with ⟨r, rs, h1, _⟩ | ⟨h1, _⟩ | ⟨h1, _⟩ | ⟨h1, _⟩ <;> simp [h1, All, handed]
    have h3 : ∀ l : List (Nat × Outcome (List (Received T))), (∀ r ∈ l, r.1 = i → (handed r.2).length ≤ 1) →
        ((l.flatMap fun r => (handed r.2).map fun x => (r.1, x)).filter fun x => x.1 == i).length ≤ (l.filter fun r => r.1 == i).length := by
      intro l
      induction l with
      | nil => simp
      | cons r l ih =>
        intro hl
        have := ih fun r hr => hl r (by simp [hr])
        have h0 := hl r (by simp)
        by_cases hri : r.1 = i
        · have h0 := h0 hri
          rw [List.flatMap_cons, List.filter_append, List.length_append, List.filter_cons_of_pos (by simpa using hri), List.length_cons]
          have : (((handed r.2).map fun x => (r.1, x)).filter fun x => x.1 == i).length ≤ 1 :=
            Nat.le_trans (List.length_filter_le _ _) (by simpa using h0)
          omega
        · rw [List.flatMap_cons, List.filter_append, List.length_append, List.filter_cons_of_neg (by simpa using hri)]
          have : (((handed r.2).map fun x => (r.1, x)).filter fun x => x.1 == i) = [] := by
            rw [List.filter_eq_nil_iff]
            intro x hx
            simp only [List.mem_map] at hx
            obtain ⟨y, _, rfl⟩ := hx
            simpa using hri
          rw [this]
          simpa using ‹_›
    exact Nat.le_trans (h3 s.results h2) h1

/-- Two calls at once on two messages: the second call made is the first to get the buffer, and gets the first message. (The hypotheses of
C49_serialisable and C49_at_most_one are met.) -/
example : ∃ s : State UInt8, Run (byteCfg 250 0) ([.spawn .message, .spawn .message, one 5 [1], one 6 [2], .run 0, .run 1] ++ go 1 5 ++ go 0 5) s ∧
    s.handouts = [(1, .ok ⟨1, msgId 5⟩), (0, .ok ⟨2, msgId 6⟩)] :=
  ⟨_, run_exec rfl, rfl⟩

/-! ## C50 -/

/-- Dropping a call, wherever it waits, in any interleaving: nothing is handed out by it, then or later, and if no other call is
in its critical part the next call returns the next thing of the stream. -/
theorem C50_cancellation_safe {cfg : Cfg T} {as : List Act} {s s' : State T} (h : Run cfg as s) (hj : ∀ n, Job.batch n ∉ jobs as)
    {i : Nat} (hc : step cfg s (.cancel i) = some s') :
    s'.handouts = s.handouts ∧ s'.handedOut <+: stream cfg as ∧
    (s'.free → s'.isOpen = true → ∀ x rest, stream cfg as = s'.handedOut ++ x :: rest →
      ∃ bs s'' o, (∀ a ∈ bs, a = .run s'.tasks.length) ∧ Run cfg (as ++ [.cancel i] ++ .spawn .message :: bs) s'' ∧
        s''.results = s'.results ++ [(s'.tasks.length, o)] ∧ handed o = [x]) := by
  have h' := Run.snoc h hc
  have hj' : ∀ n, Job.batch n ∉ jobs (as ++ [.cancel i]) := by simpa [jobs] using hj
  have hs : stream cfg (as ++ [.cancel i]) = stream cfg as := by simp [stream, delivered]
  refine ⟨?_, hs ▸ C48_in_order h' hj', fun hf ho x rest hx => C48_next_is_returned h' hj' hf ho (hs.trans hx)⟩
  cases step_cases hc
  rfl

/-- A dropped call that was waiting for a message leaves the buffer to others. -/
theorem C50_buffer_released {cfg : Cfg T} {as : List Act} {s s' : State T} (h : Run cfg as s) (hj : ∀ n, Job.batch n ∉ jobs as)
    {i : Nat} (hw : s.waiting i) (hc : step cfg s (.cancel i) = some s') : s'.free := by
  obtain ⟨t, k, ht, hst⟩ := hw
  have hi := message_inv h hj
  have hh : s.holder = some i := by
    by_contra hh
    exact (hi.pre i t _ ht hst hh).elim
  cases step_cases hc
  show release s.holder i = none
  rw [hh, release_self]

/-- A call is dropped while it waits, with a message on its way; the next call returns that message. (The hypotheses of C50_cancellation_safe
and C50_buffer_released are met.) -/
example : ∃ s s' : State UInt8, Run (byteCfg 250 0) ([.spawn .message] ++ go 0 2 ++ [one 5 [1]]) s ∧ s.waiting 0 ∧
    step (byteCfg 250 0) s (.cancel 0) = some s' ∧ s'.free ∧ s'.isOpen = true ∧
    stream (byteCfg 250 0) ([.spawn .message] ++ go 0 2 ++ [one 5 [1]]) = s'.handedOut ++ [.ok ⟨1, msgId 5⟩] :=
  ⟨_, _, run_exec rfl, ⟨_, _, rfl, rfl⟩, rfl, rfl, rfl, rfl⟩

/-! ## C51 -/

/-- `next_batch(n)` returns at most `n` messages, and at least one if `n > 0` (every message the parser makes holds a payload). -/
theorem C51_bound {cfg : Cfg T} {as : List Act} {s : State T} (h : Run cfg as s) {i n : Nat} {ms : List (Received T)}
    (hj : s.jobOf i = some (.batch n)) (hr : (i, .ok ms) ∈ s.results) :
    ms.length ≤ n ∧ (0 < n → (∀ m ∈ delivered as, filled m) → ms ≠ []) :=
  ⟨result_all h (M := fun _ => True) (fun _ _ => trivial) hr hj (all_nextBatch_le cfg n) ms rfl,
    fun hn hm => result_all h hm hr hj (all_nextBatch_pos cfg n hn) ms rfl⟩

/-- `next_batch(0)` never waits for a message, returns none (or the error that the engine is gone), and does return once it gets
the buffer. -/
theorem C51_zero {cfg : Cfg T} {as : List Act} {s : State T} (h : Run cfg as s) :
    (∀ i, s.jobOf i = some (.batch 0) → ¬ s.waiting i ∧ ∀ o, (i, o) ∈ s.results → o = .ok [] ∨ o = .err .channelTerminated) ∧
    (s.free → s.isOpen = true → ∃ bs s', (∀ a ∈ bs, a = .run s.tasks.length) ∧ Run cfg (as ++ .spawn (.batch 0) :: bs) s' ∧
      s'.results = s.results ++ [(s.tasks.length, .ok [])]) := by
  constructor
  · intro i hj
    refine ⟨fun hw => waiting_all h (M := fun _ => True) (fun _ _ => trivial) hw hj (all_nextBatch_zero cfg _ _), fun o hr => ?_⟩
    rcases result_all h (M := fun _ => True) (fun _ _ => trivial) hr hj (all_nextBatch_zero cfg _ _) with h | h
    · exact .inl h
    · exact .inr h.2
  · intro hf ho
    obtain ⟨bs, s', t', c', g1, g2, g3, g4, g5, g6, g7, g8, g9⟩ := new_call h (.batch 0) (R := List.Subperm) (B := fun _ => True)
      (M := fun _ => True) (fun _ hr => .run compat_subperm trivial (fun j _ => pre_subperm cfg j)
        (fun _ _ => trivial) hr) hf ho
    have ha := All.leads g8 (all_nextBatch_zero cfg False (fun _ => True))
    rcases g9 with ⟨o, rfl⟩ | ⟨k, rfl, _⟩
    · have hs : step cfg s' (.run s.tasks.length) = some (finish s' s.tasks.length t' o) := by
        simp only [step, g3, runTask, g4, runCode]
      refine ⟨bs ++ [.run s.tasks.length], _, ?_, by simpa using Run.snoc g2 hs, ?_⟩
      · intro a ha
        rcases List.mem_append.mp ha with ha | ha
        · exact g1 a ha
        · simpa using ha
      · rcases ha with rfl | ha
        · simp [finish, g5]
        · exact ha.1.elim
    · exact ha.1.elim

/-- `next_batch(2)` on a batch of three returns two. (The hypotheses of C51_bound and C51_zero are met.) -/
example : ∃ s : State UInt8, Run (byteCfg 250 0) ([many 5 [[1], [2], [3]], .spawn (.batch 2)] ++ go 0 6) s ∧
    s.jobOf 0 = some (.batch 2) ∧ s.results = [(0, .ok [⟨3, withBatchIndex 2 (msgId 5)⟩, ⟨2, withBatchIndex 1 (msgId 5)⟩])] :=
  ⟨_, run_exec rfl, rfl, rfl⟩

/-! ## C52/C88 -/

/-- The full claim is false: `next_batch` takes messages from the end, and what does not fit is lost.  One call of `next_batch(2)`
on a batch of three returns the third and the second; the first is never handed out: the next call waits. -/
theorem C52_refuted : ∃ (as : List Act) (s : State UInt8), Run (byteCfg 250 0) as s ∧ jobs as = [.batch 2, .message] ∧
    stream (byteCfg 250 0) as = [.ok ⟨1, withBatchIndex 0 (msgId 5)⟩, .ok ⟨2, withBatchIndex 1 (msgId 5)⟩,
      .ok ⟨3, withBatchIndex 2 (msgId 5)⟩] ∧
    s.handedOut = [.ok ⟨3, withBatchIndex 2 (msgId 5)⟩, .ok ⟨2, withBatchIndex 1 (msgId 5)⟩] ∧
    s.waiting 1 ∧ step (byteCfg 250 0) s (.run 1) = none :=
  ⟨[many 5 [[1], [2], [3]], .spawn (.batch 2)] ++ go 0 6 ++ [.spawn .message] ++ go 1 2, _, run_exec rfl, rfl, rfl, rfl,
    ⟨_, _, rfl, rfl⟩, rfl⟩

/-- What holds when no batch arrives: any mix of calls hands out the stream in order, each message once, and a call waits only
when everything has been handed out.  Not covered (C52): streams with batches. -/
theorem C88_unbatched {cfg : Cfg T} {as : List Act} {s : State T} (h : Run cfg as s)
    (hm : ∀ m ∈ delivered as, isSingle m = true) :
    s.handedOut <+: stream cfg as ∧
    ∀ i, s.waiting i → step cfg s (.run i) = none → s.handedOut = stream cfg as := by
  refine ⟨prefix_of_inv h (single_inv h hm), fun i hw hstuck => nothing_left h (single_inv h hm) hw ?_⟩
  obtain ⟨t, k, ht, hc⟩ := hw
  simp only [step, ht, runTask, hc, runCode] at hstuck
  split at hstuck
  · cases hstuck
  · cases hstuck
  · assumption

/-- What holds for every stream and every mix of calls: nothing is handed out twice and nothing is made up. -/
theorem C88_no_duplicates {cfg : Cfg T} {as : List Act} {s : State T} (h : Run cfg as s) :
    s.handedOut <+~ stream cfg as := by
  have hi : Inv List.Subperm (fun _ => True) (fun _ => True) (yields cfg.decode) s :=
    .run compat_subperm trivial (fun j _ => pre_subperm cfg j) (fun _ _ => trivial) h
  obtain ⟨p, hp⟩ := hi.handed
  rw [← stream_received h]
  exact ((List.sublist_append_left _ p).subperm.trans hp).trans (List.sublist_append_left _ _).subperm

/-- A mix of calls on single messages. (The hypotheses of C88_unbatched and C88_no_duplicates are met.) -/
example : ∃ s : State UInt8, Run (byteCfg 250 0) ([one 5 [1], one 6 [2], .spawn (.batch 2)] ++ go 0 6 ++ [.spawn .message] ++ go 1 6) s ∧
    s.handedOut = [.ok ⟨1, msgId 5⟩, .ok ⟨2, msgId 6⟩] :=
  ⟨_, run_exec rfl, rfl⟩

/-! ## C53/C89 -/

/-- The full claim is false: `next_batch` takes messages out of the buffer before it waits for more.  A batch of three;
`next_message` returns the first; `next_batch(3)` takes the other two, waits, and is dropped: the next call waits, the two
messages are lost.  If the engine goes away instead of the call being dropped, the call fails and they are lost as well. -/
theorem C53_refuted : ∃ (as : List Act) (s : State UInt8), Run (byteCfg 250 0) as s ∧ jobs as = [.message, .batch 3, .message] ∧
    as.getLast? = some (.run 2) ∧ .cancel 1 ∈ as ∧ stream (byteCfg 250 0) as =
      [.ok ⟨1, withBatchIndex 0 (msgId 5)⟩, .ok ⟨2, withBatchIndex 1 (msgId 5)⟩, .ok ⟨3, withBatchIndex 2 (msgId 5)⟩] ∧
    s.handedOut = [.ok ⟨1, withBatchIndex 0 (msgId 5)⟩] ∧ s.waiting 2 ∧ step (byteCfg 250 0) s (.run 2) = none :=
  ⟨[many 5 [[1], [2], [3]], .spawn .message] ++ go 0 6 ++ [.spawn (.batch 3)] ++ go 1 3 ++ [.cancel 1, .spawn .message] ++ go 2 2,
    _, run_exec rfl, rfl, rfl, by simp, rfl, rfl, ⟨_, _, rfl, rfl⟩, rfl⟩

theorem C53_failure_refuted : ∃ (as : List Act) (s : State UInt8), Run (byteCfg 250 0) as s ∧ jobs as = [.message, .batch 3, .message] ∧
    stream (byteCfg 250 0) as =
      [.ok ⟨1, withBatchIndex 0 (msgId 5)⟩, .ok ⟨2, withBatchIndex 1 (msgId 5)⟩, .ok ⟨3, withBatchIndex 2 (msgId 5)⟩] ∧
    s.results = [(0, .ok [⟨1, withBatchIndex 0 (msgId 5)⟩]), (1, .err .channelTerminated), (2, .err .channelTerminated)] :=
  ⟨[many 5 [[1], [2], [3]], .spawn .message] ++ go 0 6 ++ [.spawn (.batch 3)] ++ go 1 3 ++ [.close] ++ go 1 2 ++ [.spawn .message] ++ go 2 4,
    _, run_exec rfl, rfl, rfl, rfl⟩

/-- What holds when no batch arrives: a call that is dropped hands out nothing and takes nothing with it; the next call gets the
next message.  Not covered (C53): streams with batches. -/
theorem C89_cancelled {cfg : Cfg T} {as : List Act} {s s' : State T} (h : Run cfg as s)
    (hm : ∀ m ∈ delivered as, isSingle m = true) {i : Nat} (hc : step cfg s (.cancel i) = some s') :
    s'.handouts = s.handouts ∧ s'.handedOut <+: stream cfg as ∧
    (s'.free → s'.isOpen = true → ∀ x rest, stream cfg as = s'.handedOut ++ x :: rest →
      ∃ bs s'' o, (∀ a ∈ bs, a = .run s'.tasks.length) ∧ Run cfg (as ++ [.cancel i] ++ .spawn .message :: bs) s'' ∧
        s''.results = s'.results ++ [(s'.tasks.length, o)] ∧ handed o = [x]) := by
  have h' := Run.snoc h hc
  have hd : delivered (as ++ [.cancel i]) = delivered as := by simp [delivered]
  have hs : stream cfg (as ++ [.cancel i]) = stream cfg as := by simp [stream, hd]
  refine ⟨?_, hs ▸ prefix_of_inv h' (single_inv h' (hd ▸ hm)), fun hf ho x rest hx =>
    next_available h' (B := fun b => b = []) (M := fun m => isSingle m = true) ?_ hf ho (hs.trans hx)⟩
  · cases step_cases hc
    rfl
  · intro bs s'' hb hr
    refine single_inv hr fun m hm' => hm m ?_
    rw [delivered_append, hd, (jobs_spawn hb).2, List.append_nil] at hm'
    exact hm'

/-- And one that fails because the engine is gone hands out nothing, and the messages handed out stay the first part of the
stream. -/
theorem C89_failed {cfg : Cfg T} {as : List Act} {s s' : State T} (h : Run cfg as s)
    (hm : ∀ m ∈ delivered as, isSingle m = true) {i : Nat} (hc : step cfg s (.run i) = some s')
    (hr : s'.results = s.results ++ [(i, .err .channelTerminated)]) :
    s'.handouts = s.handouts ∧ s'.handedOut <+: stream cfg as := by
  have h' := Run.snoc h hc
  have hd : delivered (as ++ [.run i]) = delivered as := by simp [delivered]
  have hs : stream cfg (as ++ [.run i]) = stream cfg as := by simp [stream, hd]
  exact ⟨by simp [State.handouts, hr, handed], hs ▸ prefix_of_inv h' (single_inv h' (hd ▸ hm))⟩

/-- The hypotheses of C89_cancelled are met: a `next_batch` is dropped while it waits, with a message on its way. -/
example : ∃ s s' : State UInt8, Run (byteCfg 250 0) ([.spawn (.batch 3)] ++ go 0 3 ++ [one 5 [1]]) s ∧ s.waiting 0 ∧
    step (byteCfg 250 0) s (.cancel 0) = some s' ∧ s'.free ∧ s'.isOpen = true ∧
    stream (byteCfg 250 0) ([.spawn (.batch 3)] ++ go 0 3 ++ [one 5 [1]]) = s'.handedOut ++ [.ok ⟨1, msgId 5⟩] :=
  ⟨_, _, run_exec rfl, ⟨_, _, rfl, rfl⟩, rfl, rfl, rfl, rfl⟩

/-! ## C58/C93 -/

/-- The full claim is false: a payload in a batch that cannot be decoded crashes the call, and the rest of the batch is lost: the
next call waits. -/
theorem C58_batch_refuted : ∃ (as : List Act) (s : State UInt8), Run (byteCfg 250 0) as s ∧
    as.head? = some (many 5 [[1], [], [3]]) ∧ jobs as = [.message, .message] ∧
    s.results = [(0, .panic)] ∧ s.waiting 1 ∧ step (byteCfg 250 0) s (.run 1) = none :=
  ⟨[many 5 [[1], [], [3]], .spawn .message] ++ go 0 4 ++ [.spawn .message] ++ go 1 2, _, run_exec rfl, rfl, rfl, rfl,
    ⟨_, _, rfl, rfl⟩, rfl⟩

/-- What holds when no batch arrives, for any mix of calls: message by message, a payload that can be decoded is handed out and
one that cannot is a `DeserializationFailed` in its place.  Not covered (C58): batches (above), and that permits are not lost (below). -/
theorem C93_unbatched {cfg : Cfg T} {as : List Act} {s : State T} (h : Run cfg as s)
    (xs : List (UInt64 × MessageId × Bytes)) (hm : delivered as = xs.map fun x => .single x.1 x.2.1 x.2.2) :
    s.handedOut <+: xs.map fun x => seen cfg.decode x.2.1 x.2.2 := by
  have h1 := prefix_of_inv h (single_inv h (by
    intro m h
    rw [hm, List.mem_map] at h
    obtain ⟨x, _, rfl⟩ := h
    rfl))
  rw [hm] at h1
  have : (xs.map fun x => Message.single x.1 x.2.1 x.2.2).flatMap (yields cfg.decode) = xs.map fun x => seen cfg.decode x.2.1 x.2.2 := by
    clear hm h1
    induction xs with
    | nil => rfl
    | cons x xs ih =>
      simp only [List.map_cons, List.flatMap_cons, ih, yields, seen]
      split <;> rfl
  rw [this] at h1
  exact h1

/-- What holds when every payload of every batch can be decoded (single messages may be undecodable): no call crashes. -/
theorem C93_no_crash {cfg : Cfg T} {as : List Act} {s : State T} (h : Run cfg as s)
    (hm : ∀ m ∈ delivered as, isSingle m = true ∨ (filled m ∧ decodable cfg.decode m)) {i : Nat} {o : Outcome (List (Received T))}
    (hr : (i, o) ∈ s.results) : o ≠ .panic := by
  obtain ⟨t, ht, _⟩ := (along h hm).results i o hr
  exact result_all h hm (Q := fun o => o ≠ .panic) hr (j := t.job) (by simp [State.jobOf, ht]) (all_no_panic cfg t.job)

/-- An undecodable single message between two good ones. (The hypotheses of C93_unbatched and C93_no_crash are met.) -/
example : ∃ s : State UInt8, Run (byteCfg 250 0) ([one 5 [1], one 6 [], one 7 [3], .spawn .message] ++ go 0 6 ++ [.spawn (.batch 4)] ++ go 1 5 ++
      [.spawn .message] ++ go 2 6) s ∧
    s.handedOut = [.ok ⟨1, msgId 5⟩, .err .deserializationFailed, .ok ⟨3, msgId 7⟩] :=
  ⟨_, run_exec rfl, rfl⟩

end Neutron.Props
