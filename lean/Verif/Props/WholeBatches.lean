import Verif.Proof.ConsumerBatches

/-!
# C140-C142: `next_batch` with room for whole batches; calls that wait

The vocabulary is that of `Spec/Consumer.lean`: what arrived, what it holds for the application, what the calls handed out.
-/

namespace Neutron.Props

open Neutron Neutron.Consumer

variable {T : Type}

/-! ## C140 -/

/-- If the application calls nothing but `next_batch`, each time with room for every batch that arrives, then - for any number of calls,
any schedule, and any calls dropped - what has been handed out is the first part of what arrived, message by message in arrival order,
the parts of a batch in reverse. -/
theorem C140_in_order {cfg : Cfg T} {as : List Act} {s : State T} (h : Run cfg as s)
    (hj : ∀ j ∈ jobs as, ∃ n, j = .batch n ∧ ∀ m ∈ delivered as, weight m ≤ n) (hm : ∀ m ∈ delivered as, filled m) :
    s.handedOut <+: (delivered as).flatMap fun m => (yields cfg.decode m).reverse :=
  prefix_of_inv h (whole_inv h (fun _ hx => hx) (fun j hx => (hj j hx).imp fun _ hx => hx.1) fun m hx => ⟨hm m hx, fun n hn _ => by
    obtain ⟨n', he, hw⟩ := hj _ hn
    cases he
    exact hw m hx⟩)

/-- A call waits only when everything that arrived has been handed out. -/
theorem C140_waits_only_at_the_end {cfg : Cfg T} {as : List Act} {s : State T} (h : Run cfg as s)
    (hj : ∀ j ∈ jobs as, ∃ n, j = .batch n ∧ ∀ m ∈ delivered as, weight m ≤ n) (hm : ∀ m ∈ delivered as, filled m)
    {i : Nat} (hw : s.waiting i) (hstuck : step cfg s (.run i) = none) :
    s.handedOut = (delivered as).flatMap fun m => (yields cfg.decode m).reverse := by
  refine nothing_left h (whole_inv h (fun _ hx => hx) (fun j hx => (hj j hx).imp fun _ hx => hx.1) fun m hx => ⟨hm m hx, fun n hn _ => by
    obtain ⟨n', he, hw⟩ := hj _ hn
    cases he
    exact hw m hx⟩) hw ?_
  obtain ⟨t, k, ht, hc⟩ := hw
  simp only [step, ht, runTask, hc, runCode] at hstuck
  split at hstuck
  · cases hstuck
  · cases hstuck
  · assumption

/-- And whenever no call is in progress - also after calls were dropped - what was handed out is a number of whole messages, and a new
call with room for the next message hands out all of that message, without waiting for anything else. -/
theorem C140_next_is_returned {cfg : Cfg T} {as : List Act} {s : State T} (h : Run cfg as s)
    (hj : ∀ j ∈ jobs as, ∃ n, j = .batch n ∧ ∀ m ∈ delivered as, weight m ≤ n) (hm : ∀ m ∈ delivered as, filled m) (hf : s.free) :
    ∃ first rest, delivered as = first ++ rest ∧ s.handedOut = first.flatMap (fun m => (yields cfg.decode m).reverse) ∧
      ∀ m later n, s.isOpen = true → rest = m :: later → weight m ≤ n → 0 < n →
        ∃ bs s' o, (∀ a ∈ bs, a = .run s.tasks.length) ∧ Run cfg (as ++ .spawn (.batch n) :: bs) s' ∧
          s'.results = s.results ++ [(s.tasks.length, o)] ∧ handed o = (yields cfg.decode m).reverse := by
  have hi := whole_inv h (fun _ hx => hx) (fun j hx => (hj j hx).imp fun _ hx => hx.1) fun m hx => ⟨hm m hx, fun n hn _ => by
    obtain ⟨n', he, hw⟩ := hj _ hn
    cases he
    exact hw m hx⟩
  have hb : s.buffer = [] := hi.buf
  refine ⟨s.received, pendingIn s.inbox, (received_delivered h).symm, ?_, ?_⟩
  · have := hi.free hf
    rw [hb] at this
    simpa using this
  · intro m later n ho hr hw hn
    exact batch_call h n hf ho hb hr (hm m (by rw [← received_delivered h, hr]; simp)) hn hw

/-- A run of four calls, see below. -/
abbrev batchActs : List Act :=
  [many 5 [[1], [2], [3]], .spawn (.batch 4)] ++ go 0 6 ++ [.spawn (.batch 4)] ++ go 1 3 ++ [one 6 [4], .cancel 1, .spawn (.batch 4)] ++ go 2 6 ++
    [many 7 [[5], [6]], .spawn (.batch 4)] ++ go 3 6

/-- A batch of three, a single message and a batch of two; `next_batch(4)` three times, a fourth call dropped in between. (The hypotheses
of C140_in_order, C140_waits_only_at_the_end and C140_next_is_returned are met.) -/
example : ∃ s : State UInt8, Run (byteCfg 250 0) batchActs s ∧ jobs batchActs = [.batch 4, .batch 4, .batch 4, .batch 4] ∧
    .cancel 1 ∈ batchActs ∧ (∀ m ∈ delivered batchActs, filled m ∧ weight m ≤ 4) ∧ s.free ∧ s.isOpen = true ∧
    s.handedOut = [.ok ⟨3, withBatchIndex 2 (msgId 5)⟩, .ok ⟨2, withBatchIndex 1 (msgId 5)⟩, .ok ⟨1, withBatchIndex 0 (msgId 5)⟩,
      .ok ⟨4, msgId 6⟩, .ok ⟨6, withBatchIndex 1 (msgId 7)⟩, .ok ⟨5, withBatchIndex 0 (msgId 7)⟩] :=
  ⟨_, run_exec rfl, rfl, by simp, by simp [delivered, go, many, one, filled, weight], rfl, rfl, rfl⟩

/-! ## C141 -/

/-- The claim is false for `next_batch`: a batch of three arrives, `next_message` returns the first; `next_batch(3)` has the other two in
its hands and waits for more. -/
theorem C141_refuted : ∃ (as : List Act) (s : State UInt8), Run (byteCfg 250 0) as s ∧ jobs as = [.message, .batch 3] ∧ s.isOpen = true ∧
    stream (byteCfg 250 0) as = s.handedOut ++ [.ok ⟨2, withBatchIndex 1 (msgId 5)⟩, .ok ⟨3, withBatchIndex 2 (msgId 5)⟩] ∧
    s.waiting 1 ∧ step (byteCfg 250 0) s (.run 1) = none :=
  ⟨[many 5 [[1], [2], [3]], .spawn .message] ++ go 0 6 ++ [.spawn (.batch 3)] ++ go 1 3, _, run_exec rfl, rfl, rfl, rfl,
    ⟨_, _, rfl, rfl⟩, rfl⟩

/-! ## C142 -/

/-- Whatever calls there are and were, a call that waits for a message returns once one arrives, by its own steps alone. -/
theorem C142_returns {cfg : Cfg T} {as : List Act} {s s1 : State T} (h : Run cfg as s) {i : Nat} (hw : s.waiting i) (m : Message)
    (hd : step cfg s (.deliver (.message m)) = some s1) :
    ∃ bs s' o, (∀ a ∈ bs, a = .run i) ∧ Run cfg (as ++ .deliver (.message m) :: bs) s' ∧ s'.results = s.results ++ [(i, o)] := by
  have h1 := Run.snoc h hd
  have he : s1.tasks = s.tasks ∧ s1.results = s.results ∧ s1.inbox = s.inbox ++ [.message m] := by
    simp only [step] at hd
    split at hd
    · cases hd; exact ⟨rfl, rfl, rfl⟩
    · cases hd
  obtain ⟨bs, s', o, g1, g2, g3⟩ := waiting_returns h1 (i := i) (by
    obtain ⟨t, k, ht, hc⟩ := hw
    exact ⟨t, k, by rw [he.1]; exact ht, hc⟩) (by
    rw [he.2.2]
    simp [pendingIn])
  exact ⟨bs, s', o, g1, by simpa using g2, by rw [g3, he.2.1]⟩

/-- And it fails with `ChannelTerminated` if the engine goes away when everything that arrived has been taken. -/
theorem C142_fails {cfg : Cfg T} {as : List Act} {s s1 : State T} (h : Run cfg as s) {i : Nat} (hw : s.waiting i)
    (hstuck : step cfg s (.run i) = none) (hd : step cfg s .close = some s1) :
    ∃ bs s', (∀ a ∈ bs, a = .run i) ∧ Run cfg (as ++ .close :: bs) s' ∧ s'.results = s.results ++ [(i, .err .channelTerminated)] := by
  have h1 := Run.snoc h hd
  cases hd
  have hq : s.inbox = [] := by
    obtain ⟨t, k, ht, hc⟩ := hw
    simp only [step, ht, runTask, hc, runCode] at hstuck
    split at hstuck
    · cases hstuck
    · cases hstuck
    · assumption
  obtain ⟨bs, s', g1, g2, g3⟩ := waiting_fails h1 (i := i) hw (by show pendingIn s.inbox = []; rw [hq]; rfl) rfl
  exact ⟨bs, s', g1, by simpa using g2, g3⟩

/-- A `next_message` and a `next_batch(3)` are made; the second waits for a message (the first for the buffer). (The hypotheses of
C142_returns and C142_fails are met.) -/
example : ∃ s s1 s2 : State UInt8, Run (byteCfg 250 0) ([.spawn .message, .spawn (.batch 3), .run 0] ++ go 1 3) s ∧ s.waiting 1 ∧
    step (byteCfg 250 0) s (one 5 [1]) = some s1 ∧ step (byteCfg 250 0) s (.run 1) = none ∧ step (byteCfg 250 0) s .close = some s2 :=
  ⟨_, _, _, run_exec rfl, ⟨_, _, rfl, rfl⟩, rfl, rfl, rfl⟩

end Neutron.Props
