import Verif.Proof.ConsumerTraces

/-!
# Flow control: C54, C55/C90, C56/C91, C57/C92, and the permits of C58/C93
-/

namespace Neutron.Props

open Neutron Neutron.Consumer

variable {T : Type}

/-! ## Runs that follow the accounting rules -/

theorem stuck_used {cfg : Cfg T} {as : List Act} {s : State T} (h : Run cfg as s) {i : Nat} (hw : s.waiting i)
    (hstuck : step cfg s (.run i) = none) : usedBy as = s.used := by
  have hq : s.inbox = [] := by
    obtain ⟨t, k, ht, hc⟩ := hw
    simp only [step, ht, runTask, hc, runCode] at hstuck
    split at hstuck
    · cases hstuck
    · cases hstuck
    · assumption
  have := received_delivered h
  rw [hq] at this
  simp only [pendingIn, List.filterMap_nil, List.append_nil] at this
  rw [usedBy, State.used, this]

theorem fair_single {cfg : Cfg T} {n : Nat} {as : List Act} (hP : 0 < cfg.permits.toNat)
    (hN : cfg.permits.toNat - 1 + n + cfg.permits.toNat < 4294967296) (h2 : 2 * cfg.permits.toNat < 4294967296)
    (hm : ∀ m ∈ delivered as, isSingle m = true ∧ decodable cfg.decode m) : Fair (exactRules cfg n 1 true) cfg n as where
  permits := rfl
  pos := hP
  bound := by simp [exactRules]
  small := by simpa [exactRules] using hN
  twice := h2
  buf := fun as' s hp hr => (single_inv hr (by
    intro m hm'
    obtain ⟨ws, rfl⟩ := hp
    exact (hm m (by simp [hm'])).1)).buf
  jobs := by
    intro j _
    cases j with
    | message => exact ⟨wf_single cfg n hN h2, rfl, rfl, trivial⟩
    | consume => exact ⟨wf_single cfg n hN h2, rfl, rfl, trivial⟩
    | batch k => exact ⟨wf_batch cfg n 1 k true (by omega) (by omega) (by simpa using hN) (by omega) h2, rfl, rfl, trivial⟩
  msgs := by
    intro m hm'
    obtain ⟨h1, h3⟩ := hm m hm'
    refine ⟨h3, ?_, ?_, fun _ => h1⟩
    · cases m with
      | single => trivial
      | batch => cases h1
    · cases m with
      | single => exact Nat.le_refl _
      | batch => cases h1

theorem fair_message {cfg : Cfg T} {n D : Nat} {as : List Act} (hP : 0 < cfg.permits.toNat)
    (hN : cfg.permits.toNat - 1 + n + cfg.permits.toNat < 4294967296) (h2 : 2 * cfg.permits.toNat < 4294967296)
    (hj : ∀ k, Job.batch k ∉ jobs as) (hm : ∀ m ∈ delivered as, decodable cfg.decode m ∧ filled m ∧ weight m ≤ D) :
    Fair (messageRules cfg n D) cfg n as where
  permits := rfl
  pos := hP
  bound := Nat.le_refl _
  small := by simpa [messageRules] using hN
  twice := h2
  buf := fun _ _ _ _ => trivial
  jobs := by
    intro j hj'
    cases j with
    | message => exact ⟨wf_message cfg n D hN h2, rfl, rfl, trivial⟩
    | consume => exact ⟨wf_message cfg n D hN h2, rfl, rfl, trivial⟩
    | batch k => exact absurd hj' (hj k)
  msgs := hm

theorem batch_inv {cfg : Cfg T} {as : List Act} {s : State T} (hj : ∀ j ∈ jobs as, ∃ k, j = .batch k) (h : Run cfg as s) :
    Inv List.Subperm (fun b => b = []) (fun _ => True) (yields cfg.decode) s := by
  refine .run compat_subperm rfl ?_ (fun _ _ => trivial) h
  intro j hj'
  obtain ⟨k, rfl⟩ := hj j hj'
  exact pre_batch_nil cfg k

theorem fair_batch {cfg : Cfg T} {n D : Nat} {as : List Act} (hP : 0 < cfg.permits.toNat) (hD : 0 < D) (hD2 : D < 4294967296)
    (hN : cfg.permits.toNat - 1 + D * n + cfg.permits.toNat < 4294967296) (h2 : 2 * cfg.permits.toNat < 4294967296)
    (hj : ∀ j ∈ jobs as, ∃ k, j = .batch k ∧ D ≤ k) (hm : ∀ m ∈ delivered as, decodable cfg.decode m ∧ filled m ∧ weight m ≤ D) :
    Fair (exactRules cfg n D false) cfg n as where
  permits := rfl
  pos := hP
  bound := Nat.le_refl _
  small := hN
  twice := h2
  buf := fun as' s hp hr => (batch_inv (by
    intro j hj'
    obtain ⟨ws, rfl⟩ := hp
    obtain ⟨k, h, _⟩ := hj j (by simp [hj'])
    exact ⟨k, h⟩) hr).buf
  jobs := by
    intro j hj'
    obtain ⟨k, rfl, hk⟩ := hj j hj'
    exact ⟨wf_batch cfg n D k false (.inr hk) hD hN hD2 h2, rfl, rfl, trivial⟩
  msgs := fun m hm' => ⟨(hm m hm').1, (hm m hm').2.1, (hm m hm').2.2, by simp⟩

/-! ## C54 -/

theorem not_starved_used {cfg : Cfg T} {n : Nat} {as : List Act} {s : State T} (h : AtMost cfg n as s)
    (hP : 0 < cfg.permits.toNat) (hP3 : 3 * cfg.permits.toNat < 4294967296) (hn : n ≤ cfg.permits.toNat + 1)
    (hm : ∀ m ∈ delivered as, isSingle m = true ∧ decodable cfg.decode m) {i : Nat} (hw : s.waiting i) : s.used < s.grants := by
  have hr := atMost_run h
  refine not_starved h (r := exactRules cfg n 1 true) (D := 1) (fair_single hP (by omega) (by omega) hm) ?_
    (single_inv hr fun m hm' => (hm m hm').1) (by simp [exactRules]) (by omega) ?_ hw
  · intro m d hc
    have : weight m = d := hc
    omega
  · simp [exactRules]; omega

/-- Single messages, any mix of calls, up to `permits + 1` of them at once, in any interleaving, any of them dropped: while a call
waits with nothing in the channel, the broker holds at least one permit it has not used. -/
theorem C54_not_starved {cfg : Cfg T} {n : Nat} {as : List Act} {s : State T} (h : AtMost cfg n as s)
    (hP : 0 < cfg.permits.toNat) (hP3 : 3 * cfg.permits.toNat < 4294967296) (hn : n ≤ cfg.permits.toNat + 1)
    (hm : ∀ m ∈ delivered as, isSingle m = true ∧ decodable cfg.decode m)
    {i : Nat} (hw : s.waiting i) (hstuck : step cfg s (.run i) = none) : usedBy as < s.grants := by
  rw [stuck_used (atMost_run h) hw hstuck]
  exact not_starved_used h hP hP3 hn hm hw

/-- With the code's own setting (250). -/
theorem C54_not_starved_250 {decode : Bytes → Option T} {plugins n : Nat} {as : List Act} {s : State T} (h : AtMost ⟨decode, 250, plugins⟩ n as s)
    (hn : n ≤ 251) (hm : ∀ m ∈ delivered as, isSingle m = true ∧ decodable decode m)
    {i : Nat} (hw : s.waiting i) (hstuck : step ⟨decode, 250, plugins⟩ s (.run i) = none) : usedBy as < s.grants :=
  C54_not_starved h (show 0 < (250 : UInt32).toNat by decide) (show 3 * (250 : UInt32).toNat < 4294967296 by decide) hn hm hw hstuck

/-- The bound on simultaneous calls matters: with `permits = 1`, three calls at once and two messages, the third call waits and
the broker has no permit left. -/
example : ∃ (as : List Act) (s : State UInt8), AtMost (byteCfg 1 0) 3 as s ∧ s.waiting 2 ∧ step (byteCfg 1 0) s (.run 2) = none ∧
    usedBy as = s.grants := by
  refine ⟨[one 5 [1], one 6 [2], .spawn .message, .spawn .message, .spawn .message, .run 0, .run 1, .run 2] ++ go 0 5 ++ go 1 5 ++ go 2 1, _,
    atMost_of rfl, ?_, ?_, ?_⟩
  · exact ⟨_, _, rfl, rfl⟩
  · rfl
  · rfl

/-- The hypotheses of C54_not_starved are met: two calls at once with `permits = 1`, one message consumed, a call waits. -/
example : ∃ (as : List Act) (s : State UInt8), AtMost (byteCfg 1 0) 2 as s ∧ s.waiting 1 ∧ step (byteCfg 1 0) s (.run 1) = none ∧
    usedBy as = 1 ∧ s.grants = 2 := by
  refine ⟨[one 5 [1], .spawn .message, .spawn .message, .run 0, .run 1] ++ go 0 5 ++ go 1 1, _,
    atMost_of rfl, ?_, ?_, ?_, ?_⟩
  · exact ⟨_, _, rfl, rfl⟩
  · rfl
  · rfl
  · rfl

/-! ## C55/C90 -/

theorem unpack_ok {cfg : Cfg T} {m : Message} (h1 : decodable cfg.decode m) (h2 : filled m) :
    ∃ r rs, unpack cfg.decode m = .ok (r :: rs) ∧ (r :: rs).length = weight m := by
  rcases unpack_yields cfg.decode m with ⟨r, rs, h, _, _, _, h6⟩ | ⟨_, _, h3⟩ | ⟨_, _, h3, _⟩ | ⟨_, _, h3, _⟩
  · exact ⟨r, rs, h, h6⟩
  · exact absurd h2 h3
  · exact absurd h1 h3
  · exact absurd h1 h3

/-- Taking everything out of the buffer, call by call. -/
theorem drain {cfg : Cfg T} (b : List (Received T)) : ∀ {as : List Act} {s : State T}, AtMost cfg 1 as s → Rest s →
    s.permits.toNat < cfg.permits.toNat → s.buffer = b →
    ∃ bs s', AtMost cfg 1 (as ++ bs) s' ∧ Rest s' ∧ s'.permits = s.permits ∧ s'.buffer = [] ∧ s'.inbox = s.inbox ∧ s'.received = s.received ∧
      s'.granted = s.granted ∧ jobs bs = List.replicate b.length .message ∧ delivered bs = [] := by
  induction b with
  | nil =>
    intro as s h hr hp hb
    exact ⟨[], s, by simpa using h, hr, rfl, hb, rfl, rfl, rfl, rfl, rfl⟩
  | cons m rest ih =>
    intro as s h hr hp hb
    obtain ⟨bs, h1, j1, d1⟩ := call_buffered h hr hp hb
    obtain ⟨bs', s', h2, r2, p2, b2, q2, v2, g2, j2, d2⟩ := ih h1 (State.put_rest hr _ _) hp rfl
    refine ⟨bs ++ bs', s', by simpa using h2, r2, p2, b2, q2, v2, g2, ?_, by simp [d1, d2]⟩
    rw [jobs_append, j1, j2]
    rfl

/-- The full claim is false: a batch costs the broker one permit per message, but counts as one.  For every permit setting (2 or
more): a single consumer that calls `next_message` again and again, one batch of `2 * permits` messages (500 with the code's
setting), all of which can be decoded and are handed out; the next call waits, the broker has no permit left, and will not get
any: the call waits forever. -/
theorem C55_refuted (cfg : Cfg UInt8) (hd : cfg.decode = (byteCfg 250 0).decode) (hP : 2 ≤ cfg.permits.toNat)
    (hP2 : 2 * cfg.permits.toNat < 4294967296) :
    ∃ (as : List Act) (s : State UInt8) (i : Nat), AtMost cfg 1 as s ∧ (∀ j ∈ jobs as, j = .message) ∧
      (∀ m ∈ delivered as, decodable cfg.decode m ∧ filled m) ∧
      s.waiting i ∧ step cfg s (.run i) = none ∧ usedBy as = s.grants := by
  let m : Message := .batch 3 (msgId 5) (List.replicate (2 * cfg.permits.toNat) ⟨mkMsg .singleMessageMetadata [], [7]⟩)
  have hm1 : decodable cfg.decode m := by
    intro p hp
    rw [List.eq_of_mem_replicate hp, hd]
    rfl
  have hm2 : filled m := by
    intro h
    have := congrArg List.length h
    rw [List.length_replicate] at this
    simp at this
    omega
  have hw : weight m = 2 * cfg.permits.toNat := List.length_replicate ..
  obtain ⟨r, rs, hu, hl⟩ := unpack_ok hm1 hm2
  have h0 : AtMost cfg 1 [] (init cfg) := .nil
  have r0 : Rest (init cfg) := ⟨rfl, rfl, rfl⟩
  have h1 := arrive h0 r0 m
  obtain ⟨bs, h2, j2, d2⟩ := call_received (s := { init cfg with inbox := (init cfg).inbox ++ [.message m] }) h1
    ⟨rfl, rfl, rfl⟩ (show (0 : UInt32).toNat < _ by rw [show (0 : UInt32).toNat = 0 from rfl]; omega) rfl (q := []) rfl hu
  obtain ⟨bs', s', h3, r3, p3, b3, q3, v3, g3, j3, d3⟩ := drain rs h2 (State.put_rest (s := { init cfg with inbox := (init cfg).inbox ++ [.message m] })
    ⟨rfl, rfl, rfl⟩ _ _) (show ((0 : UInt32) + 1).toNat < _ by rw [show ((0 : UInt32) + 1).toNat = 1 from rfl]; omega) rfl
  obtain ⟨s'', h4, w4, k4, g4, v4, _⟩ := call_waits h3 r3 (by
    rw [p3]
    show ((0 : UInt32) + 1).toNat < _
    rw [show ((0 : UInt32) + 1).toNat = 1 from rfl]; omega) b3 q3
  have hdel : delivered ([] ++ [Act.deliver (.message m)] ++ bs ++ bs' ++ [.spawn .message, .run s'.tasks.length, .run s'.tasks.length]) = [m] := by
    simp [delivered, d2, d3]
  refine ⟨_, s'', _, h4, ?_, ?_, w4, k4, ?_⟩
  · intro j hj
    simp only [jobs_append, j2, j3, jobs, List.mem_append, List.mem_cons, List.not_mem_nil, or_false, false_or] at hj
    rcases hj with (hj | hj) | hj
    · exact hj
    · exact List.eq_of_mem_replicate hj
    · exact hj
  · intro m' hm'
    rw [hdel] at hm'
    rw [List.mem_singleton.mp hm']
    exact ⟨hm1, hm2⟩
  · rw [usedBy, hdel, State.grants, g4, g3]
    show weight m + 0 = (cfg.permits * 2).toNat + 0
    rw [hw, UInt32.toNat_mul, show (2 : UInt32).toNat = 2 from rfl, Nat.mod_eq_of_lt (by omega)]
    omega

/-- What holds with `next_message` (and `consume`): batches of at most `D` messages, up to `n` calls at once, as long as
`D * (permits - 1 + n) ≤ 2 * permits` - for one call at a time, batches of at most two.  Not covered (C55): larger batches (the bound is
exact for one call at a time, see `C55_refuted` and the example below it). -/
theorem C90_next_message {cfg : Cfg T} {n D : Nat} {as : List Act} {s : State T} (h : AtMost cfg n as s)
    (hP : 0 < cfg.permits.toNat) (hP3 : 3 * cfg.permits.toNat < 4294967296) (hD : 0 < D)
    (hn : D * (cfg.permits.toNat - 1 + n) ≤ 2 * cfg.permits.toNat) (hj : ∀ k, Job.batch k ∉ jobs as)
    (hm : ∀ m ∈ delivered as, decodable cfg.decode m ∧ filled m ∧ weight m ≤ D)
    {i : Nat} (hw : s.waiting i) (hstuck : step cfg s (.run i) = none) : usedBy as < s.grants := by
  have hr := atMost_run h
  have hb : cfg.permits.toNat - 1 + n ≤ 2 * cfg.permits.toNat := Nat.le_trans (Nat.le_mul_of_pos_left _ hD) hn
  rw [stuck_used hr hw hstuck]
  refine not_starved h (r := messageRules cfg n D) (D := D) (fair_message hP (by omega) (by omega) hj hm) (fun _ _ hc => hc)
    (message_inv hr hj) (by simp [messageRules]) hD ?_ hw
  simpa [messageRules] using hn

/-- What holds with `next_batch(k)`, one call at a time, when `k` is at least the size of every message: batches of any size.
Not covered (C55): overlapping calls, and smaller `k`. -/
theorem C90_next_batch {cfg : Cfg T} {D : Nat} {as : List Act} {s : State T} (h : AtMost cfg 1 as s)
    (hP : 0 < cfg.permits.toNat) (hD : 0 < D) (hN : 2 * cfg.permits.toNat + D ≤ 4294967296)
    (hj : ∀ j ∈ jobs as, ∃ k, j = .batch k ∧ D ≤ k)
    (hm : ∀ m ∈ delivered as, decodable cfg.decode m ∧ filled m ∧ weight m ≤ D)
    {i : Nat} (hw : s.waiting i) (hstuck : step cfg s (.run i) = none) : usedBy as < s.grants := by
  have hr := atMost_run h
  have hf := fair_batch (n := 1) hP hD (by omega) (by omega) (by omega) hj hm
  rw [stuck_used hr hw hstuck]
  obtain ⟨_, W, f, g1, g2, g3, g4, _⟩ := exact_of h hf (fun _ _ hc => hc)
  have hl := lawful h hf
  have ho := owed_zero (batch_inv (fun j hj' => by obtain ⟨k, h, _⟩ := hj j hj'; exact ⟨k, h⟩) hr) hw
  obtain ⟨t, k, ht, hst⟩ := hw
  have hlive : t.stage.live = true := by rw [hst]; rfl
  have e := total_ge ht (due D)
  rw [hst] at e
  change D ≤ _ at e
  have hb : s.permits.toNat + total (due D) s ≤ cfg.permits.toNat - 1 + D * 1 := hl.bound
  rw [ho.1] at g1
  have g2' : s.grants = 2 * cfg.permits.toNat + cfg.permits.toNat * f + W := g2
  split at g1 <;> omega

/-- Two batches of two, with `permits = 2`: a call waits, four permits used of the four granted at first and four more. (The hypotheses of
C90_next_message and C90_next_batch are met.) -/
example : ∃ (as : List Act) (s : State UInt8), AtMost (byteCfg 2 0) 1 as s ∧ s.waiting 4 ∧ step (byteCfg 2 0) s (.run 4) = none ∧
    usedBy as = 4 ∧ s.grants = 8 := by
  refine ⟨[many 5 [[1], [2]], many 6 [[3], [4]], .spawn .message] ++ go 0 6 ++ [.spawn .message] ++ go 1 4 ++ [.spawn .message] ++ go 2 6 ++
    [.spawn .message] ++ go 3 6 ++ [.spawn .message] ++ go 4 2, _,
    atMost_of rfl, ?_, ?_, ?_, ?_⟩
  · exact ⟨_, _, rfl, rfl⟩
  · rfl
  · rfl
  · rfl

/-- A batch of five with `permits = 2`, `next_batch(5)`. -/
example : ∃ (as : List Act) (s : State UInt8), AtMost (byteCfg 2 0) 1 as s ∧ s.waiting 1 ∧ step (byteCfg 2 0) s (.run 1) = none ∧
    usedBy as = 5 ∧ s.grants = 11 := by
  refine ⟨[many 5 [[1], [2], [3], [4], [5]], .spawn (.batch 5)] ++ go 0 6 ++ [.spawn (.batch 5)] ++ go 1 5, _,
    atMost_of rfl, ?_, ?_, ?_, ?_⟩
  · exact ⟨_, _, rfl, rfl⟩
  · rfl
  · rfl
  · rfl

/-- Batches of three, with `permits = 2`: after three batches a call waits, nine permits used, eight granted. -/
example : ∃ (as : List Act) (s : State UInt8), AtMost (byteCfg 2 0) 1 as s ∧ s.waiting 9 ∧ step (byteCfg 2 0) s (.run 9) = none ∧
    usedBy as = 9 ∧ s.grants = 8 := by
  refine ⟨[many 5 [[1], [2], [3]], many 6 [[4], [5], [6]], .spawn .message] ++ go 0 6 ++ [.spawn .message] ++ go 1 4 ++ [.spawn .message] ++ go 2 4 ++
    [.spawn .message] ++ go 3 6 ++ [.spawn .message] ++ go 4 6 ++ [.spawn .message] ++ go 5 4 ++ [many 7 [[7], [8], [9]], .spawn .message] ++ go 6 6 ++
    [.spawn .message] ++ go 7 4 ++ [.spawn .message] ++ go 8 4 ++ [.spawn .message] ++ go 9 2, _, atMost_of rfl, ?_, ?_, ?_, ?_⟩
  · exact ⟨_, _, rfl, rfl⟩
  · rfl
  · rfl
  · rfl

/-! ## C56/C91, C57/C92: one call at a time -/

/-- Single messages, one call at a time: what was granted, in terms of what was taken from the channel. -/
theorem sequential {cfg : Cfg T} {as : List Act} {s : State T} (h : AtMost cfg 1 as s)
    (hP : 0 < cfg.permits.toNat) (hP2 : 2 * cfg.permits.toNat < 4294967296)
    (hm : ∀ m ∈ delivered as, isSingle m = true ∧ decodable cfg.decode m) :
    ∃ f, s.used = cfg.permits.toNat * f + (if total wipes s = 0 then s.permits.toNat else 0) + total owed s ∧
      s.grants = 2 * cfg.permits.toNat * (f + 1) ∧ s.granted.length = f + 1 ∧
      s.permits.toNat + total (due 1) s ≤ cfg.permits.toNat := by
  have hf := fair_single (n := 1) hP (by omega) hP2 hm
  obtain ⟨_, W, f, g1, g2, g3, g4, g5⟩ := exact_of h hf (fun _ _ hc => hc)
  have hl := (lawful h hf).bound
  have e1 : (exactRules cfg 1 1 true).P = cfg.permits.toNat := rfl
  have e2 : (exactRules cfg 1 1 true).N = cfg.permits.toNat := by simp [exactRules]; omega
  have e3 : (exactRules cfg 1 1 true).A = 1 := rfl
  rw [e1] at g2 g4
  rw [e2] at g5
  rw [e2, e3] at hl
  have hW : W = cfg.permits.toNat * f := Nat.le_antisymm g5 g4
  subst hW
  refine ⟨f, g1, ?_, g3, hl⟩
  rw [g2]
  ring

/-! ## C56/C91 -/

/-- The full claim is false: the permits the broker holds grow without bound.  For every permit setting and every bound: a single
consumer taking single messages one after the other, none of which stays in the channel, and the broker holds more permits. -/
theorem C56_refuted (cfg : Cfg UInt8) (hd : cfg.decode = (byteCfg 250 0).decode) (hP : 0 < cfg.permits.toNat)
    (hP2 : 2 * cfg.permits.toNat < 4294967296) (bound : Nat) :
    ∃ (as : List Act) (s : State UInt8), AtMost cfg 1 as s ∧ (∀ j ∈ jobs as, j = .message) ∧
      (∀ m ∈ delivered as, isSingle m = true ∧ decodable cfg.decode m) ∧ bound < s.grants - usedBy as := by
  let m : Message := .single 3 (msgId 5) [7]
  have hu : unpack cfg.decode m = .ok [⟨7, msgId 5⟩] := by
    simp only [m, unpack, hd]; rfl
  have hm : isSingle m = true ∧ decodable cfg.decode m := ⟨rfl, by show (cfg.decode [7]).isSome = true; rw [hd]; rfl⟩
  obtain ⟨as, s, h, hr, hb, hq, hj, hdel, _, hle⟩ := consume_many hP hu (cfg.permits.toNat * (bound + 1))
  have hm' : ∀ m' ∈ delivered as, isSingle m' = true ∧ decodable cfg.decode m' := by
    intro m' h'
    rw [hdel] at h'
    rw [List.eq_of_mem_replicate h']
    exact hm
  refine ⟨as, s, h, hj, hm', ?_⟩
  obtain ⟨f, g1, g2, _, _⟩ := sequential h hP hP2 hm'
  have hub : usedBy as = s.used := usedBy_rest (atMost_run h) hq
  have hused : s.used = cfg.permits.toNat * (bound + 1) := by
    rw [← hub, usedBy, hdel, sum_replicate_weight _ rfl]
  rw [total_rest hr.live, total_rest hr.live, if_pos rfl, hused] at g1
  have hf : bound ≤ f := by
    by_contra hlt
    have : cfg.permits.toNat * (f + 1) ≤ cfg.permits.toNat * bound := Nat.mul_le_mul_left _ (by omega)
    rw [Nat.mul_add] at this g1
    omega
  have h3 : cfg.permits.toNat * bound ≤ cfg.permits.toNat * f := Nat.mul_le_mul_left _ hf
  have h4 : 1 * bound ≤ cfg.permits.toNat * bound := Nat.mul_le_mul_right _ hP
  rw [hub, g2, hused, Nat.mul_add, Nat.mul_assoc, Nat.mul_add]
  omega

/-- What holds: with single messages and one call at a time the broker never holds more than twice the setting plus one permit
per message taken. Not true (C56): a bound that does not grow. -/
theorem C91_bound {cfg : Cfg T} {as : List Act} {s : State T} (h : AtMost cfg 1 as s)
    (hP : 0 < cfg.permits.toNat) (hP2 : 2 * cfg.permits.toNat < 4294967296)
    (hm : ∀ m ∈ delivered as, isSingle m = true ∧ decodable cfg.decode m) :
    s.grants ≤ 2 * cfg.permits.toNat + 2 * s.used := by
  obtain ⟨f, g1, g2, _⟩ := sequential h hP hP2 hm
  rw [g2, Nat.mul_add, Nat.mul_assoc]
  omega

/-- With the code's setting of 250: more than a million permits beyond what was used. (The hypotheses of C91_bound are met.) -/
example : ∃ (as : List Act) (s : State UInt8), AtMost (byteCfg 250 0) 1 as s ∧ 1000000 < s.grants - usedBy as := by
  obtain ⟨as, s, h1, _, _, h4⟩ := C56_refuted (byteCfg 250 0) rfl (by decide) (by decide) 1000000
  exact ⟨as, s, h1, h4⟩

/-! ## C57/C92 -/

/-- What holds: when calls do not overlap, every `permits` messages taken are granted exactly once: while a call waits with
nothing in the channel, the number of grants is the initial one plus one per `permits` messages that arrived, each of
`2 * permits`.  Not covered (C57): overlapping calls, see below. -/
theorem C92_sequential {cfg : Cfg T} {as : List Act} {s : State T} (h : AtMost cfg 1 as s)
    (hP : 0 < cfg.permits.toNat) (hP2 : 2 * cfg.permits.toNat < 4294967296)
    (hm : ∀ m ∈ delivered as, isSingle m = true ∧ decodable cfg.decode m)
    {i : Nat} (hw : s.waiting i) (hstuck : step cfg s (.run i) = none) :
    s.granted.length = usedBy as / cfg.permits.toNat + 1 ∧ s.grants = 2 * cfg.permits.toNat * (usedBy as / cfg.permits.toNat + 1) := by
  obtain ⟨f, g1, g2, g3, g4⟩ := sequential h hP hP2 hm
  rw [stuck_used (atMost_run h) hw hstuck]
  obtain ⟨t, k, ht, hst⟩ := hw
  have hlive : t.stage.live = true := by rw [hst]; rfl
  have hv := atMost_live h
  rw [total_one hv ht hlive, total_one hv ht hlive, hst] at g1
  rw [total_one hv ht hlive, hst] at g4
  rw [if_pos (show onStage wipes (Stage.running (Code.recv k)) = 0 from rfl)] at g1
  change _ = _ + _ + 0 at g1
  change _ + 1 ≤ _ at g4
  have hf : s.used / cfg.permits.toNat = f := by
    rw [g1, Nat.add_zero, Nat.mul_add_div hP, Nat.div_eq_of_lt (by omega), Nat.add_zero]
  rw [hf]
  exact ⟨g3, g2⟩

/-- The full claim is false: for every permit setting, two calls at once both see the counter at the setting and both grant: the
same messages are granted twice. -/
theorem C57_twice_refuted (cfg : Cfg UInt8) (hd : cfg.decode = (byteCfg 250 0).decode) (hP : 0 < cfg.permits.toNat)
    (hP2 : 2 * cfg.permits.toNat < 4294967296) :
    ∃ (as : List Act) (s : State UInt8), AtMost cfg 2 as s ∧ (∀ j ∈ jobs as, j = .message) ∧
      (∀ m ∈ delivered as, isSingle m = true ∧ decodable cfg.decode m) ∧
      usedBy as = cfg.permits.toNat ∧ s.granted = [cfg.permits * 2, cfg.permits * 2, cfg.permits * 2] := by
  let m : Message := .single 3 (msgId 5) [7]
  have hu : unpack cfg.decode m = .ok [⟨7, msgId 5⟩] := by
    simp only [m, unpack, hd]; rfl
  have hm : isSingle m = true ∧ decodable cfg.decode m := ⟨rfl, by show (cfg.decode [7]).isSome = true; rw [hd]; rfl⟩
  obtain ⟨as, s, h, hr, hb, hq, hj, hdel, hone, hle⟩ := consume_many hP hu cfg.permits.toNat
  have hm' : ∀ m' ∈ delivered as, isSingle m' = true ∧ decodable cfg.decode m' := by
    intro m' h'
    rw [hdel] at h'
    rw [List.eq_of_mem_replicate h']
    exact hm
  obtain ⟨f, g1, g2, g3, _⟩ := sequential h hP hP2 hm'
  have hub : usedBy as = s.used := usedBy_rest (atMost_run h) hq
  have hused : s.used = cfg.permits.toNat := by
    rw [← hub, usedBy, hdel, sum_replicate_weight _ rfl]
  rw [total_rest hr.live, total_rest hr.live, if_pos rfl, hused] at g1
  have hone := hone hP
  have hf : f = 0 := by
    rcases Nat.eq_zero_or_pos f with h0 | h0
    · exact h0
    · have := Nat.mul_le_mul_left cfg.permits.toNat h0
      omega
  subst hf
  have hp : s.permits = cfg.permits := UInt32.toNat.inj (by omega)
  have hg : s.granted = [cfg.permits * 2] := by
    obtain ⟨x, hx⟩ := List.length_eq_one_iff.mp g3
    rw [State.grants, hx] at g2
    simp only [List.map_cons, List.map_nil, List.sum_cons, List.sum_nil, Nat.add_zero, Nat.zero_add, Nat.mul_one] at g2
    rw [hx]
    congr 1
    apply UInt32.toNat.inj
    rw [g2, UInt32.toNat_mul, show (2 : UInt32).toNat = 2 from rfl, Nat.mod_eq_of_lt (by omega)]
    omega
  obtain ⟨s', h', hg'⟩ := grant_twice h hr hp
  refine ⟨_, s', h', ?_, ?_, ?_, by rw [hg', hg]; rfl⟩
  · intro j hj'
    simp only [jobs_append, jobs, List.mem_append, List.mem_cons, List.not_mem_nil, or_false, or_self] at hj'
    rcases hj' with hj' | hj'
    · exact hj j hj'
    · exact hj'
  · intro m' h'
    simp only [delivered_append, delivered, List.append_nil] at h'
    exact hm' m' h'
  · rw [usedBy, delivered_append]
    simp only [delivered, List.append_nil]
    rw [hdel, sum_replicate_weight _ rfl]

/-- And one is lost: a call that passed the check earlier counts its message between another call's grant and its reset.  With
`permits = 2`, after four single messages a call waits, and only one grant was made beyond the initial one - two would have been,
had the calls not overlapped (`C92_sequential`). -/
theorem C57_lost_refuted : ∃ (as : List Act) (s : State UInt8), AtMost (byteCfg 2 0) 2 as s ∧
    (∀ m ∈ delivered as, isSingle m = true ∧ decodable (byteCfg 2 0).decode m) ∧ s.waiting 4 ∧ step (byteCfg 2 0) s (.run 4) = none ∧
    usedBy as / 2 + 1 = 3 ∧ s.granted.length = 2 := by
  refine ⟨[one 1 [1], one 2 [2], one 3 [3], .spawn .message] ++ go 0 6 ++ [.spawn .message] ++ go 1 1 ++ [.spawn .message] ++ go 2 6 ++
    [.spawn .message] ++ go 3 2 ++ go 1 5 ++ [one 4 [4]] ++ go 3 6 ++ [.spawn .message] ++ go 4 2, _, atMost_of rfl, ?_, ?_, ?_, ?_, ?_⟩
  · intro m hm
    change m ∈ [Message.single 3 (msgId 1) [1], .single 3 (msgId 2) [2], .single 3 (msgId 3) [3], .single 3 (msgId 4) [4]] at hm
    simp only [List.mem_cons, List.not_mem_nil, or_false] at hm
    rcases hm with rfl | rfl | rfl | rfl <;> exact ⟨rfl, rfl⟩
  · exact ⟨_, _, rfl, rfl⟩
  · rfl
  · rfl
  · rfl

/-- The same four messages one after the other: three grants. (The hypotheses of C92_sequential are met.) -/
example : ∃ (as : List Act) (s : State UInt8), AtMost (byteCfg 2 0) 1 as s ∧ s.waiting 4 ∧ step (byteCfg 2 0) s (.run 4) = none ∧
    usedBy as = 4 ∧ s.granted = [4, 4, 4] := by
  refine ⟨[one 1 [1], one 2 [2], one 3 [3], one 4 [4], .spawn .message] ++ go 0 6 ++ [.spawn .message] ++ go 1 6 ++ [.spawn .message] ++ go 2 8 ++
    [.spawn .message] ++ go 3 6 ++ [.spawn .message] ++ go 4 4, _, atMost_of rfl, ?_, ?_, ?_, ?_⟩
  · exact ⟨_, _, rfl, rfl⟩
  · rfl
  · rfl
  · rfl

/-! ## C58/C93: permits -/

/-- The part of the claim about permits is false: a message that cannot be decoded costs a permit that is never granted again.
For every permit setting: `2 * permits` such messages, each reported as an error, and the next call waits forever, the broker
having no permit left. -/
theorem C58_permits_refuted (cfg : Cfg UInt8) (hd : cfg.decode = (byteCfg 250 0).decode) (hP : 0 < cfg.permits.toNat)
    (hP2 : 2 * cfg.permits.toNat < 4294967296) :
    ∃ (as : List Act) (s : State UInt8) (i : Nat), AtMost cfg 1 as s ∧ (∀ j ∈ jobs as, j = .message) ∧
      (∀ m ∈ delivered as, isSingle m = true) ∧ s.waiting i ∧ step cfg s (.run i) = none ∧ usedBy as = s.grants := by
  let m : Message := .single 3 (msgId 5) []
  have hu : unpack cfg.decode m = .err .deserializationFailed := by
    simp only [m, unpack, hd]; rfl
  obtain ⟨as, s, h, hr, hb, hq, hj, hdel, hp, hg⟩ := reject_many hP hu (2 * cfg.permits.toNat)
  obtain ⟨s', h', hw, hst, hg', _⟩ := call_waits h hr (by rw [hp]; exact hP) hb hq
  refine ⟨_, s', _, h', ?_, ?_, hw, hst, ?_⟩
  · intro j hj'
    simp only [jobs_append, jobs, List.mem_append, List.mem_cons, List.not_mem_nil, or_false] at hj'
    rcases hj' with hj' | hj'
    · exact hj j hj'
    · exact hj'
  · intro m' h'
    simp only [delivered_append, delivered, List.append_nil] at h'
    rw [hdel] at h'
    rw [List.eq_of_mem_replicate h']
    rfl
  · rw [usedBy, delivered_append]
    simp only [delivered, List.append_nil]
    rw [hdel, sum_replicate_weight _ rfl, State.grants, hg', hg]
    show _ = (cfg.permits * 2).toNat + 0
    rw [UInt32.toNat_mul, show (2 : UInt32).toNat = 2 from rfl, Nat.mod_eq_of_lt (by omega)]
    omega

end Neutron.Props
