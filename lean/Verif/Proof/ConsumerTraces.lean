import Verif.Proof.ConsumerExact

/-!
# Whole calls, one at a time, from any state at rest
-/

namespace Neutron.Consumer

open Neutron

variable {T : Type}

/-- Run a list of actions, with at most `n` calls at once. -/
def execN (cfg : Cfg T) (n : Nat) (s : State T) : List Act → Option (State T)
  | [] => some s
  | a :: as => match step cfg s a with
    | some s' => if s'.live ≤ n then execN cfg n s' as else none
    | none => none

theorem atMost_exec {cfg : Cfg T} {n : Nat} {as bs : List Act} {s s' : State T} (h : AtMost cfg n as s)
    (he : execN cfg n s bs = some s') : AtMost cfg n (as ++ bs) s' := by
  induction bs generalizing as s with
  | nil => cases he; simpa using h
  | cons b bs ih =>
    simp only [execN] at he
    split at he
    · split at he
      · have := ih (AtMost.snoc h (by assumption) (by assumption)) he
        simpa using this
      · cases he
    · cases he

theorem atMost_of {cfg : Cfg T} {n : Nat} {as : List Act} {s : State T} (he : execN cfg n (init cfg) as = some s) : AtMost cfg n as s :=
  atMost_exec .nil he

theorem execN_append {cfg : Cfg T} {n : Nat} {as bs : List Act} {s s1 : State T} (h : execN cfg n s as = some s1) :
    execN cfg n s (as ++ bs) = execN cfg n s1 bs := by
  induction as generalizing s with
  | nil => cases h; rfl
  | cons a as ih =>
    simp only [execN, List.cons_append] at h ⊢
    split at h
    · split at h
      · rename_i h1 h2
        simp only [h2, if_true]
        exact ih h
      · cases h
    · cases h

/-- Nothing in progress, and the engine is there. -/
structure Rest (s : State T) : Prop where
  live : s.live = 0
  holder : s.holder = none
  isOpen : s.isOpen = true

theorem set_last {α : Type} (l : List α) (x y : α) : (l ++ [x]).set l.length y = l ++ [y] := by
  simp [List.set_append_right]

theorem live_snoc {s : State T} (h : s.live = 0) (t : Task T) : (s.tasks ++ [t]).countP (fun t => t.stage.live) ≤ 1 := by
  rw [List.countP_append]
  have : s.tasks.countP (fun t => t.stage.live) = 0 := h
  rw [this, List.countP_cons, List.countP_nil]
  split <;> omega

/-- One step of the last call. -/
theorem execN_last {cfg : Cfg T} {s s' : State T} {l : List (Task T)} {t t' : Task T} {as : List Act}
    (hs : s.tasks = l ++ [t]) (h0 : l.countP (fun t => t.stage.live) = 0)
    (hst : runTask cfg s l.length t = some s') (hs' : s'.tasks = s.tasks.set l.length t') :
    execN cfg 1 s (.run l.length :: as) = execN cfg 1 s' as ∧ s'.tasks = l ++ [t'] := by
  have e : s'.tasks = l ++ [t'] := by rw [hs', hs, set_last]
  have hl : s'.live ≤ 1 := by
    unfold State.live
    rw [e, List.countP_append, h0, List.countP_cons, List.countP_nil]
    split <;> omega
  refine ⟨?_, e⟩
  have : step cfg s (.run l.length) = some s' := by
    simp only [step, hs, List.getElem?_concat_length, hst]
  simp only [execN, this, hl, if_true]

/-- What a call reads and writes. -/
structure Env (T : Type) where
  permits : UInt32
  buffer : List (Received T)
  inbox : List Inbound
  received : List Message
  granted : List UInt32
  locked : Bool

/-- A whole call on its own, as long as no waiting is needed and only messages come. -/
def whole : Code T → Env T → Option (Env T × Outcome (List (Received T)))
  | .ret o, e => some (e, o)
  | .load k, e => whole (k e.permits) e
  | .store n k, e => whole k { e with permits := n }
  | .add n k, e => whole k { e with permits := e.permits + n }
  | .flow n k, e => whole (k (.ok ())) { e with granted := e.granted ++ [n] }
  | .lock k, e => if e.locked then none else whole (k e.buffer) { e with locked := true }
  | .write b k, e => whole k { e with buffer := b }
  | .recv k, e => match e.inbox with
    | .message m :: q => whole (k (.ok m)) { e with inbox := q, received := e.received ++ [m] }
    | _ => none

/-- A state at rest with the environment `e`, after one more call returned `o`. -/
def State.put (s : State T) (e : Env T) (ts : List (Task T)) (o : Outcome (List (Received T))) : State T :=
  { s with
    permits := e.permits, buffer := e.buffer, inbox := e.inbox, received := e.received, granted := e.granted
    tasks := ts ++ [⟨.message, .ended⟩], holder := none, results := s.results ++ [(ts.length, o)] }

theorem whole_exec {cfg : Cfg T} (c : Code T) : ∀ (s : State T) (l : List (Task T)) (e' : Env T) (o : Outcome (List (Received T))) (b : Bool),
    s.tasks = l ++ [⟨.message, .running c⟩] → l.countP (fun t => t.stage.live) = 0 → s.isOpen = true →
    s.holder = (if b then some l.length else none) →
    whole c ⟨s.permits, s.buffer, s.inbox, s.received, s.granted, b⟩ = some (e', o) →
    ∃ k, execN cfg 1 s (List.replicate k (.run l.length)) = some (s.put e' l o) := by
  have key : ∀ {c1 : Code T} {s s1 : State T} {l : List (Task T)} {t : Task T} {e' : Env T} {o : Outcome (List (Received T))},
      s.tasks = l ++ [t] → l.countP (fun t => t.stage.live) = 0 →
      runTask cfg s l.length t = some s1 → s1.tasks = s.tasks.set l.length ⟨.message, .running c1⟩ →
      (s1.tasks = l ++ [⟨.message, .running c1⟩] → ∃ k, execN cfg 1 s1 (List.replicate k (.run l.length)) = some (s1.put e' l o)) →
      s1.put e' l o = s.put e' l o →
      ∃ k, execN cfg 1 s (List.replicate k (.run l.length)) = some (s.put e' l o) := by
    intro c1 s s1 l t e' o hs h0 hst hs1 ih he
    obtain ⟨k, hk⟩ := ih (by rw [hs1, hs, set_last])
    refine ⟨k + 1, ?_⟩
    rw [List.replicate_succ, (execN_last hs h0 hst hs1).1, hk, he]
  induction c with
  | ret o' =>
    intro s l e' o b hs h0 ho hh hw
    cases hw
    refine ⟨1, ?_⟩
    have := (execN_last (as := []) (cfg := cfg) (s' := finish s l.length ⟨.message, .running (.ret o')⟩ o') (t' := ⟨.message, .ended⟩) hs h0 rfl rfl)
    rw [List.replicate_succ, List.replicate_zero, this.1]
    simp only [execN]
    have e2 := this.2
    simp only [finish, State.goto] at e2 ⊢
    simp only [State.put, Option.some.injEq]
    have : release s.holder l.length = none := by
      rw [hh]
      cases b
      · rfl
      · exact release_self
    rw [this, e2]
  | load k ih =>
    intro s l e' o b hs h0 ho hh hw
    exact key hs h0 (s1 := s.goto l.length ⟨.message, .running (.load k)⟩ (.running (k s.permits))) rfl rfl
      (fun e => ih _ _ l e' o b e h0 ho hh hw) rfl
  | store n k ih =>
    intro s l e' o b hs h0 ho hh hw
    exact key hs h0 (s1 := { s.goto l.length ⟨.message, .running (.store n k)⟩ (.running k) with permits := n }) rfl rfl
      (fun e => ih _ l e' o b e h0 ho hh hw) rfl
  | add n k ih =>
    intro s l e' o b hs h0 ho hh hw
    exact key hs h0 (s1 := { s.goto l.length ⟨.message, .running (.add n k)⟩ (.running k) with permits := s.permits + n }) rfl rfl
      (fun e => ih _ l e' o b e h0 ho hh hw) rfl
  | flow n k ih =>
    intro s l e' o b hs h0 ho hh hw
    exact key hs h0 (s1 := { s.goto l.length ⟨.message, .running (.flow n k)⟩ (.running (k (.ok ()))) with granted := s.granted ++ [n] })
      (by simp only [runTask, runCode, ho, if_true]) rfl
      (fun e => ih _ _ l e' o b e h0 ho hh hw) rfl
  | lock k ih =>
    intro s l e' o b hs h0 ho hh hw
    simp only [whole] at hw
    cases b with
    | true => simp at hw
    | false =>
      simp only [Bool.false_eq_true, if_false] at hw hh
      exact key hs h0 (s1 := { s.goto l.length ⟨.message, .running (.lock k)⟩ (.running (k s.buffer)) with holder := some l.length })
        (by simp only [runTask, runCode, hh, if_true]) rfl
        (fun e => ih _ _ l e' o true e h0 ho rfl hw) rfl
  | write b' k ih =>
    intro s l e' o b hs h0 ho hh hw
    exact key hs h0 (s1 := { s.goto l.length ⟨.message, .running (.write b' k)⟩ (.running k) with buffer := b' }) rfl rfl
      (fun e => ih _ l e' o b e h0 ho hh hw) rfl
  | recv k ih =>
    intro s l e' o b hs h0 ho hh hw
    simp only [whole] at hw
    split at hw
    · rename_i m q hq
      exact key hs h0 (s1 := { s.goto l.length ⟨.message, .running (.recv k)⟩ (.running (k (.ok m))) with inbox := q, received := s.received ++ [m] })
        (by simp only [runTask, runCode, hq]) rfl
        (fun e => ih _ _ l e' o b e h0 ho hh hw) rfl
    · cases hw

theorem State.put_rest {s : State T} (h : Rest s) (e : Env T) (o : Outcome (List (Received T))) : Rest (s.put e s.tasks o) := by
  refine ⟨?_, rfl, h.isOpen⟩
  have : s.tasks.countP (fun t => t.stage.live) = 0 := h.live
  unfold State.live
  show (s.tasks ++ [_]).countP (fun t : Task T => t.stage.live) = 0
  rw [List.countP_append, this]
  rfl

/-- A whole `next_message` from a state at rest. -/
theorem call {cfg : Cfg T} {as : List Act} {s : State T} (h : AtMost cfg 1 as s) (hr : Rest s) {e' : Env T} {o : Outcome (List (Received T))}
    (hw : whole (nextMessage cfg) ⟨s.permits, s.buffer, s.inbox, s.received, s.granted, false⟩ = some (e', o)) :
    ∃ bs, AtMost cfg 1 (as ++ bs) (s.put e' s.tasks o) ∧ jobs bs = [.message] ∧ delivered bs = [] := by
  have h0 : s.tasks.countP (fun t => t.stage.live) = 0 := hr.live
  have h1 : AtMost cfg 1 (as ++ [.spawn .message]) { s with tasks := s.tasks ++ [⟨.message, .running (nextMessage cfg)⟩] } := by
    refine .snoc h rfl ?_
    exact live_snoc hr.live _
  obtain ⟨k, hk⟩ := whole_exec (cfg := cfg) (nextMessage cfg) { s with tasks := s.tasks ++ [⟨.message, .running (nextMessage cfg)⟩] }
    s.tasks e' o false rfl h0 hr.isOpen hr.holder hw
  refine ⟨.spawn .message :: List.replicate k (.run s.tasks.length), ?_, ?_, ?_⟩
  · have := atMost_exec h1 hk
    rw [List.append_assoc] at this
    exact this
  · simp [jobs, (jobs_runs (i := s.tasks.length) (bs := List.replicate k (.run s.tasks.length)) (by simp)).1]
  · simp [delivered, (jobs_runs (i := s.tasks.length) (bs := List.replicate k (.run s.tasks.length)) (by simp)).2]

/-- A delivery. -/
theorem arrive {cfg : Cfg T} {as : List Act} {s : State T} (h : AtMost cfg 1 as s) (hr : Rest s) (m : Message) :
    AtMost cfg 1 (as ++ [.deliver (.message m)]) { s with inbox := s.inbox ++ [.message m] } := by
  refine .snoc h (by simp [step, hr.isOpen]) ?_
  show s.live ≤ 1
  rw [hr.live]
  omega

theorem not_ge {a b : UInt32} (h : a.toNat < b.toNat) : ¬ a ≥ b := fun hge => by
  have := UInt32.le_iff_toNat_le.mp hge
  omega

/-- `next_message` from a message in the buffer. -/
theorem call_buffered {cfg : Cfg T} {as : List Act} {s : State T} (h : AtMost cfg 1 as s) (hr : Rest s)
    (hp : s.permits.toNat < cfg.permits.toNat) {m : Received T} {rest : List (Received T)} (hb : s.buffer = m :: rest) :
    ∃ bs, AtMost cfg 1 (as ++ bs) (s.put ⟨s.permits, rest, s.inbox, s.received, s.granted, true⟩ s.tasks (.ok [m])) ∧
      jobs bs = [.message] ∧ delivered bs = [] := by
  refine call h hr ?_
  simp only [nextMessage, checkAndFlow, whole, if_neg (not_ge hp), hb, Bool.false_eq_true, if_false]

/-- `next_message` from the channel, below the permit setting. -/
theorem call_received {cfg : Cfg T} {as : List Act} {s : State T} (h : AtMost cfg 1 as s) (hr : Rest s)
    (hp : s.permits.toNat < cfg.permits.toNat) (hb : s.buffer = []) {m : Message} {q : List Inbound} (hq : s.inbox = .message m :: q)
    {r : Received T} {rs : List (Received T)} (hu : unpack cfg.decode m = .ok (r :: rs)) :
    ∃ bs, AtMost cfg 1 (as ++ bs) (s.put ⟨s.permits + 1, rs, q, s.received ++ [m], s.granted, true⟩ s.tasks (.ok [r])) ∧
      jobs bs = [.message] ∧ delivered bs = [] := by
  refine call h hr ?_
  simp only [nextMessage, checkAndFlow, whole, if_neg (not_ge hp), hb, hq, Bool.false_eq_true, if_false, next, hu, List.nil_append]

/-- `next_message` from the channel, at the permit setting or above: permits are granted. -/
theorem call_granting {cfg : Cfg T} {as : List Act} {s : State T} (h : AtMost cfg 1 as s) (hr : Rest s)
    (hp : cfg.permits.toNat ≤ s.permits.toNat) (hb : s.buffer = []) {m : Message} {q : List Inbound} (hq : s.inbox = .message m :: q)
    {r : Received T} {rs : List (Received T)} (hu : unpack cfg.decode m = .ok (r :: rs)) :
    ∃ bs, AtMost cfg 1 (as ++ bs) (s.put ⟨0 + 1, rs, q, s.received ++ [m], s.granted ++ [cfg.permits * 2 + (s.permits - cfg.permits)], true⟩
        s.tasks (.ok [r])) ∧ jobs bs = [.message] ∧ delivered bs = [] := by
  refine call h hr ?_
  have : s.permits ≥ cfg.permits := UInt32.le_iff_toNat_le.mpr hp
  simp only [nextMessage, checkAndFlow, whole, if_pos this, hb, hq, Bool.false_eq_true, if_false, next, hu, List.nil_append]

/-- `next_message` on a message that cannot be decoded. -/
theorem call_undecodable {cfg : Cfg T} {as : List Act} {s : State T} (h : AtMost cfg 1 as s) (hr : Rest s)
    (hp : s.permits.toNat < cfg.permits.toNat) (hb : s.buffer = []) {m : Message} {q : List Inbound} (hq : s.inbox = .message m :: q)
    {e : NeutronError} (hu : unpack cfg.decode m = .err e) :
    ∃ bs, AtMost cfg 1 (as ++ bs) (s.put ⟨s.permits, [], q, s.received ++ [m], s.granted, true⟩ s.tasks (.err e)) ∧
      jobs bs = [.message] ∧ delivered bs = [] := by
  refine call h hr ?_
  simp only [nextMessage, checkAndFlow, whole, if_neg (not_ge hp), hb, hq, Bool.false_eq_true, if_false, next, hu]

/-- `next_message` with nothing to return waits. -/
theorem call_waits {cfg : Cfg T} {as : List Act} {s : State T} (h : AtMost cfg 1 as s) (hr : Rest s)
    (hp : s.permits.toNat < cfg.permits.toNat) (hb : s.buffer = []) (hq : s.inbox = []) :
    ∃ s', AtMost cfg 1 (as ++ [.spawn .message, .run s.tasks.length, .run s.tasks.length]) s' ∧ s'.waiting s.tasks.length ∧
      step cfg s' (.run s.tasks.length) = none ∧ s'.granted = s.granted ∧ s'.received = s.received ∧ s'.results = s.results := by
  have h0 : s.tasks.countP (fun t => t.stage.live) = 0 := hr.live
  have h1 : AtMost cfg 1 (as ++ [.spawn .message]) { s with tasks := s.tasks ++ [⟨.message, .running (nextMessage cfg)⟩] } :=
    .snoc h rfl (live_snoc hr.live _)
  have hl : s.holder = none := hr.holder
  let k : Code T := .lock fun buffer => match buffer with
    | m :: rest => .write rest (.ret (.ok [m]))
    | [] => next cfg fun ms => match ms with
      | [] => .ret .panic
      | m :: rest => .write ([] ++ rest) (.add 1 (.ret (.ok [m])))
  let s2 : State T := { s with tasks := s.tasks ++ [⟨.message, .running k⟩] }
  let s3 : State T := { s with tasks := s.tasks ++ [⟨.message, .running (next cfg fun ms => match ms with
      | [] => .ret .panic
      | m :: rest => .write ([] ++ rest) (.add 1 (.ret (.ok [m]))))⟩], holder := some s.tasks.length }
  have e2 : step cfg { s with tasks := s.tasks ++ [⟨.message, .running (nextMessage cfg)⟩] } (.run s.tasks.length) = some s2 := by
    simp only [step, List.getElem?_concat_length, runTask, nextMessage, checkAndFlow, runCode, State.goto, set_last, if_neg (not_ge hp)]
    rfl
  have e3 : step cfg s2 (.run s.tasks.length) = some s3 := by
    simp only [s2, s3, k, step, List.getElem?_concat_length, runTask, runCode, State.goto, set_last, hl, if_true, hb]
  have h2 := AtMost.snoc h1 e2 (live_snoc hr.live _)
  have h3 := AtMost.snoc h2 e3 (live_snoc hr.live _)
  refine ⟨s3, by simpa using h3, ⟨_, _, List.getElem?_concat_length, rfl⟩, ?_, rfl, rfl, rfl⟩
  simp only [s3, step, List.getElem?_concat_length, runTask, next, runCode, hq, hr.isOpen, if_true]

theorem delivered_snoc (as : List Act) (m : Message) (bs : List Act) (h : delivered bs = []) :
    delivered (as ++ [.deliver (.message m)] ++ bs) = delivered as ++ [m] := by
  simp [h, delivered]

theorem jobs_snoc (as : List Act) (m : Message) (bs : List Act) : jobs (as ++ [.deliver (.message m)] ++ bs) = jobs as ++ jobs bs := by
  simp [jobs]

/-- `n` messages, one after the other. -/
theorem consume_many {cfg : Cfg T} (hP : 0 < cfg.permits.toNat) {m : Message} {r : Received T} (hu : unpack cfg.decode m = .ok [r]) (n : Nat) :
    ∃ as s, AtMost cfg 1 as s ∧ Rest s ∧ s.buffer = [] ∧ s.inbox = [] ∧ (∀ j ∈ jobs as, j = .message) ∧
      delivered as = List.replicate n m ∧ (0 < n → 1 ≤ s.permits.toNat) ∧ s.permits.toNat ≤ cfg.permits.toNat := by
  induction n with
  | zero => exact ⟨[], init cfg, .nil, ⟨rfl, rfl, rfl⟩, rfl, rfl, by simp [jobs], rfl, by simp, by simp [init]⟩
  | succ n ih =>
    obtain ⟨as, s, h, hr, hb, hq, hj, hd, _, hle⟩ := ih
    have h1 := arrive h hr m
    have hr1 : Rest { s with inbox := s.inbox ++ [.message m] } := ⟨hr.live, hr.holder, hr.isOpen⟩
    have hq1 : s.inbox ++ [.message m] = [.message m] := by rw [hq]; rfl
    have hsz := UInt32.toNat_lt s.permits
    rcases Nat.lt_or_ge s.permits.toNat cfg.permits.toNat with hlt | hge
    · obtain ⟨bs, h2, j2, d2⟩ := call_received (s := { s with inbox := s.inbox ++ [.message m] }) h1 hr1 hlt hb hq1 hu
      have hcp := UInt32.toNat_lt cfg.permits
      have e : (s.permits + 1).toNat = s.permits.toNat + 1 := by
        rw [UInt32.toNat_add, show (1 : UInt32).toNat = 1 from rfl, Nat.mod_eq_of_lt (by omega)]
      refine ⟨_, _, h2, State.put_rest hr1 _ _, rfl, rfl, ?_, ?_, fun _ => ?_, ?_⟩
      · intro j hj'
        rw [jobs_snoc, List.mem_append] at hj'
        rcases hj' with hj' | hj'
        · exact hj j hj'
        · rw [j2] at hj'; simpa using hj'
      · rw [delivered_snoc _ _ _ d2, hd, List.replicate_succ']
      · show 1 ≤ (s.permits + 1).toNat
        omega
      · show (s.permits + 1).toNat ≤ _
        omega
    · obtain ⟨bs, h2, j2, d2⟩ := call_granting (s := { s with inbox := s.inbox ++ [.message m] }) h1 hr1 hge hb hq1 hu
      refine ⟨_, _, h2, State.put_rest hr1 _ _, rfl, rfl, ?_, ?_, fun _ => ?_, ?_⟩
      · intro j hj'
        rw [jobs_snoc, List.mem_append] at hj'
        rcases hj' with hj' | hj'
        · exact hj j hj'
        · rw [j2] at hj'; simpa using hj'
      · rw [delivered_snoc _ _ _ d2, hd, List.replicate_succ']
      · show 1 ≤ ((0 : UInt32) + 1).toNat
        decide
      · show ((0 : UInt32) + 1).toNat ≤ _
        rw [show ((0 : UInt32) + 1).toNat = 1 from rfl]
        omega

/-- `n` messages that cannot be decoded. -/
theorem reject_many {cfg : Cfg T} (hP : 0 < cfg.permits.toNat) {m : Message} {e : NeutronError} (hu : unpack cfg.decode m = .err e) (n : Nat) :
    ∃ as s, AtMost cfg 1 as s ∧ Rest s ∧ s.buffer = [] ∧ s.inbox = [] ∧ (∀ j ∈ jobs as, j = .message) ∧
      delivered as = List.replicate n m ∧ s.permits = 0 ∧ s.granted = [cfg.permits * 2] := by
  induction n with
  | zero => exact ⟨[], init cfg, .nil, ⟨rfl, rfl, rfl⟩, rfl, rfl, by simp [jobs], rfl, rfl, rfl⟩
  | succ n ih =>
    obtain ⟨as, s, h, hr, hb, hq, hj, hd, hp, hg⟩ := ih
    have h1 := arrive h hr m
    have hr1 : Rest { s with inbox := s.inbox ++ [.message m] } := ⟨hr.live, hr.holder, hr.isOpen⟩
    have hq1 : s.inbox ++ [.message m] = [.message m] := by rw [hq]; rfl
    obtain ⟨bs, h2, j2, d2⟩ := call_undecodable (s := { s with inbox := s.inbox ++ [.message m] }) h1 hr1
      (by show s.permits.toNat < _; rw [hp]; exact hP) hb hq1 hu
    refine ⟨_, _, h2, State.put_rest hr1 _ _, rfl, rfl, ?_, ?_, hp, hg⟩
    · intro j hj'
      rw [jobs_snoc, List.mem_append] at hj'
      rcases hj' with hj' | hj'
      · exact hj j hj'
      · rw [j2] at hj'; simpa using hj'
    · rw [delivered_snoc _ _ _ d2, hd, List.replicate_succ']

theorem total_rest {s : State T} (h : s.live = 0) (f : Code T → Nat) : total f s = 0 := by
  apply sum_zero
  intro x hx
  rw [List.mem_map] at hx
  obtain ⟨u, hu, rfl⟩ := hx
  have : s.tasks.countP (fun t => t.stage.live) = 0 := h
  rw [List.countP_eq_zero] at this
  have := this u hu
  cases hst : u.stage with
  | running c => rw [hst] at this; exact absurd rfl this
  | _ => rfl

theorem AtMost.mono {cfg : Cfg T} {n n' : Nat} {as : List Act} {s : State T} (h : AtMost cfg n as s) (hn : n ≤ n') : AtMost cfg n' as s := by
  induction h with
  | nil => exact .nil
  | snoc _ hs hl ih => exact .snoc ih hs (Nat.le_trans hl hn)

theorem sum_replicate_weight (n : Nat) {m : Message} (h : isSingle m = true) : ((List.replicate n m).map weight).sum = n := by
  have hw : weight m = 1 := by
    cases m with
    | single => rfl
    | batch => cases h
  induction n with
  | zero => rfl
  | succ n ih => rw [List.replicate_succ, List.map_cons, List.sum_cons, ih, hw]; omega

theorem usedBy_rest {cfg : Cfg T} {as : List Act} {s : State T} (h : Run cfg as s) (hq : s.inbox = []) : usedBy as = s.used := by
  have hrec := received_delivered h
  rw [hq] at hrec
  simp only [pendingIn, List.filterMap_nil, List.append_nil] at hrec
  rw [usedBy, State.used, hrec]

/-- Two calls that both see the counter at the setting. -/
theorem grant_twice {cfg : Cfg T} {as : List Act} {s : State T} (h : AtMost cfg 1 as s) (hr : Rest s) (hp : s.permits = cfg.permits) :
    ∃ s', AtMost cfg 2 (as ++ [.spawn .message, .spawn .message, .run s.tasks.length, .run (s.tasks.length + 1), .run s.tasks.length,
      .run (s.tasks.length + 1)]) s' ∧ s'.granted = s.granted ++ [cfg.permits * 2, cfg.permits * 2] := by
  have h0 : s.tasks.countP (fun t => t.stage.live) = 0 := hr.live
  have hlive : ∀ (s' : State T) (a b : Task T), s'.tasks = s.tasks ++ [a, b] → s'.live ≤ 2 := by
    intro s' a b e
    unfold State.live
    rw [e, List.countP_append, h0, List.countP_cons, List.countP_cons, List.countP_nil]
    split <;> split <;> omega
  let c : Code T := .lock fun buffer => match buffer with
    | m :: rest => .write rest (.ret (.ok [m]))
    | [] => next cfg fun ms => match ms with
      | [] => .ret .panic
      | m :: rest => .write ([] ++ rest) (.add 1 (.ret (.ok [m])))
  let fl : Code T := .flow (cfg.permits * 2 + (s.permits - cfg.permits)) fun r => match r with
        | .ok _ => .store 0 c
        | .err e => .ret (.err e)
        | .panic => .ret .panic
  let n : Code T := nextMessage cfg
  have e0 : ∀ a b : Task T, (s.tasks ++ [a, b])[s.tasks.length]? = some a := by
    intro a b; rw [List.getElem?_append_right (Nat.le_refl _), Nat.sub_self]; rfl
  have e1 : ∀ a b : Task T, (s.tasks ++ [a, b])[s.tasks.length + 1]? = some b := by
    intro a b; rw [List.getElem?_append_right (by omega), Nat.add_sub_cancel_left]; rfl
  have w0 : ∀ a b x : Task T, (s.tasks ++ [a, b]).set s.tasks.length x = s.tasks ++ [x, b] := by
    intro a b x; rw [List.set_append_right _ _ (Nat.le_refl _), Nat.sub_self]; rfl
  have w1 : ∀ a b x : Task T, (s.tasks ++ [a, b]).set (s.tasks.length + 1) x = s.tasks ++ [a, x] := by
    intro a b x; rw [List.set_append_right _ _ (Nat.le_add_right _ _), Nat.add_sub_cancel_left]; rfl
  have hge : s.permits ≥ cfg.permits := by rw [hp]; exact UInt32.le_refl _
  have hz : cfg.permits * 2 + (s.permits - cfg.permits) = cfg.permits * 2 := by rw [hp, UInt32.sub_self, UInt32.add_zero]
  have h1 : AtMost cfg 2 (as ++ [.spawn .message]) { s with tasks := s.tasks ++ [⟨.message, .running n⟩] } :=
    .snoc (h.mono (by omega)) rfl (Nat.le_trans (live_snoc hr.live _) (by omega))
  have h2 : AtMost cfg 2 (as ++ [.spawn .message] ++ [.spawn .message]) { s with tasks := s.tasks ++ [⟨.message, .running n⟩, ⟨.message, .running n⟩] } :=
    .snoc h1 (by simp [step, Job.code, n]) (hlive _ _ _ rfl)
  have h3 := AtMost.snoc (a := .run s.tasks.length) (s' := { s with tasks := s.tasks ++ [⟨.message, .running fl⟩, ⟨.message, .running n⟩] }) h2
    (by simp only [step, e0, runTask, n, nextMessage, checkAndFlow, runCode, State.goto, w0, if_pos hge]; rfl) (hlive _ _ _ rfl)
  have h4 := AtMost.snoc (a := .run (s.tasks.length + 1)) (s' := { s with tasks := s.tasks ++ [⟨.message, .running fl⟩, ⟨.message, .running fl⟩] }) h3
    (by simp only [step, e1, runTask, n, nextMessage, checkAndFlow, runCode, State.goto, w1, if_pos hge]; rfl) (hlive _ _ _ rfl)
  have h5 := AtMost.snoc (a := .run s.tasks.length)
    (s' := { s with tasks := s.tasks ++ [⟨.message, .running (.store 0 c)⟩, ⟨.message, .running fl⟩],
                    granted := s.granted ++ [cfg.permits * 2] }) h4
    (by simp only [step, e0, runTask, fl, runCode, State.goto, w0, hr.isOpen, if_true, hz]) (hlive _ _ _ rfl)
  have h6 := AtMost.snoc (a := .run (s.tasks.length + 1))
    (s' := { s with tasks := s.tasks ++ [⟨.message, .running (.store 0 c)⟩, ⟨.message, .running (.store 0 c)⟩],
                    granted := s.granted ++ [cfg.permits * 2] ++ [cfg.permits * 2] }) h5
    (by simp only [step, e1, runTask, fl, runCode, State.goto, w1, hr.isOpen, if_true, hz]) (hlive _ _ _ rfl)
  refine ⟨_, by simpa using h6, by simp⟩

end Neutron.Consumer
