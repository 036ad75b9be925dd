import Verif.Proof.SysHonest
import Verif.Spec.Traces
import Verif.Props.Routing

/-!
# Concurrent requests: C21/C75, C22/C76, C23/C77

The three claims are false of the code: requests are matched by kind (and, for sends, by a per-client sequence id), so two
requests of one kind that are outstanding together are confused, within a client and across clients.  The `_refuted` theorems
exhibit runs; the `_partial` theorems say under which discipline of the application the claims hold.
-/

namespace Neutron.Props

open Neutron Neutron.Sys Neutron.Trace

/-! ## Checking concrete honest runs -/

/-- `Answers`, computed. -/
def answersB : Outbound → Inbound → Bool
  | .connect _, .connected => true
  | .lookupTopic _, .lookupTopicResponse _ => true
  | .subscribe _, .success _ => true
  | .producer _, .producerSuccess _ => true
  | .ack _, .ackReciept _ => true
  | .send s, .sendReceipt r => r.sequenceId == s.sequenceId
  | _, _ => false

theorem answersB_iff (o : Outbound) (i : Inbound) : answersB o i = true ↔ Answers o i := by
  cases o <;> cases i <;> simp [answersB, Answers]

/-- `Answered`, computed. -/
def answeredB (as : List Act) (t : Tok) : Bool := as.any fun a => match a with
  | .connRead _ (.command _ (some t')) => t' == t
  | _ => false

theorem answeredB_of {as : List Act} {t : Tok} {b : BrokerAddress} {v : MessageCommand}
    (h : Act.connRead b (.command v (some t)) ∈ as) : answeredB as t = true := by
  unfold answeredB; rw [List.any_eq_true]; exact ⟨_, h, by simp⟩

/-- `Outstanding`, computed. -/
def outstandingB (s : State) (t : Nat) : Bool := decide (t < s.issued.length) && s.outcomes.all fun p => p.1 != t

/-- A sufficient condition for `Distinct`, computed: outstanding requests of this kind have different keys. -/
def distinctB (K : Outbound → Bool) (s : State) : Bool :=
  (List.range s.issued.length).all fun t => (List.range s.issued.length).all fun t' =>
    match s.issued[t]?, s.issued[t']? with
    | some p, some p' => !(outstandingB s t && outstandingB s t' && K p.2 && p.2.tryKey == p'.2.tryKey) || t == t'
    | _, _ => true

theorem outstandingB_of {s : State} {t : Nat} (h : Outstanding s t) : outstandingB s t = true := by
  unfold outstandingB
  rw [Bool.and_eq_true, List.all_eq_true]
  refine ⟨by simpa using h.1, ?_⟩
  rintro ⟨t', r⟩ hm
  rw [bne_iff_ne]
  rintro rfl
  exact h.2 r hm

theorem distinctB_sound {KB : Outbound → Bool} {K : Outbound → Prop} (hK : ∀ o, K o → KB o = true) (s : State)
    (h : distinctB KB s = true) : Distinct K s := by
  intro t t' i i' o o' h1 h2 h3 h4 hk hc
  unfold distinctB at h
  rw [List.all_eq_true] at h
  have h := h t (List.mem_range.mpr h1.1)
  rw [List.all_eq_true] at h
  have h := h t' (List.mem_range.mpr h2.1)
  obtain ⟨inb, ha, ha'⟩ := hc
  obtain ⟨k, hk1, hk2⟩ := key_of_answers ha
  obtain ⟨k', hk1', hk2'⟩ := key_of_answers ha'
  rw [hk2] at hk2'
  simp only [Option.some.injEq] at hk2'
  subst hk2'
  rw [h3, h4] at h
  simpa [outstandingB_of h1, outstandingB_of h2, hK o hk, hk1, hk1'] using h

/-- `HonestRead`, computed. -/
def honestB (as : List Act) (s : State) : Act → Bool
  | .connRead b (.command v ans) => match Inbound.ofCommand v, ans with
    | .ok inb, none => inb.tryKey.isNone
    | .ok inb, some t => !answeredB as t && (s.conns b).processed.any fun c => match c.origin with
      | some (_, cmd) => cmd.tok == some t && answersB cmd.out inb
      | none => false
    | _, _ => true
  | _ => true

theorem honestB_sound {as : List Act} {s : State} {a : Act} (h : honestB as s a = true) : HonestRead as s a := by
  unfold HonestRead
  split
  · rename_i b v ans
    intro inb hv
    unfold honestB at h
    simp only [hv] at h
    cases ans with
    | none =>
      simp only at h ⊢
      intro o ho
      obtain ⟨k, _, hk⟩ := key_of_answers ho
      rw [hk] at h; simp at h
    | some t =>
      simp only [Bool.and_eq_true, Bool.not_eq_true', List.any_eq_true] at h ⊢
      obtain ⟨h1, c, hc, h2⟩ := h
      refine ⟨?_, ?_⟩
      · rintro ⟨b', v', hm⟩
        have : answeredB as t = true := by
          unfold answeredB
          rw [List.any_eq_true]
          exact ⟨_, hm, by simp⟩
        rw [h1] at this; exact absurd this (by simp)
      · cases ho : c.origin with
        | none => rw [ho] at h2; exact absurd h2 (by simp)
        | some p =>
          obtain ⟨i, cmd⟩ := p
          rw [ho] at h2
          simp only [Bool.and_eq_true, beq_iff_eq] at h2
          refine ⟨cmd.out, ⟨c, i, hc, ?_⟩, (answersB_iff _ _).mp h2.2⟩
          rw [ho, ← h2.1]
  · trivial

/-- Executing a list of actions, checking honesty and a condition on the way. -/
def execHonest (P : State → Bool) : List Act → State → List Act → Option State
  | _, s, [] => some s
  | done, s, a :: as => if honestB done s a then match step cfg0 s a with
      | some s' => if P s' then execHonest P (done ++ [a]) s' as else none
      | none => none
    else none

theorem execHonest_sound {P : State → Bool} {Q : State → Prop} (hQ : ∀ s, P s = true → Q s) {done as : List Act} {s s' : State}
    (h : execHonest P done s as = some s') (hr : HonestRun cfg0 Q done s) : HonestRun cfg0 Q (done ++ as) s' := by
  induction as generalizing done s with
  | nil => simp only [execHonest, Option.some.injEq] at h; subst h; simpa using hr
  | cons a as ih =>
    simp only [execHonest] at h
    split at h
    · rename_i hb
      cases hs : step cfg0 s a with
      | none => rw [hs] at h; exact absurd h (by simp)
      | some t =>
        rw [hs] at h
        simp only at h
        split at h
        · rename_i hp
          have := ih h (.snoc hr hs (honestB_sound hb) (hQ t hp))
          simpa using this
        · exact absurd h (by simp)
    · exact absurd h (by simp)

/-- If an observation of a concrete honest trace is as stated, an honest run with that observation exists. -/
theorem honest_obs {α : Type} {as : List Act} {f : State → α} {x : α}
    (h : (execHonest (fun _ => true) [] (init cfg0) as).map f = some x) :
    ∃ s, HonestRun cfg0 (fun _ => True) as s ∧ f s = x := by
  cases hg : execHonest (fun _ => true) [] (init cfg0) as with
  | none => rw [hg] at h; exact absurd h (by simp)
  | some s =>
    rw [hg] at h
    exact ⟨s, by simpa using execHonest_sound (fun _ _ => trivial) hg (.nil trivial), by simpa using h⟩

/-- The same for runs with distinct requests. -/
theorem distinct_obs {KB : Outbound → Bool} {K : Outbound → Prop} (hK : ∀ o, K o → KB o = true) {α : Type} {as : List Act}
    {f : State → α} {x : α} (h : (execHonest (distinctB KB) [] (init cfg0) as).map f = some x) :
    ∃ s, HonestRun cfg0 (Distinct K) as s ∧ f s = x := by
  cases hg : execHonest (distinctB KB) [] (init cfg0) as with
  | none => rw [hg] at h; exact absurd h (by simp)
  | some s =>
    rw [hg] at h
    refine ⟨s, ?_, by simpa using h⟩
    simpa using execHonest_sound (fun s => distinctB_sound hK s) hg (.nil (by intro t; simp [Outstanding, init]))

/-- Client `i` connects: `t` is the next request number. -/
def shakeHands (i t : Nat) : List Act :=
  [.beginCall i .connect, .submit i 0, .engOut i (.ok []) net0, .connCmd b0 .ok, .connRead b0 (.command connectedC (some t)),
   .engConnectDone]

/-- Client `i` makes a call which is written to the socket. -/
def askW (i : Nat) (c : Call) : List Act := ask i c ++ [.connCmd b0 .ok]

/-- A producer is set up: requests `t`, `t + 1`, `t + 2`. -/
def setUpProducer (i t : Nat) : List Act :=
  join i ++ shakeHands i t ++ askW i (.lookupTopic "t") ++ say b0 (lookupC 0 "pulsar://a:6650" 1 false) (some (t + 1)) ++
  askW i (.producer "t") ++ say b0 (producerSuccessC 1) (some (t + 2))

/-- A consumer is set up: requests `t`, `t + 1`, `t + 2`. -/
def setUpConsumer (i t : Nat) : List Act :=
  join i ++ shakeHands i t ++ askW i (.lookupTopic "t") ++ say b0 (lookupC 0 "pulsar://a:6650" 1 false) (some (t + 1)) ++
  askW i (.subscribe "t" "s") ++ say b0 (successC 1) (some (t + 2)) ++ askW i (.flow 500)

/-! ## C21/C75 -/

/-- If no two outstanding requests could be answered by the same response, and brokers are honest, then: every request that
completed successfully got the response meant for it; while the engine runs no request has failed; and every response the
engine has handled has completed its request.  Not covered (C21): requests of the same kind outstanding together, see
`C21_refuted`. -/
theorem C75_own_response {cfg : Cfg} {as : List Act} {s : State} (h : HonestRun cfg (Distinct fun _ => True) as s) :
    (∀ t e, (t, TokResult.resolved e) ∈ s.outcomes → e.answers = some t) ∧
    (s.mode ≠ .stopped → ∀ t r, (t, r) ∈ s.outcomes → GotOwn s t) ∧
    (∀ d t, d ∈ s.dispatches → d.event.answers = some t → GotOwn s t) := by
  have hh := honest (fun _ _ _ _ => trivial) h
  have hr : Reachable cfg s := ⟨_, h.run⟩
  have hi : ∀ (t : Nat) r, (t, r) ∈ s.outcomes → ∃ i o, s.issued[t]? = some (i, o) := by
    intro t r ho
    exact ⟨_, _, List.getElem?_eq_getElem (outcome_lt hr ho)⟩
  have h1 : ∀ t e, (t, TokResult.resolved e) ∈ s.outcomes → e.answers = some t := by
    intro t e ho
    obtain ⟨i, o, hio⟩ := hi t _ ho
    exact (hh.done t i o e ho hio trivial).1
  refine ⟨h1, ?_, ?_⟩
  · intro hm t r ho
    obtain ⟨i, o, hio⟩ := hi t r ho
    cases r with
    | cancelled => exact absurd trivial ((hh.run hm).live t i o ho hio)
    | resolved e => exact ⟨e, ho, h1 t e ho⟩
  · intro d t hd ht
    have hlt : t < s.issued.length := by
      cases hv : d.viaConnect with
      | true => exact dispatch_lt h d.broker d.event (.inr ((rep hr).via d hd hv)) t ht
      | false =>
        have h2 : d.event ∈ handledOf s.dispatches d.broker := by
          unfold handledOf; rw [List.mem_filterMap]; exact ⟨d, hd, by simp [hv]⟩
        rw [(evt hr).conn, List.mem_map] at h2
        obtain ⟨e0, he0, hadj⟩ := h2
        refine dispatch_lt h d.broker e0 (.inl (by rw [((conn hr).ok _).events]; exact List.mem_append_left _ he0)) t ?_
        rw [← hadj] at ht; exact ht
    obtain ⟨e, he⟩ := hh.got d t _ _ hd ht (List.getElem?_eq_getElem hlt) trivial
    exact ⟨e, he, h1 t e he⟩

/-- The claim in full is false: with honest brokers, an ack that is outstanding together with another fails while the engine
runs, and the other returns successfully with the first one's response. -/
theorem C21_refuted : ∃ as s e, HonestRun cfg0 (fun _ => True) as s ∧ s.mode = .idle ∧
    (3, TokResult.cancelled) ∈ s.outcomes ∧ (4, TokResult.resolved e) ∈ s.outcomes ∧ e.answers = some 3 := by
  obtain ⟨s, hr, ho⟩ := honest_obs (f := fun s => (s.mode, s.outcomes.drop 3))
    (as := boot ++ setUpConsumer 0 0 ++ askW 0 (.ack []) ++ askW 0 (.ack []) ++ say b0 (ackC 0 2) (some 3))
    (x := (.idle, [(3, .cancelled), (4, .resolved ⟨.ackReciept ⟨0, 2⟩, some 3⟩)])) (by rfl)
  simp only [Prod.mk.injEq] at ho
  exact ⟨_, s, _, hr, ho.1, List.mem_of_mem_drop (i := 3) (by rw [ho.2]; simp),
    List.mem_of_mem_drop (i := 3) (by rw [ho.2]; exact List.mem_cons_of_mem _ List.mem_cons_self), rfl⟩

/-! ## C22/C76 -/

theorem isAck_closed (o o' : Outbound) (h : Confusable o o') (hk : IsAck o) : IsAck o' := by
  obtain ⟨inb, h1, h2⟩ := h
  cases o <;> simp only [IsAck] at hk
  cases inb <;> simp only [Answers] at h1
  cases o' <;> simp only [Answers] at h2
  trivial

theorem read_kept {cfg : Cfg} {as : List Act} {s : State} (h : Run cfg as s) :
    s.mode ≠ .stopped → ∀ b v ans inb, Act.connRead b (.command v ans) ∈ as → Inbound.ofCommand v = .ok inb → inb ≠ .connected →
      ⟨inb, ans⟩ ∈ (s.conns b).reads := by
  refine Run.induct (P := fun as s => s.mode ≠ .stopped → ∀ b v ans inb, Act.connRead b (.command v ans) ∈ as →
    Inbound.ofCommand v = .ok inb → inb ≠ .connected → ⟨inb, ans⟩ ∈ (s.conns b).reads) ?_ ?_ h
  · intro _ b v ans inb hm; simp at hm
  · intro as s a s' hr ih hs hm b v ans inb hmem hv hne
    have hm0 : s.mode ≠ .stopped := fun h0 => hm (stopped_step hs h0)
    have keep : ∀ e, e ∈ (s.conns b).reads → e ∈ (s'.conns b).reads := by
      intro e he
      rcases step_reads (conn hr) hs b with ⟨h1, _⟩ | ⟨_, _, _, _, _, ⟨h1, _⟩ | ⟨h1, _⟩⟩
      · rw [h1]; exact he
      · rw [h1]; exact List.mem_append_left _ he
      · rw [h1]; exact he
    rw [List.mem_append, List.mem_singleton] at hmem
    rcases hmem with hmem | rfl
    · exact keep _ (ih hm0 b v ans inb hmem hv hne)
    · cases step_cases hs with
      | readEnd _ _ hl ha hx =>
        rcases hx with hx | hx | ⟨v', t', hx, hx'⟩
        · exact absurd hx (by simp)
        · exact absurd hx (by simp)
        · simp only [Item.command.injEq] at hx
          obtain ⟨rfl, rfl⟩ := hx
          rcases hx' with hx' | ⟨inb', _, _, hst⟩
          · rw [hv] at hx'; exact absurd hx' (by simp)
          · exact absurd hst hm0
      | readSkip _ _ hl ha hx =>
        rcases hx with hx | ⟨v', t', e, hx, hx'⟩
        · exact absurd hx (by simp)
        · simp only [Item.command.injEq] at hx
          obtain ⟨rfl, rfl⟩ := hx
          rw [hv] at hx'; exact absurd hx' (by simp)
      | readConnected _ _ _ inb' r res hl ha hv' hres =>
        rw [hv] at hv'
        simp only [Outcome.ok.injEq] at hv'
        subst hv'
        obtain ⟨k, hk, hf, _⟩ := tryResolve_some hres
        obtain ⟨rfl, _⟩ := (rep hr).waiting b k r (mem_find hf)
        exact absurd (inbound_key_connect hk) hne
      | readForward _ _ _ inb' hl ha hv' hres hm' =>
        rw [hv] at hv'
        simp only [Outcome.ok.injEq] at hv'
        subst hv'
        simp [setConn_conns]

/-- If at most one ack is outstanding at a time (over all consumers of the instance) and brokers are honest, then, as long as
the engine runs, every ack the broker has confirmed has returned Ok with its own confirmation as soon as the engine has
caught up with the socket it came from.  Not covered (C22): several acks outstanding, see `C22_refuted`. -/
theorem C76_one_at_a_time {cfg : Cfg} {as : List Act} {s : State} (h : HonestRun cfg (Distinct IsAck) as s)
    (hm : s.mode ≠ .stopped) {b : BrokerAddress} {v : MessageCommand} {t : Tok} {r : AckReciept}
    (hread : Act.connRead b (.command v (some t)) ∈ as) (hv : Inbound.ofCommand v = .ok (.ackReciept r))
    (hq : (s.conns b).outbox = []) : GotOwn s t := by
  have hh := honest isAck_closed h
  have hr : Reachable cfg s := ⟨_, h.run⟩
  have he := read_kept h.run hm b v (some t) _ hread hv (by simp)
  rw [((conn hr).ok b).events, hq, List.append_nil] at he
  have hd : adjustEvent b ⟨.ackReciept r, some t⟩ ∈ handledOf s.dispatches b := by
    rw [(evt hr).conn]; exact List.mem_map_of_mem he
  unfold handledOf at hd
  rw [List.mem_filterMap] at hd
  obtain ⟨d, hd, hdd⟩ := hd
  split at hdd
  · simp only [Option.some.injEq] at hdd
    have hans : d.event.answers = some t := by rw [hdd]; rfl
    -- the request is an ack, as its response is
    have hk : ∃ i o, s.issued[t]? = some (i, o) ∧ IsAck o := by
      clear hh hd hdd hans he hq hm
      induction h with
      | nil => simp at hread
      | @snoc as s s' a hrun hs ha hp ih =>
        have hr : Reachable cfg s := ⟨_, hrun.run⟩
        rw [List.mem_append, List.mem_singleton] at hread
        rcases hread with hread | rfl
        · obtain ⟨i, o, hi, ho⟩ := ih hread hr
          exact ⟨i, o, issued_mono (issued_step hs) hi, ho⟩
        · obtain ⟨_, out, hw, hans⟩ := ha _ hv
          obtain ⟨i, hi, _⟩ := written_handled hr hw
          exact ⟨i, out, issued_mono (issued_step hs) hi, by cases out <;> simp_all [Answers, IsAck]⟩
    obtain ⟨i, o, hi, ho⟩ := hk
    obtain ⟨e, he⟩ := hh.got d t i o hd hans hi ho
    exact ⟨e, he, (hh.done t i o e he hi ho).1⟩
  · exact absurd hdd (by simp)

/-- The same with "confirmed" replaced by what an ack call sees: while the engine runs no ack call fails, and those that have
returned got their own confirmation. -/
theorem C76_no_failure {cfg : Cfg} {as : List Act} {s : State} (h : HonestRun cfg (Distinct IsAck) as s)
    (hm : s.mode ≠ .stopped) {t i : Nat} {l : List Ack} {r : TokResult} (hi : s.issued[t]? = some (i, .ack l))
    (ho : (t, r) ∈ s.outcomes) : GotOwn s t := by
  have hh := honest isAck_closed h
  cases r with
  | cancelled => exact absurd trivial ((hh.run hm).live t i _ ho hi)
  | resolved e => exact ⟨e, ho, (hh.done t i _ e ho hi trivial).1⟩

/-- The claim in full is false: a consumer has two acks outstanding, the broker confirms both, the engine runs and has handled
everything - and the first ack call has failed. -/
theorem C22_refuted : ∃ as s, HonestRun cfg0 (fun _ => True) as s ∧ s.mode = .idle ∧ (s.conns b0).outbox = [] ∧
    (s.issued.drop 3).map (fun p => (p.1, p.2.tryKey)) = [(0, some .ack), (0, some .ack)] ∧ Answered as 3 ∧ Answered as 4 ∧
    (3, TokResult.cancelled) ∈ s.outcomes := by
  obtain ⟨s, hr, ho⟩ := honest_obs
    (f := fun s => (s.mode, (s.conns b0).outbox, (s.issued.drop 3).map (fun p => (p.1, p.2.tryKey)), (s.outcomes.drop 3).take 1))
    (as := boot ++ setUpConsumer 0 0 ++ askW 0 (.ack []) ++ askW 0 (.ack []) ++ say b0 (ackC 0 2) (some 3) ++
      say b0 (ackC 0 3) (some 4))
    (x := (.idle, [], [(0, some .ack), (0, some .ack)], [(3, .cancelled)])) (by rfl)
  simp only [Prod.mk.injEq] at ho
  refine ⟨_, s, hr, ho.1, ho.2.1, ho.2.2.1, ⟨b0, ackC 0 2, by simp [say]⟩, ⟨b0, ackC 0 3, by simp [say]⟩, ?_⟩
  exact List.mem_of_mem_drop (i := 3) (List.mem_of_mem_take (i := 1) (by rw [ho.2.2.2]; simp))

/-- The hypotheses of C75_own_response are met: a consumer connects, looks up, subscribes and acks twice, one after the
other, while a producer sends; the run is honest and requests are told apart throughout. -/
example : ∃ s, HonestRun cfg0 (Distinct fun _ => True) (boot ++ setUpConsumer 0 0 ++ setUpProducer 1 3 ++
      askW 1 (.sendMessage [1]) ++ askW 0 (.ack []) ++ askW 1 (.sendMessage [2]) ++ say b0 (ackC 0 2) (some 7) ++
      askW 0 (.ack []) ++ say b0 (receiptC 1 1) (some 8) ++ say b0 (ackC 0 3) (some 9) ++ say b0 (receiptC 1 0) (some 6)) s ∧
    (s.mode, (endedBy s).drop 6) = (.idle, [(7, some 7), (8, some 8), (9, some 9), (6, some 6)]) :=
  distinct_obs (KB := fun _ => true) (fun _ _ => rfl) (by rfl)

/-- The hypotheses of C76_one_at_a_time and C76_no_failure are met: with a second consumer, whose lookup overlaps with another. -/
example : ∃ s, HonestRun cfg0 (Distinct IsAck) (boot ++ setUpConsumer 0 0 ++ setUpConsumer 1 3 ++
      askW 0 (.ack []) ++ askW 1 (.lookupTopic "x") ++ askW 0 (.lookupTopic "y") ++ say b0 (ackC 0 2) (some 6) ++
      askW 1 (.ack []) ++ say b0 (ackC 1 2) (some 9)) s ∧
    (s.mode, (s.conns b0).outbox, (endedBy s).drop 6) = (.idle, [], [(7, none), (6, some 6), (9, some 9)]) :=
  distinct_obs (KB := fun o => match o with
    | .ack _ => true
    | _ => false) (fun o h => by cases o <;> simp_all [IsAck]) (by rfl)

/-! ## C23/C77 -/

theorem isSend_closed (o o' : Outbound) (h : Confusable o o') (hk : IsSend o) : IsSend o' := by
  obtain ⟨inb, h1, h2⟩ := h
  cases o <;> simp only [IsSend] at hk
  cases inb <;> simp only [Answers] at h1
  cases o' <;> simp only [Answers] at h2
  trivial

theorem idsOf_inj {f : Outbound → Option UInt64} {l : List (Nat × Outbound)} {i t t' : Nat} {o o' : Outbound} {x : UInt64}
    (h : (idsOf f l i).Nodup) (h1 : l[t]? = some (i, o)) (h2 : l[t']? = some (i, o')) (hx : f o = some x) (hx' : f o' = some x) :
    t = t' := by
  have aux : ∀ (t t' : Nat) (o o' : Outbound), t < t' → l[t]? = some (i, o) → l[t']? = some (i, o') → f o = some x → f o' = some x → False := by
    intro t t' o o' hlt h1 h2 hx hx'
    have hmem : ∀ (m : List (Nat × Outbound)) o, (i, o) ∈ m → f o = some x → x ∈ idsOf f m i := by
      intro m o hm hx
      unfold idsOf; rw [List.mem_filterMap]; exact ⟨_, hm, by simp [hx]⟩
    rw [← List.take_append_drop t' l, idsOf_append] at h
    rw [List.nodup_append] at h
    refine h.2.2 x (hmem _ o ?_ hx) x (hmem _ o' ?_ hx') rfl
    · refine List.mem_of_getElem? (i := t) ?_
      rw [List.getElem?_take_of_lt hlt]; exact h1
    · refine List.mem_of_getElem? (i := 0) ?_
      rw [List.getElem?_drop]; simpa using h2
  rcases Nat.lt_trichotomy t t' with hlt | heq | hlt
  · exact absurd (aux t t' o o' hlt h1 h2 hx hx') id
  · exact heq
  · exact absurd (aux t' t o' o hlt h2 h1 hx' hx) id

/-- No two different clients have sends with the same sequence id outstanding together, and no client has made more than 2^64
sends. -/
def SendsApart (s : State) : Prop :=
  (∀ (t t' i i' : Nat) (m m' : Send), Outstanding s t → Outstanding s t' → s.issued[t]? = some (i, .send m) →
    s.issued[t']? = some (i', .send m') → m.sequenceId = m'.sequenceId → i = i') ∧
  ∀ i, (idsOf sequenceIdOf s.issued i).length ≤ 2 ^ 64

theorem HonestRun.imp {cfg : Cfg} {P Q : State → Prop} (h : ∀ s, Reachable cfg s → P s → Q s) {as : List Act} {s : State}
    (hr : HonestRun cfg P as s) : HonestRun cfg Q as s := by
  induction hr with
  | nil hp => exact .nil (h _ ⟨_, .nil⟩ hp)
  | snoc hr hs ha hp ih => exact .snoc ih hs ha (h _ (Reachable.step ⟨_, hr.run⟩ hs) hp)

/-- A producer may have any number of sends outstanding.  As long as no *other* producer of the instance has a send with the
same sequence id outstanding at that time, and brokers are honest: a send that returned Ok got the receipt the broker issued
for it, and no send fails while the engine runs.  Not covered (C23): several producers sending at once, see `C23_refuted`. -/
theorem C77_own_receipt {cfg : Cfg} {as : List Act} {s : State} (h : HonestRun cfg SendsApart as s)
    {t i : Nat} {m : Send} (hi : s.issued[t]? = some (i, .send m)) :
    (∀ e, (t, TokResult.resolved e) ∈ s.outcomes → e.answers = some t) ∧
    (s.mode ≠ .stopped → ∀ r, (t, r) ∈ s.outcomes → GotOwn s t) := by
  have hd : HonestRun cfg (Distinct IsSend) as s := by
    refine HonestRun.imp ?_ h
    intro s hr hp t t' i i' o o' h1 h2 h3 h4 hk hc
    obtain ⟨inb, ha, ha'⟩ := hc
    cases o <;> simp only [IsSend] at hk
    rename_i m
    cases inb <;> simp only [Answers] at ha
    rename_i rc
    cases o' <;> simp only [Answers] at ha'
    rename_i m'
    have hseq : m.sequenceId = m'.sequenceId := ha.symm.trans ha'
    have hii := hp.1 t t' i i' m m' h1 h2 h3 h4 hseq
    subst hii
    exact idsOf_inj ((C44_unique hr ((req hr).issued t i _ h3).1).1 (hp.2 i)) h3 h4 (x := m.sequenceId) rfl (by simp [sequenceIdOf, hseq])
  have hh := honest isSend_closed hd
  refine ⟨fun e he => (hh.done t i _ e he hi trivial).1, fun hm r ho => ?_⟩
  cases r with
  | cancelled => exact absurd trivial ((hh.run hm).live t i _ ho hi)
  | resolved e => exact ⟨e, ho, (hh.done t i _ e ho hi trivial).1⟩

/-- In particular for an instance with a single producer. -/
theorem C77_single_producer {cfg : Cfg} {as : List Act} {s : State} {i : Nat}
    (h : HonestRun cfg (fun s => (∀ (t j : Nat) (m : Send), s.issued[t]? = some (j, .send m) → j = i) ∧
      (idsOf sequenceIdOf s.issued i).length ≤ 2 ^ 64) as s) {t : Nat} {e : Event} {m : Send}
    (hi : s.issued[t]? = some (i, .send m)) (ho : (t, TokResult.resolved e) ∈ s.outcomes) : e.answers = some t := by
  refine (C77_own_receipt (HonestRun.imp ?_ h) hi).1 e ho
  intro s hr hp
  refine ⟨fun t t' i1 i2 m m' _ _ h1 h2 _ => (hp.1 t i1 m h1).trans (hp.1 t' i2 m' h2).symm, fun j => ?_⟩
  by_cases hj : j = i
  · subst hj; exact hp.2
  · have : idsOf sequenceIdOf s.issued j = [] := by
      unfold idsOf
      rw [List.filterMap_eq_nil_iff]
      rintro ⟨k, o⟩ hm
      obtain ⟨t, ht⟩ := List.mem_iff_getElem?.mp hm
      by_cases hk : k = j
      · subst hk
        cases o with
        | send m => exact absurd (hp.1 t k m ht) hj
        | _ => simp [sequenceIdOf]
      · simp [hk]
    rw [this]; simp

/-- The claim in full is false.  Two producers of one instance, honest broker: producer 0's message is received and confirmed;
before the engine gets to it, producer 1 makes its first send.  Producer 1's send returns Ok with producer 0's receipt -
although the broker has not even been sent its message - and producer 0's send fails. -/
theorem C23_refuted : ∃ as s e, HonestRun cfg0 (fun _ => True) as s ∧ s.mode = .idle ∧
    (s.issued.drop 6).map (fun p => (p.1, p.2.tryKey)) = [(0, some (.send 0)), (1, some (.send 0))] ∧
    (6, TokResult.cancelled) ∈ s.outcomes ∧ (7, TokResult.resolved e) ∈ s.outcomes ∧ e.answers = some 6 ∧
    ¬ Answered as 7 ∧ ∀ b out, ¬ WrittenTo s b 7 out := by
  obtain ⟨s, hr, ho⟩ := honest_obs
    (f := fun s => (s.mode, (s.issued.drop 6).map (fun p => (p.1, p.2.tryKey)), s.outcomes.drop 6, s.addrs,
      (s.conns b0).processed.map fun c => c.origin.bind (·.2.tok)))
    (as := boot ++ setUpProducer 0 0 ++ setUpProducer 1 3 ++ askW 0 (.sendMessage [104, 105]) ++
      [.connRead b0 (.command (receiptC 0 0) (some 6))] ++ ask 1 (.sendMessage [106]) ++ [.engIn b0])
    (x := (.idle, [(0, some (.send 0)), (1, some (.send 0))],
      [(6, .cancelled), (7, .resolved ⟨.sendReceipt ⟨0, 0, Proto.newMsg Proto.pulsar .messageIdData⟩, some 6⟩)], [b0],
      [some 0, some 1, some 2, some 3, some 4, some 5, some 6])) (by rfl)
  simp only [Prod.mk.injEq] at ho
  obtain ⟨h1, h2, h3, h4, h5⟩ := ho
  refine ⟨_, s, _, hr, h1, h2, List.mem_of_mem_drop (i := 6) (by rw [h3]; simp),
    List.mem_of_mem_drop (i := 6) (by rw [h3]; exact List.mem_cons_of_mem _ List.mem_cons_self), rfl, ?_, ?_⟩
  · rintro ⟨b, v, hm⟩
    exact absurd (answeredB_of hm) (by decide)
  · rintro b out ⟨c, i, hc, hor⟩
    have hrr : Reachable cfg0 s := ⟨_, hr.run⟩
    by_cases hb : b = b0
    · subst hb
      have : some 7 ∈ (s.conns b0).processed.map fun c => c.origin.bind (·.2.tok) :=
        List.mem_map.mpr ⟨c, hc, by rw [hor]; rfl⟩
      rw [h5] at this
      simp at this
    · rw [(conn hrr).unused b (by rw [h4]; simpa using hb)] at hc
      simp [freshConn] at hc

/-- One producer, three sends outstanding together, confirmed out of order. (The hypotheses of C77_own_receipt and C77_single_producer are
met.) -/
example : ∃ s, HonestRun cfg0 (fun s => (∀ (t j : Nat) (m : Send), s.issued[t]? = some (j, .send m) → j = 0) ∧
      (idsOf sequenceIdOf s.issued 0).length ≤ 2 ^ 64)
      (boot ++ setUpProducer 0 0 ++ askW 0 (.sendMessage [1]) ++ askW 0 (.sendMessage [2]) ++
        askW 0 (.sendBatch [[3], [4]]) ++ say b0 (receiptC 0 2) (some 5) ++ say b0 (receiptC 0 0) (some 3) ++
        say b0 (receiptC 0 1) (some 4)) s ∧
    (s.mode, (endedBy s).drop 3) = (.idle, [(5, some 5), (3, some 3), (4, some 4)]) := by
  have key : ∀ as (x : Mode × List (Nat × Option Tok)),
      (execHonest (fun s => s.issued.all (fun p => p.1 == 0) && Nat.ble s.issued.length 100) [] (init cfg0) as).map
        (fun s => (s.mode, (endedBy s).drop 3)) = some x →
      ∃ s, HonestRun cfg0 (fun s => (∀ (t j : Nat) (m : Send), s.issued[t]? = some (j, .send m) → j = 0) ∧
        (idsOf sequenceIdOf s.issued 0).length ≤ 2 ^ 64) as s ∧ (s.mode, (endedBy s).drop 3) = x := by
    intro as x h
    cases hg : execHonest (fun s => s.issued.all (fun p => p.1 == 0) && Nat.ble s.issued.length 100) [] (init cfg0) as with
    | none => rw [hg] at h; exact absurd h (by simp)
    | some s =>
      rw [hg] at h
      refine ⟨s, ?_, by simpa using h⟩
      refine execHonest_sound ?_ hg (.nil (by simp [init, idsOf]))
      intro s hs
      simp only [Bool.and_eq_true, List.all_eq_true, Nat.ble_eq] at hs
      refine ⟨fun t j m ht => ?_, ?_⟩
      · simpa using hs.1 _ (List.mem_of_getElem? ht)
      · have : (idsOf sequenceIdOf s.issued 0).length ≤ s.issued.length := List.length_filterMap_le ..
        omega
  exact key _ _ (by rfl)

end Neutron.Props
