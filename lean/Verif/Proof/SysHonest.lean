import Verif.Proof.SysStop
import Verif.Spec.Honest

/-!
# Responses reach the requests they are meant for
-/

namespace Neutron.Sys

open Neutron

theorem HonestRun.run {cfg : Cfg} {P : State → Prop} {as : List Act} {s : State} (h : HonestRun cfg P as s) : Run cfg as s := by
  induction h with
  | nil => exact .nil
  | snoc _ hs _ _ ih => exact .snoc ih hs

theorem HonestRun.here {cfg : Cfg} {P : State → Prop} {as : List Act} {s : State} (h : HonestRun cfg P as s) : P s := by
  cases h <;> assumption

/-! ## Settled requests -/

/-- The engine has taken the request. -/
def Settled (s : State) (t : Tok) : Prop := t ∈ s.resolver.map (·.2) ∨ t ∈ s.outcomes.map (·.1)

theorem Settled.congr {s s' : State} {t : Tok} (h : Settled s t) (hr : s'.resolver = s.resolver) (ho : s.outcomes <+: s'.outcomes) :
    Settled s' t := by
  rcases h with h | h
  · left; rw [hr]; exact h
  · right; exact (ho.map _).subset h

theorem Settled.stop {s : State} {t : Tok} (h : Settled s t) : Settled (stop s) t := by
  right
  rw [stop_outcomes, List.map_append, List.mem_append]
  rcases h with h | h
  · right; simpa using h
  · exact .inl h

theorem settled_count {s : State} {t : Tok} : Settled s t ↔ 0 < (s.resolver.map (·.2)).count t + (s.outcomes.map (·.1)).count t := by
  unfold Settled
  rw [Nat.add_pos_iff_pos_or_pos, List.count_pos_iff, List.count_pos_iff]

theorem Settled.managerSend {s : State} {t : Tok} (h : Settled s t) (e : Event) (b : BrokerAddress) (v : Bool) :
    Settled (managerSend s e b v) t := by
  unfold Sys.managerSend
  split
  · rename_i t' r hr
    rw [settled_count] at h ⊢
    have := tryResolve_count hr t
    simp only [List.map_append, List.count_append, List.map_cons, List.map_nil]
    omega
  · exact h

theorem Settled.takeCmd {s : State} {t : Tok} {cmd : ClientCmd} (h : Settled s t ∨ cmd.tok = some t) (i : Nat) (q : List ClientCmd) :
    Settled (Sys.takeCmd s i cmd q) t := by
  rw [settled_count, takeCmd_resolver, takeCmd_outcomes]
  rw [settled_count] at h
  cases ht : cmd.tok with
  | none => rw [ht] at h; simp at h ⊢; simpa using h
  | some t' =>
    rw [ht] at h
    have := put_count s.resolver cmd.out t t'
    simp only [List.map_append, List.count_append, map_fst_pair]
    rcases h with h | h
    · omega
    · simp only [Option.some.injEq] at h; subst h
      simp only [List.count_singleton_self] at this
      omega

theorem Settled.step {cfg : Cfg} {s s' : State} {a : Act} {t : Tok} (h : Settled s t) (hs : step cfg s a = some s') :
    Settled s' t := by
  have hst := step_cases hs
  clear hs
  cases hst with
  | startOk net hm s2 h2 => rcases h2 with ⟨rfl, hb⟩ | ⟨hb, rfl⟩ <;> exact h
  | startFail | outGone | inLost | regClosedStop | noConn | connectLost => exact h.stop
  | regFail => exact Settled.stop h
  | out i auth net cmd q s' hm hv ha hq he =>
    have h1 : Settled (Sys.takeCmd s i cmd q) t := .takeCmd (.inl h) i q
    cases he with
    | failed => exact h1.stop
    | lost c c2 b s3 hcc h2 hb hp => exact (h1.congr hp.resolver (by simp [hp.outcomes])).stop
    | sent => exact h1
    | connecting c c2 b s3 j hcc h2 hb hp hj ha hl => exact (h1.congr hp.resolver (by simp [hp.outcomes]))
  | inb b e q s' hm ha hv hq he =>
    have h1 : Settled (takeEvent s b e q) t := h
    cases he with
    | pingFailed => exact Settled.stop h1
    | ping => exact h1
    | other _ => exact h1.managerSend ..
  | connectOk => exact Settled.managerSend (s := { s with mode := .idle }) h ..
  | refuse | freeQueue => exact h.congr rfl (List.prefix_append ..)
  | cmdOk | cmdFail | cmdPanic => exact h.congr (by simp) (by simp)
  | _ => exact h

/-! ## Handled commands -/

theorem handled_step {cfg : Cfg} {s s' : State} {a : Act} (hs : step cfg s a = some s') {i : Nat} (hi : i < s'.nClients) :
    (i < s.nClients ∧ (s'.clients i).handled = (s.clients i).handled) ∨ (s'.clients i).handled = [] ∨
    (i < s.nClients ∧ ∃ auth net cmd q, a = .engOut i auth net ∧ (s.clients i).queue = cmd :: q ∧
      (s'.clients i).handled = (s.clients i).handled ++ [cmd]) := by
  cases step_cases hs with
  | startOk net hm s2 h2 =>
    rcases h2 with ⟨rfl, hb⟩ | ⟨hb, rfl⟩
    all_goals exact .inl ⟨by simpa using hi, by simp⟩
  | out j auth net cmd q s'' hm hv ha hq he =>
    have hn : i < s.nClients := by
      cases he with
      | lost c c2 b s3 hcc h2 hb hp => simpa [hp.nClients] using hi
      | connecting c c2 b s3 k hcc h2 hb hp hj ha hl => simpa [hp.nClients] using hi
      | _ => simpa using hi
    have hh : (s'.clients i).handled = ((takeCmd s j cmd q).clients i).handled := by
      cases he with
      | lost c c2 b s3 hcc h2 hb hp => simp [hp.clients_handled]
      | connecting c c2 b s3 k hcc h2 hb hp hj ha hl => simp [hp.clients_handled]
      | _ => simp
    by_cases hij : i = j
    · subst hij
      refine .inr (.inr ⟨hn, auth, net, cmd, q, rfl, hq, ?_⟩)
      rw [hh, takeCmd_clients, if_pos rfl]
    · refine .inl ⟨hn, ?_⟩
      rw [hh, takeCmd_clients, if_neg hij]
  | inb b e q s'' hm ha hv hq he => cases he <;> exact .inl ⟨by simpa using hi, by simp⟩
  | newClient name hl =>
    by_cases hij : i = s.nClients
    · subst hij; exact .inr (.inl (by simp [setClient_clients]))
    · simp only at hi
      exact .inl ⟨by omega, by simp [setClient_clients, hij]⟩
  | reg j | regFail j | sendRegFail j | sendReg j | recvReply j | recvReplyFail j | cancelReg j | clientNext j | dropClient j
    | freeQueue j | request j | oneway j | submit j | refuse j =>
    by_cases hij : i = j
    · subst hij; exact .inl ⟨by simpa using hi, by simp [setClient_clients]⟩
    · exact .inl ⟨by simpa using hi, by simp [setClient_clients, hij]⟩
  | _ => exact .inl ⟨by simpa using hi, by simp⟩

theorem issued_step {cfg : Cfg} {s s' : State} {a : Act} (hs : step cfg s a = some s') : s.issued <+: s'.issued := by
  cases step_cases hs with
  | startOk net hm s2 h2 => rcases h2 with ⟨rfl, hb⟩ | ⟨hb, rfl⟩ <;> simp
  | out i auth net cmd q s' hm hv ha hq he =>
    cases he with
    | lost c c2 b s3 hcc h2 hb hp => simp [hp.issued]
    | connecting c c2 b s3 j hcc h2 hb hp hj ha hl => simp [hp.issued]
    | _ => simp
  | inb b e q s' hm ha hv hq he => cases he <;> simp
  | _ => simp

theorem issued_mono {l l' : List (Nat × Outbound)} (h : l <+: l') {t : Nat} {x : Nat × Outbound} (hx : l[t]? = some x) :
    l'[t]? = some x := by
  obtain ⟨r, rfl⟩ := h
  exact getElem?_append_some hx

/-- Requests taken from their client are known and settled. -/
theorem taken {cfg : Cfg} {s : State} (h : Reachable cfg s) : ∀ i, i < s.nClients → ∀ cmd, cmd ∈ (s.clients i).handled →
    ∀ t : Nat, cmd.tok = some t → s.issued[t]? = some (i, cmd.out) ∧ Settled s t := by
  refine h.induct (P := fun s => ∀ i, i < s.nClients → ∀ cmd, cmd ∈ (s.clients i).handled →
    ∀ t : Nat, cmd.tok = some t → s.issued[t]? = some (i, cmd.out) ∧ Settled s t) (fun i hi => absurd hi (Nat.not_lt_zero i)) ?_
  intro s a s' hr ih hs i hi cmd hm t ht
  have old : i < s.nClients → cmd ∈ (s.clients i).handled → s'.issued[t]? = some (i, cmd.out) ∧ Settled s' t := fun hi' hm' =>
    ⟨issued_mono (issued_step hs) (ih i hi' cmd hm' t ht).1, (ih i hi' cmd hm' t ht).2.step hs⟩
  rcases handled_step hs hi with ⟨hi', h1⟩ | h1 | ⟨hi', auth, net, c, q, rfl, hq, h1⟩
  · rw [h1] at hm; exact old hi' hm
  · rw [h1] at hm; simp at hm
  · rw [h1, List.mem_append, List.mem_singleton] at hm
    rcases hm with hm | rfl
    · exact old hi' hm
    · refine ⟨issued_mono (issued_step hs) ((req hr).pending i hi' cmd (by rw [hq]; simp) t ht), ?_⟩
      cases step_cases hs with
      | outGone _ _ _ _ _ _ hq' => rw [hq] at hq'; exact absurd hq' (by simp)
      | out _ _ _ c' q' _ hm hv ha hq' he =>
        rw [hq] at hq'
        simp only [List.cons.injEq] at hq'
        obtain ⟨rfl, rfl⟩ := hq'
        have h9 : Settled (takeCmd s i cmd q) t := .takeCmd (.inr ht) i q
        cases he with
        | failed => exact h9.stop
        | lost c c2 b s3 hcc h2 hb hp => exact (h9.congr hp.resolver (by simp [hp.outcomes])).stop
        | sent => exact h9
        | connecting c c2 b s3 j hcc h2 hb hp hj ha hl => exact (h9.congr hp.resolver (by simp [hp.outcomes]))

theorem written_handled {cfg : Cfg} {s : State} (h : Reachable cfg s) {b : BrokerAddress} {t : Tok} {out : Outbound}
    (hw : WrittenTo s b t out) : ∃ i, s.issued[t]? = some (i, out) ∧ Settled s t := by
  obtain ⟨c, i, hc, ho⟩ := hw
  have hs : (b, c) ∈ s.sent := by
    rw [← mem_sentTo, ← (conn h).accepted b, ((conn h).ok b).fifo]
    exact List.mem_append_left _ hc
  have := (Sys.cmd h).sentOk b c hs
  rw [ho] at this
  have h2 := taken h i this.1 _ this.2.1 t rfl
  exact ⟨i, h2⟩

/-! ## Outstanding requests -/

theorem outcome_lt {cfg : Cfg} {s : State} (h : Reachable cfg s) {t : Nat} {r : TokResult} (ho : (t, r) ∈ s.outcomes) :
    t < s.issued.length := by
  have hp := places_eq h t
  have hc : 0 < (s.outcomes.map (·.1)).count t := by
    rw [List.count_pos_iff]; exact List.mem_map_of_mem (f := (·.1)) ho
  unfold places ind at hp
  split at hp
  · assumption
  · omega

theorem waiting_outstanding {cfg : Cfg} {s : State} (h : Reachable cfg s) {t : Nat} (ht : t ∈ s.resolver.map (·.2)) :
    Outstanding s t := by
  have hp := places_eq h t
  have hc : 0 < (s.resolver.map (·.2)).count t := by rw [List.count_pos_iff]; exact ht
  unfold places ind at hp
  split at hp
  · rename_i hlt
    refine ⟨hlt, fun r hr => ?_⟩
    have hc : 0 < (s.outcomes.map (·.1)).count t := by
      rw [List.count_pos_iff]; exact List.mem_map_of_mem (f := (·.1)) hr
    omega
  · omega

theorem queue_outstanding {cfg : Cfg} {s : State} (h : Reachable cfg s) {i : Nat} (hi : i < s.nClients) {cmd : ClientCmd} {t : Nat}
    (hm : cmd ∈ (s.clients i).queue) (ht : cmd.tok = some t) : Outstanding s t ∧ t ∉ s.resolver.map (·.2) := by
  have hp := places_eq h t
  have hc : 0 < (pendingToks s i).count t := by
    rw [List.count_pos_iff]
    unfold pendingToks toks
    exact List.mem_append_right _ (List.mem_filterMap.mpr ⟨cmd, hm, ht⟩)
  have hsum : (pendingToks s i).count t ≤ ((List.range s.nClients).map fun i => (pendingToks s i).count t).sum :=
    le_sum_of_mem (List.mem_map.mpr ⟨i, List.mem_range.mpr hi, rfl⟩)
  unfold places ind at hp
  split at hp
  · rename_i hlt
    refine ⟨⟨hlt, fun r hr => ?_⟩, fun hr => ?_⟩
    · have hc : 0 < (s.outcomes.map (·.1)).count t := by
        rw [List.count_pos_iff]; exact List.mem_map_of_mem (f := (·.1)) hr
      omega
    · rw [← List.count_pos_iff] at hr
      omega
  · omega

/-! ## Responses under way -/

/-- The event is under way to the engine: in the channel of a connection, or as the answer the engine is waiting for. -/
def UnderWay (s : State) : Option BrokerAddress → Event → Prop
  | some b, e => e ∈ (s.conns b).outbox
  | none, e => ∃ r b x, s.mode = .awaitConnect r b ∧ s.replyDone.find? (fun p => p.1 == r) = some (x, .resolved e)

/-- What is known of an event under way. -/
def Meant (K : Outbound → Prop) (as : List Act) (s : State) (e : Event) : Prop :=
  match e.answers with
  | none => ∀ o, ¬ Answers o e.inb
  | some t => Answered as t ∧ ∃ i o, s.issued[t]? = some (i, o) ∧ Answers o e.inb ∧ (K o → t ∈ s.resolver.map (·.2))

/-- While the engine runs. -/
structure Running (K : Outbound → Prop) (as : List Act) (s : State) : Prop where
  live : ∀ (t i : Nat) (o : Outbound), (t, TokResult.cancelled) ∈ s.outcomes → s.issued[t]? = some (i, o) → ¬ K o
  flight : ∀ p e, UnderWay s p e → Meant K as s e
  box : ∀ b, (s.conns b).outbox.Pairwise fun e e' => e.answers = none ∨ e.answers ≠ e'.answers
  sep : ∀ p e p' e' t, UnderWay s p e → UnderWay s p' e' → e.answers = some t → e'.answers = some t → p = p'

/-- Always. -/
structure Honest (K : Outbound → Prop) (as : List Act) (s : State) : Prop where
  done : ∀ (t i : Nat) (o : Outbound) (e : Event), (t, TokResult.resolved e) ∈ s.outcomes → s.issued[t]? = some (i, o) → K o →
    e.answers = some t ∧ Answered as t
  got : ∀ (d : Dispatch) (t i : Nat) (o : Outbound), d ∈ s.dispatches → d.event.answers = some t → s.issued[t]? = some (i, o) → K o →
    ∃ e, (t, TokResult.resolved e) ∈ s.outcomes
  run : s.mode ≠ .stopped → Running K as s

theorem Answered.mono {as : List Act} {a : Act} {t : Tok} (h : Answered as t) : Answered (as ++ [a]) t := by
  obtain ⟨b, v, h⟩ := h; exact ⟨b, v, List.mem_append_left _ h⟩

theorem Meant.mono {K : Outbound → Prop} {as as' : List Act} {s s' : State} {e : Event} (h : Meant K as s e)
    (ha : ∀ t, Answered as t → Answered as' t) (hi : s.issued <+: s'.issued)
    (hr : ∀ t, e.answers = some t → t ∈ s.resolver.map (·.2) → (∀ i o, s.issued[t]? = some (i, o) → K o) →
      t ∈ s'.resolver.map (·.2)) : Meant K as' s' e := by
  unfold Meant at h ⊢
  cases he : e.answers with
  | none => rw [he] at h; exact h
  | some t =>
    rw [he] at h
    obtain ⟨h1, i, o, h2, h3, h4⟩ := h
    refine ⟨ha t h1, i, o, issued_mono hi h2, h3, fun hk => hr t he (h4 hk) ?_⟩
    intro i' o' h'
    rw [h2] at h'
    simp only [Option.some.injEq, Prod.mk.injEq] at h'
    rw [← h'.2]; exact hk

/-- Nothing relevant changes. -/
theorem Honest.congr {K : Outbound → Prop} {as as' : List Act} {s s' : State} (h : Honest K as s)
    (hlt : ∀ t r, (t, r) ∈ s.outcomes → t < s.issued.length)
    (hdt : ∀ d, d ∈ s.dispatches → ∀ t, d.event.answers = some t → t < s.issued.length)
    (ha : ∀ t, Answered as t → Answered as' t) (hi : s.issued <+: s'.issued) (hr : s'.resolver = s.resolver)
    (ho : s'.outcomes = s.outcomes) (hd : s'.dispatches = s.dispatches) (hm : s'.mode ≠ .stopped → s.mode ≠ .stopped)
    (hf : ∀ p e, UnderWay s' p e → UnderWay s p e) (hb : ∀ b, (s'.conns b).outbox = (s.conns b).outbox) : Honest K as' s' := by
  have back : ∀ (t : Nat) x, t < s.issued.length → s'.issued[t]? = some x → s.issued[t]? = some x := by
    intro t x hl hx
    obtain ⟨r, hr⟩ := hi
    rw [← hr, List.getElem?_append_left hl] at hx; exact hx
  refine ⟨?_, ?_, fun hm' => ⟨?_, ?_, ?_, ?_⟩⟩
  · intro t i o e h1 h2 h3
    rw [ho] at h1
    have := h.done t i o e h1 (back t _ (hlt _ _ h1) h2) h3
    exact ⟨this.1, ha _ this.2⟩
  · intro d t i o h1 h2 h3 h4
    rw [hd] at h1
    rw [ho]
    exact h.got d t i o h1 h2 (back t _ (hdt d h1 t h2) h3) h4
  · intro t i o h1 h2
    rw [ho] at h1
    exact (h.run (hm hm')).live t i o h1 (back t _ (hlt _ _ h1) h2)
  · intro p e he
    exact ((h.run (hm hm')).flight p e (hf p e he)).mono ha hi (fun t _ ht _ => by rw [hr]; exact ht)
  · intro b; rw [hb]; exact (h.run (hm hm')).box b
  · intro p e p' e' t h1 h2
    exact (h.run (hm hm')).sep p e p' e' t (hf _ _ h1) (hf _ _ h2)

theorem Honest.stop {K : Outbound → Prop} {as : List Act} {s : State} (h : Honest K as s) : Honest K as (stop s) := by
  refine ⟨?_, ?_, fun hm => absurd rfl hm⟩
  · intro t i o e h1
    rw [stop_outcomes, List.mem_append] at h1
    rcases h1 with h1 | h1
    · exact h.done t i o e h1
    · simp at h1
  · intro d t i o h1 h2 h3 h4
    obtain ⟨e, he⟩ := h.got d t i o h1 h2 h3 h4
    exact ⟨e, by rw [stop_outcomes]; exact List.mem_append_left _ he⟩

theorem Honest.mono {K : Outbound → Prop} {as as' : List Act} {s : State} (h : Honest K as s)
    (ha : ∀ t, Answered as t → Answered as' t) : Honest K as' s :=
  ⟨fun t i o e h1 h2 h3 => ⟨(h.done t i o e h1 h2 h3).1, ha _ (h.done t i o e h1 h2 h3).2⟩, h.got,
   fun hm => ⟨(h.run hm).live, fun p e he => ((h.run hm).flight p e he).mono ha (List.prefix_refl _) (fun _ _ ht _ => ht),
     (h.run hm).box, (h.run hm).sep⟩⟩

theorem key_of_answers {out : Outbound} {inb : Inbound} (h : Answers out inb) : ∃ k, out.tryKey = some k ∧ inb.tryKey = some k := by
  cases out <;> cases inb <;> simp_all [Answers, Outbound.tryKey, Inbound.tryKey]

theorem key_answers {i : Nat} {out : Outbound} {inb : Inbound} {k : Key} (hb : ByCall i out) (h1 : out.tryKey = some k)
    (h2 : inb.tryKey = some k) : Answers out inb := by
  obtain ⟨core, call, _, hr, rfl⟩ := hb
  cases call <;> simp only [Client.issue, Outbound.tryKey, Option.some.injEq] at h1 <;> subst h1 <;>
    cases inb <;> simp_all [Inbound.tryKey, Answers, Client.issue, Send.sequenceId, Call.expectsResponse]

theorem adjust_answers (b : BrokerAddress) (inb : Inbound) (o : Outbound) : Answers o (adjust b inb) ↔ Answers o inb := by
  cases inb <;> simp only [adjust] <;> cases o <;> simp [Answers]

theorem underWay_managerSend (s : State) (e : Event) (b : BrokerAddress) (v : Bool) (p : Option BrokerAddress) (x : Event) :
    UnderWay (managerSend s e b v) p x ↔ UnderWay s p x := by
  cases p <;> simp [UnderWay]

/-- The engine handles an event. -/
theorem Honest.handle {cfg : Cfg} {K : Outbound → Prop} {as : List Act} {s s1 : State} (hr : Reachable cfg s) (h : Honest K as s)
    (hP : Distinct K s) (hK : ∀ o o', Confusable o o' → K o → K o') (hm : s.mode ≠ .stopped) {p : Option BrokerAddress}
    {e e' : Event} (hu : UnderWay s p e) (htag : e'.answers = e.answers) (hans : ∀ o, Answers o e'.inb ↔ Answers o e.inb)
    (h1 : s1.resolver = s.resolver) (h2 : s1.outcomes = s.outcomes) (h3 : s1.issued = s.issued)
    (h4 : s1.dispatches = s.dispatches)
    (hrest : ∀ p' x, UnderWay s1 p' x → UnderWay s p' x ∧ (x.answers = none ∨ x.answers ≠ e.answers))
    (hbox : ∀ b, (s1.conns b).outbox.Sublist (s.conns b).outbox) (b : BrokerAddress) (v : Bool) :
    Honest K as (managerSend s1 e' b v) := by
  have hrun := h.run hm
  have hme := hrun.flight p e hu
  have hmap := (maps hr).engine
  -- the request the event is meant for is found
  have hhit : ∀ (t i : Nat) (o : Outbound), e'.answers = some t → s.issued[t]? = some (i, o) → K o →
      ∃ r, s1.resolver.tryResolve e'.inb = some (t, r) := by
    intro t i o ht hi hk
    unfold Meant at hme
    rw [← htag, ht] at hme
    obtain ⟨_, i', o', hi', ha, hres⟩ := hme
    rw [hi] at hi'
    simp only [Option.some.injEq, Prod.mk.injEq] at hi'
    obtain ⟨rfl, rfl⟩ := hi'
    obtain ⟨⟨k, t'⟩, hmem, rfl⟩ := List.mem_map.mp (hres hk)
    obtain ⟨i', o', hi', hk'⟩ := (req hr).waiting _ _ hmem
    simp only at hi
    rw [hi] at hi'
    simp only [Option.some.injEq, Prod.mk.injEq] at hi'
    obtain ⟨rfl, rfl⟩ := hi'
    obtain ⟨k2, hk2, hk3⟩ := key_of_answers ((hans o).mpr ha)
    rw [hk'] at hk2
    simp only [Option.some.injEq] at hk2
    subst hk2
    refine ⟨s.resolver.erase k, ?_⟩
    unfold Resolver.tryResolve
    rw [hk3, h1]
    simp only [find_of_mem hmap hmem]
  -- whatever is found, of kind K, is the request the event is meant for
  have hown : ∀ (t i : Nat) (o : Outbound) r, s1.resolver.tryResolve e'.inb = some (t, r) → s.issued[t]? = some (i, o) → K o →
      e.answers = some t ∧ Answered as t := by
    intro t i o r hres hi hk
    rw [h1] at hres
    obtain ⟨k, hk1, hf, rfl⟩ := tryResolve_some hres
    have hmem := mem_find hf
    obtain ⟨i', o', hi', hk2⟩ := (req hr).waiting _ _ hmem
    rw [hi] at hi'
    simp only [Option.some.injEq, Prod.mk.injEq] at hi'
    obtain ⟨rfl, rfl⟩ := hi'
    have ha := (hans o).mp (key_answers ((req hr).issued t i o hi).2 hk2 hk1)
    unfold Meant at hme
    cases he : e.answers with
    | none => rw [he] at hme; exact absurd ha (hme o)
    | some t' =>
      rw [he] at hme
      obtain ⟨had, i2, o2, hi2, ha2, hres2⟩ := hme
      have hconf : Confusable o o2 := ⟨e.inb, ha, ha2⟩
      have hk2 : K o2 := hK _ _ hconf hk
      have : t = t' := hP t t' i i2 o o2 (waiting_outstanding hr (List.mem_map_of_mem (f := (·.2)) hmem))
        (waiting_outstanding hr (hres2 hk2)) hi hi2 hk hconf
      subst this
      exact ⟨rfl, had⟩
  have hgot : ∀ (d : Dispatch) (t i : Nat) (o : Outbound), d ∈ s.dispatches → d.event.answers = some t →
      s.issued[t]? = some (i, o) → K o → ∃ e, (t, TokResult.resolved e) ∈ s.outcomes := h.got
  refine ⟨?_, ?_, fun _ => ⟨?_, ?_, ?_, ?_⟩⟩
  · intro t i o x hx hi hk
    simp only [managerSend_issued, h3] at hi
    unfold Sys.managerSend at hx
    split at hx
    · rename_i t' r hres
      simp only [List.mem_append, List.mem_singleton, Prod.mk.injEq, TokResult.resolved.injEq, h2] at hx
      rcases hx with hx | ⟨rfl, rfl⟩
      · exact h.done t i o x hx hi hk
      · rw [htag]; exact hown t i o r hres hi hk
    · simp only [h2] at hx
      exact h.done t i o x hx hi hk
  · intro d t i o hd ht hi hk
    simp only [managerSend_issued, h3] at hi
    have hold : ∀ x, (t, TokResult.resolved x) ∈ s.outcomes → (t, TokResult.resolved x) ∈ (Sys.managerSend s1 e' b v).outcomes := by
      intro x hx
      unfold Sys.managerSend
      split
      · simp only [h2]; exact List.mem_append_left _ hx
      · simp only [h2]; exact hx
    obtain ⟨dest, hdd⟩ := managerSend_dispatches s1 e' b v
    rw [hdd, h4, List.mem_append, List.mem_singleton] at hd
    rcases hd with hd | rfl
    · obtain ⟨x, hx⟩ := hgot d t i o hd ht hi hk
      exact ⟨x, hold x hx⟩
    · obtain ⟨r, hres⟩ := hhit t i o ht hi hk
      refine ⟨e', ?_⟩
      unfold Sys.managerSend
      rw [hres]
      simp
  · intro t i o hx hi
    simp only [managerSend_issued, h3] at hi
    refine hrun.live t i o ?_ hi
    unfold Sys.managerSend at hx
    split at hx
    · simpa [h2] using hx
    · simpa [h2] using hx
  · intro p' x hx
    rw [underWay_managerSend] at hx
    obtain ⟨hx, hne⟩ := hrest p' x hx
    refine (hrun.flight p' x hx).mono (fun _ h => h) (by simp [h3]) ?_
    intro t ht hmem hk
    unfold Sys.managerSend
    split
    · rename_i t' r hres
      have hc := tryResolve_count hres t
      simp only
      rw [← List.count_pos_iff]
      rw [h1] at hc
      rw [← List.count_pos_iff] at hmem
      by_cases htt : t' = t
      · subst htt
        obtain ⟨k, hk1, hf, rfl⟩ := tryResolve_some hres
        rw [h1] at hf
        obtain ⟨i', o', hi', hk2⟩ := (req hr).waiting _ _ (mem_find hf)
        have := hown t' i' o' _ hres hi' (hk i' o' hi')
        rcases hne with hne | hne
        · rw [hne] at ht; exact absurd ht (by simp)
        · exact absurd (ht.trans this.1.symm) hne
      · have : [t'].count t = 0 := by
          rw [List.count_singleton]; simp [htt]
        omega
    · simp only [h1]; exact hmem
  · intro x
    simp only [managerSend_conns]
    exact (hrun.box x).sublist (hbox x)
  · intro p1 x p2 y t hx hy
    rw [underWay_managerSend] at hx hy
    exact hrun.sep p1 x p2 y t (hrest p1 x hx).1 (hrest p2 y hy).1

/-- The engine takes a command from a client. -/
theorem Honest.takeCmd {cfg : Cfg} {K : Outbound → Prop} {as : List Act} {s : State} (hr : Reachable cfg s) (h : Honest K as s)
    (hP : Distinct K s) (hm : s.mode ≠ .stopped) {i : Nat} (hi : i < s.nClients) {cmd : ClientCmd} {q : List ClientCmd}
    (hq : (s.clients i).queue = cmd :: q) (hK : ∀ o o', Confusable o o' → K o → K o') : Honest K as (takeCmd s i cmd q) := by
  have hrun := h.run hm
  have hmap := (maps hr).engine
  -- an overwritten request is not of kind K
  have hover : ∀ t t' : Nat, cmd.tok = some t → (s.resolver.put cmd.out t).2 = some t' →
      ∀ i' o', s.issued[t']? = some (i', o') → ¬ K o' := by
    intro t t' ht hput i' o' hi' hk
    have hio := (req hr).pending i hi cmd (by rw [hq]; simp) t ht
    unfold Resolver.put at hput
    cases hkey : cmd.out.tryKey with
    | none =>
      obtain ⟨core, call, _, hrr, ho⟩ := ((req hr).issued t i cmd.out hio).2
      rw [ho] at hkey
      cases call <;> simp [Client.issue, Outbound.tryKey, Call.expectsResponse] at hkey hrr
    | some k =>
      simp only [hkey] at hput
      have hmem := mem_find hput
      obtain ⟨i2, o2, hi2, hk2⟩ := (req hr).waiting _ _ hmem
      rw [hi'] at hi2
      simp only [Option.some.injEq, Prod.mk.injEq] at hi2
      obtain ⟨rfl, rfl⟩ := hi2
      have hconf : ∃ inb : Inbound, inb.tryKey = some k := by
        obtain ⟨core, call, _, hrr, ho⟩ := ((req hr).issued t i cmd.out hio).2
        rw [ho] at hkey
        cases call <;> simp [Client.issue, Outbound.tryKey, Call.expectsResponse] at hkey hrr <;> subst hkey <;>
          first
          | exact ⟨.connected, rfl⟩
          | exact ⟨.lookupTopicResponse ⟨0, "", "", .failed, false, false⟩, rfl⟩
          | exact ⟨.success 0, rfl⟩
          | exact ⟨.producerSuccess ⟨0, ""⟩, rfl⟩
          | exact ⟨.ackReciept ⟨0, 0⟩, rfl⟩
          | exact ⟨.sendReceipt ⟨0, _, []⟩, rfl⟩
      obtain ⟨inb, hinb⟩ := hconf
      have ha1 := key_answers ((req hr).issued t i cmd.out hio).2 hkey hinb
      have ha2 := key_answers ((req hr).issued t' i' o' hi').2 hk2 hinb
      have ho := queue_outstanding hr hi (by rw [hq]; exact List.mem_cons_self) ht
      have hmem2 : t' ∈ s.resolver.map (·.2) := List.mem_map_of_mem (f := (·.2)) hmem
      have := hP t' t i' i o' cmd.out (waiting_outstanding hr hmem2) ho.1 hi' hio hk ⟨inb, ha2, ha1⟩
      subst this
      exact ho.2 hmem2
  have hout : (Sys.takeCmd s i cmd q).outcomes = s.outcomes ++ match cmd.tok with
      | some t => ((s.resolver.put cmd.out t).2.toList.map fun d => (d, .cancelled))
      | none => [] := takeCmd_outcomes ..
  have hmode : (Sys.takeCmd s i cmd q).mode = s.mode := by simp
  have huw : ∀ p e, UnderWay (Sys.takeCmd s i cmd q) p e ↔ UnderWay s p e := by
    intro p e; cases p <;> simp [UnderWay]
  refine ⟨?_, ?_, fun _ => ⟨?_, ?_, ?_, ?_⟩⟩
  · intro t j o e hx hj hk
    simp only [takeCmd_issued] at hj
    refine h.done t j o e ?_ hj hk
    rw [hout] at hx
    cases hc : cmd.tok with
    | none => simpa [hc] using hx
    | some t' => simpa [hc] using hx
  · intro d t j o hd ht hj hk
    simp only [takeCmd_issued, takeCmd_dispatches] at hj hd
    obtain ⟨e, he⟩ := h.got d t j o hd ht hj hk
    exact ⟨e, by rw [hout]; exact List.mem_append_left _ he⟩
  · intro t j o hx hj
    simp only [takeCmd_issued] at hj
    rw [hout, List.mem_append] at hx
    rcases hx with hx | hx
    · exact hrun.live t j o hx hj
    · cases hc : cmd.tok with
      | none => simp [hc] at hx
      | some t' =>
        simp only [hc, List.mem_map, Option.mem_toList, Prod.mk.injEq, and_true, exists_eq_right] at hx
        exact hover t' t hc hx j o hj
  · intro p e hx
    rw [huw] at hx
    refine (hrun.flight p e hx).mono (fun _ h => h) (by simp) ?_
    intro t ht hmem hk
    rw [takeCmd_resolver]
    cases hc : cmd.tok with
    | none => exact hmem
    | some t' =>
      simp only
      rw [← List.count_pos_iff] at hmem ⊢
      have hc' := put_count s.resolver cmd.out t t'
      have : (s.resolver.put cmd.out t').2.toList.count t = 0 := by
        rw [List.count_eq_zero]
        intro hin
        rw [Option.mem_toList] at hin
        have hm2 : t ∈ s.resolver.map (·.2) := by rw [← List.count_pos_iff]; exact hmem
        obtain ⟨⟨k, t2⟩, hm3, rfl⟩ := List.mem_map.mp hm2
        obtain ⟨i2, o2, hi2, _⟩ := (req hr).waiting _ _ hm3
        exact hover t' t2 hc hin i2 o2 hi2 (hk i2 o2 hi2)
      omega
  · intro b; simp only [takeCmd_conns]; exact hrun.box b
  · intro p1 x p2 y t hx hy
    rw [huw] at hx hy
    exact hrun.sep p1 x p2 y t hx hy

/-! ## Every step -/

/-- Adding a response that was not there. -/
theorem Running.add {K : Outbound → Prop} {as as' : List Act} {s s' : State} {p : Option BrokerAddress} {e : Event}
    (h : Running K as s) (ha : ∀ t, Answered as t → Answered as' t) (hi : s'.issued = s.issued) (hr : s'.resolver = s.resolver)
    (ho : s'.outcomes = s.outcomes)
    (hf : ∀ p' x, UnderWay s' p' x → UnderWay s p' x ∨ (p' = p ∧ x = e))
    (hb : ∀ b, (s'.conns b).outbox = (s.conns b).outbox ∨ (s'.conns b).outbox = (s.conns b).outbox ++ [e])
    (hnew : ∀ t, e.answers = some t → ¬ Answered as t) (hme : Meant K as' s' e) : Running K as' s' := by
  have old : ∀ p' x t, UnderWay s p' x → x.answers = some t → Answered as t := by
    intro p' x t hx ht
    have := h.flight p' x hx
    unfold Meant at this
    rw [ht] at this
    exact this.1
  refine ⟨?_, ?_, ?_, ?_⟩
  · intro t i o h1 h2
    rw [ho] at h1; rw [hi] at h2
    exact h.live t i o h1 h2
  · intro p' x hx
    rcases hf p' x hx with hx | ⟨rfl, rfl⟩
    · exact (h.flight p' x hx).mono ha (by simp [hi]) (fun t _ ht _ => by rw [hr]; exact ht)
    · exact hme
  · intro b
    rcases hb b with hb | hb
    · rw [hb]; exact h.box b
    · rw [hb, List.pairwise_append]
      refine ⟨h.box b, List.pairwise_singleton .., ?_⟩
      intro x hx y hy
      simp only [List.mem_singleton] at hy
      subst hy
      cases ht : x.answers with
      | none => exact .inl rfl
      | some t => exact .inr (fun hh => hnew t hh.symm (old (some b) x t hx ht))
  · intro p1 x p2 y t hx hy h1 h2
    rcases hf p1 x hx with hx | ⟨rfl, rfl⟩
    · rcases hf p2 y hy with hy | ⟨rfl, rfl⟩
      · exact h.sep p1 x p2 y t hx hy h1 h2
      · exact absurd (old p1 x t hx h1) (hnew t h2)
    · rcases hf p2 y hy with hy | ⟨rfl, rfl⟩
      · exact absurd (old p2 y t hy h2) (hnew t h1)
      · rfl

theorem map_cancelled (l : Resolver) : ∀ p, p ∈ l.map (fun p : Key × Nat => (p.2, TokResult.cancelled)) → p.2 = .cancelled := by
  intro p hp
  obtain ⟨d, _, rfl⟩ := List.mem_map.mp hp
  rfl

theorem find_append_cancelled {l : List (Nat × TokResult)} {o : List (Nat × TokResult)} {r : Nat} {x : Nat} {e : Event}
    (ho : ∀ p, p ∈ o → p.2 = .cancelled) (h : (l ++ o).find? (fun p => p.1 == r) = some (x, .resolved e)) :
    l.find? (fun p => p.1 == r) = some (x, .resolved e) := by
  rw [List.find?_append] at h
  cases hl : l.find? (fun p => p.1 == r) with
  | some y => rw [hl] at h; simpa using h
  | none =>
    rw [hl] at h
    simp only [Option.none_or] at h
    have := ho _ (List.mem_of_find?_eq_some h)
    exact absurd this (by simp)

theorem connTake_replyDone (s : State) (b : BrokerAddress) (c : ConnCmd) (q : List ConnCmd) :
    ∃ o, (connTake s b c q).replyDone = s.replyDone ++ o ∧ ∀ p, p ∈ o → p.2 = TokResult.cancelled := by
  unfold connTake
  cases c.reply with
  | none => exact ⟨[], by simp, by simp⟩
  | some r =>
    refine ⟨_, rfl, ?_⟩
    intro p hp
    simp only [List.mem_map] at hp
    obtain ⟨d, _, rfl⟩ := hp
    rfl

theorem dispatch_lt {cfg : Cfg} {K : Outbound → Prop} {as : List Act} {s : State} (h : HonestRun cfg (Distinct K) as s) :
    (∀ b e, e ∈ (s.conns b).reads ∨ e ∈ (s.conns b).connected → ∀ t, e.answers = some t → t < s.issued.length) := by
  induction h with
  | nil => intro b e he; simp [init, freshConn] at he
  | @snoc as s s' a hr hs ha hp ih =>
    have hreach : Reachable cfg s := ⟨_, hr.run⟩
    have hlen : s.issued.length ≤ s'.issued.length := (issued_step hs).length_le
    intro b e he t ht
    rcases step_reads (conn hreach) hs b with ⟨h1, h2⟩ | ⟨v, ans, inb, rfl, hv, ⟨h1, h2⟩ | ⟨h1, h2⟩⟩
    · rw [h1, h2] at he; exact Nat.lt_of_lt_of_le (ih b e he t ht) hlen
    all_goals
      rw [h1, h2] at he
      simp only [List.mem_append, List.mem_singleton] at he
      by_cases hn : e = ⟨inb, ans⟩
      · subst hn
        simp only at ht
        subst ht
        obtain ⟨_, out, hw, _⟩ := ha inb hv
        obtain ⟨i, hi, _⟩ := written_handled hreach hw
        have : t < s.issued.length := by
          rw [List.getElem?_eq_some_iff] at hi; exact hi.1
        exact Nat.lt_of_lt_of_le this hlen
      · exact Nat.lt_of_lt_of_le (ih b e (by simpa [hn] using he) t ht) hlen

theorem Honest.step {cfg : Cfg} {K : Outbound → Prop} (hK : ∀ o o', Confusable o o' → K o → K o') {as : List Act} {s s' : State}
    {a : Act} (hrun : HonestRun cfg (Distinct K) as s) (h : Honest K as s) (hs : step cfg s a = some s')
    (ha : HonestRead as s a) : Honest K (as ++ [a]) s' := by
  have hr : Reachable cfg s := ⟨_, hrun.run⟩
  have hP := hrun.here
  have hmono : ∀ t, Answered as t → Answered (as ++ [a]) t := fun _ h => h.mono
  have hlt : ∀ t r, (t, r) ∈ s.outcomes → t < s.issued.length := fun _ _ h => outcome_lt hr h
  have hdt : ∀ d, d ∈ s.dispatches → ∀ t, d.event.answers = some t → t < s.issued.length := by
    intro d hd t ht
    cases hv : d.viaConnect with
    | true => exact dispatch_lt hrun d.broker d.event (.inr ((rep hr).via d hd hv)) t ht
    | false =>
      have h2 : d.event ∈ handledOf s.dispatches d.broker := by
        unfold handledOf; rw [List.mem_filterMap]; exact ⟨d, hd, by simp [hv]⟩
      rw [(evt hr).conn, List.mem_map] at h2
      obtain ⟨e0, he0, hadj⟩ := h2
      refine dispatch_lt hrun d.broker e0 (.inl (by rw [((conn hr).ok _).events]; exact List.mem_append_left _ he0)) t ?_
      rw [← hadj] at ht; exact ht
  have hh := h.mono hmono
  have hsame : ∀ s'', s.issued <+: s''.issued → s''.resolver = s.resolver → s''.outcomes = s.outcomes →
      s''.dispatches = s.dispatches → (s''.mode ≠ .stopped → s.mode ≠ .stopped) → (∀ p e, UnderWay s'' p e → UnderWay s p e) →
      (∀ b, (s''.conns b).outbox = (s.conns b).outbox) → Honest K (as ++ [a]) s'' := fun s'' h1 h2 h3 h4 h5 h6 h7 =>
    h.congr hlt hdt hmono h1 h2 h3 h4 h5 h6 h7
  have hst := step_cases hs
  clear hs
  cases hst with
  | startOk net hm s2 h2 =>
    rcases h2 with ⟨rfl, hb⟩ | ⟨hb, rfl⟩
    · refine hsame _ (by simp) rfl rfl rfl (by simp [hm]) ?_ (fun _ => rfl)
      intro p e he; cases p with
      | none => simp [UnderWay] at he
      | some b => exact he
    · have hc : (dialed s cfg.config.brokerAddress).conns = s.conns := dialed_conns_eq (conn hr) hb
      refine hsame _ (by simp) rfl rfl rfl (by simp [hm]) ?_ (fun b => by simp only [hc])
      intro p e he; cases p with
      | none => simp [UnderWay] at he
      | some b => simpa only [UnderWay, hc] using he
  | startFail | outGone | inLost | regClosedStop | noConn | connectLost => exact hh.stop
  | regFail i q hm hc hq hl =>
    apply Honest.stop
    refine hsame _ (by simp) rfl rfl rfl (by simp) ?_ (fun _ => rfl)
    intro p e he; cases p <;> simpa [UnderWay] using he
  | out i auth net cmd q s' hm hv hadr hq he =>
    have h1 : Honest K as (Sys.takeCmd s i cmd q) := h.takeCmd hr hP (by simp [hm]) ((wf hr).vecLt i hv) hq hK
    have h1 := h1.mono hmono
    have hlt1 : ∀ t r, (t, r) ∈ (Sys.takeCmd s i cmd q).outcomes → t < (Sys.takeCmd s i cmd q).issued.length := by
      intro t r ht
      rw [takeCmd_issued]
      rw [takeCmd_outcomes, List.mem_append] at ht
      rcases ht with ht | ht
      · exact hlt t r ht
      · cases hc : cmd.tok with
        | none => simp [hc] at ht
        | some t' =>
          simp only [hc, List.mem_map, Option.mem_toList, Prod.mk.injEq] at ht
          obtain ⟨d, hd, rfl, rfl⟩ := ht
          have hcnt := put_count s.resolver cmd.out d t'
          have hpos : 0 < (s.resolver.put cmd.out t').2.toList.count d := by
            rw [List.count_pos_iff, Option.mem_toList]; exact hd
          by_cases hdt' : d = t'
          · subst hdt'
            exact (queue_outstanding hr ((wf hr).vecLt i hv) (by rw [hq]; exact List.mem_cons_self) hc).1.1
          · have : [t'].count d = 0 := by rw [List.count_singleton]; simp [Ne.symm hdt']
            have hmem : d ∈ s.resolver.map (·.2) := by rw [← List.count_pos_iff]; omega
            exact (waiting_outstanding hr hmem).1
    have hdt1 : ∀ d, d ∈ (Sys.takeCmd s i cmd q).dispatches → ∀ t, d.event.answers = some t →
        t < (Sys.takeCmd s i cmd q).issued.length := by simpa using hdt
    have hc1 : Conn (Sys.takeCmd s i cmd q) := by apply (conn hr).congr <;> simp
    cases he with
    | failed => exact h1.stop
    | lost c c2 b s3 hcc h2 hb hp =>
      apply Honest.stop
      refine h1.congr hlt1 hdt1 (fun _ h => h) (by simp [hp.issued]) hp.resolver hp.outcomes hp.dispatches (by rw [hp.mode]; exact fun h => h) ?_ ?_
      · intro p e he; cases p with
        | none => simpa only [UnderWay, hp.mode, hp.replyDone] using he
        | some b => simpa only [UnderWay, hp.conns hc1] using he
      · intro b; rw [hp.conns hc1]
    | sent j hn hj ha hl =>
      refine h1.congr hlt1 hdt1 (fun _ h => h) (by simp) (by simp) (by simp) (by simp) (by simp) ?_ ?_
      · intro p e he; cases p with
        | none => simpa [UnderWay] using he
        | some b => simpa [UnderWay] using he
      · intro b; simp
    | connecting c c2 b s3 j hcc h2 hb hp hj ha hl =>
      refine h1.congr hlt1 hdt1 (fun _ h => h) (by simp [hp.issued]) (by simp [hp.resolver]) (by simp [hp.outcomes])
        (by simp [hp.dispatches]) (by simp [hm]) ?_ ?_
      · intro p e he; cases p with
        | none =>
          simp only [UnderWay, Mode.awaitConnect.injEq, pushed_replyDone, hp.replyDone, takeCmd_replyDone] at he
          obtain ⟨r, b', x, ⟨rfl, rfl⟩, hf⟩ := he
          have hmem := List.mem_of_find?_eq_some hf
          have hx : x = s3.nextReply := by simpa using List.find?_some hf
          obtain ⟨b2, c', h3, h4, _⟩ := (rep hr).done _ _ hmem
          have := ((rep hr).sentOk _ _ h3 _ h4).1
          rw [hx, hp.nextReply] at this
          simp at this
        | some b => simpa [UnderWay, hp.conns hc1] using he
      · intro b; simp [hp.conns hc1]
  | inb b e q s' hm hadr hv hq he =>
    have hu : UnderWay s (some b) e := by simp [UnderWay, hq]
    have hrest : ∀ p' x, UnderWay (takeEvent s b e q) p' x → UnderWay s p' x ∧ (x.answers = none ∨ x.answers ≠ e.answers) := by
      intro p' x hx
      cases p' with
      | none => simp [UnderWay, hm] at hx
      | some b' =>
        have hin : UnderWay s (some b') x := by
          simp only [UnderWay, takeEvent, setConn_conns] at hx ⊢
          split at hx
          · rename_i hbb; subst hbb; rw [hq]; exact List.mem_cons_of_mem _ hx
          · exact hx
        refine ⟨hin, ?_⟩
        by_cases hbb : b' = b
        · subst hbb
          simp only [UnderWay, takeEvent, setConn_conns, if_pos] at hx
          have := (h.run (by simp [hm])).box b'
          rw [hq, List.pairwise_cons] at this
          rcases this.1 x hx with h1 | h1
          · cases hxa : x.answers with
            | none => exact .inl rfl
            | some t => right; rw [h1]; simp
          · exact .inr (fun hh => h1 hh.symm)
        · cases hxa : x.answers with
          | none => exact .inl rfl
          | some t =>
            right; intro hea
            have := (h.run (by simp [hm])).sep _ _ _ _ t hin hu hxa hea.symm
            simp only [Option.some.injEq] at this
            exact hbb this
    have hbox : ∀ x, ((takeEvent s b e q).conns x).outbox.Sublist (s.conns x).outbox := by
      intro x
      simp only [takeEvent, setConn_conns]
      split
      · rename_i hx; subst hx; rw [hq]; exact List.sublist_cons_self ..
      · exact List.Sublist.refl _
    have hping : e.inb = .ping → Honest K (as ++ [.engIn b])
        { takeEvent s b e q with dispatches := (takeEvent s b e q).dispatches ++ [⟨b, e, false, .pong⟩] } := by
      intro hpi
      have hnone : e.answers = none := by
        have := (h.run (by simp [hm])).flight _ _ hu
        unfold Meant at this
        cases hea : e.answers with
        | none => rfl
        | some t =>
          rw [hea] at this
          obtain ⟨_, i, o, _, hans, _⟩ := this
          rw [hpi] at hans
          cases o <;> simp [Answers] at hans
      refine ⟨hh.done, ?_, fun hm' => ⟨(hh.run hm').live, ?_, ?_, ?_⟩⟩
      · intro d t i o hd ht hi hk
        simp only [takeEvent_dispatches, List.mem_append, List.mem_singleton] at hd
        rcases hd with hd | rfl
        · exact hh.got d t i o hd ht hi hk
        · simp only [hnone] at ht; exact absurd ht (by simp)
      · intro p x hx
        exact (hh.run (by simp [hm])).flight p x (hrest p x (by cases p <;> exact hx)).1
      · intro x; exact ((hh.run (by simp [hm])).box x).sublist (hbox x)
      · intro p1 x p2 y t hx hy
        exact (hh.run (by simp [hm])).sep p1 x p2 y t (hrest p1 x (by cases p1 <;> exact hx)).1 (hrest p2 y (by cases p2 <;> exact hy)).1
    cases he with
    | pingFailed hpi => exact (hping hpi).stop
    | ping hpi ha hl =>
      have h1 := hping hpi
      have hnone : ∀ d, d ∈ (takeEvent s b e q).dispatches ++ [⟨b, e, false, .pong⟩] → ∀ t, d.event.answers = some t →
          t < s.issued.length := by
        intro d hd t ht
        simp only [takeEvent_dispatches, List.mem_append, List.mem_singleton] at hd
        rcases hd with hd | rfl
        · exact hdt d hd t ht
        · exact dispatch_lt hrun b e (.inl (by rw [((conn hr).ok _).events, hq]; simp)) t ht
      refine h1.congr hlt hnone (fun _ h => h) (by simp) (by simp) (by simp) (by simp) (by simp) ?_ ?_
      · intro p x hx; cases p <;> simpa [UnderWay] using hx
      · intro x; simp
    | other hne =>
      refine Honest.mono ?_ hmono
      exact h.handle (s1 := takeEvent s b e q) (e' := { e with inb := adjust b e.inb }) hr hP hK (by simp [hm]) hu rfl (adjust_answers b e.inb) rfl rfl rfl rfl hrest hbox b false
  | connectOk r b x e hm hf =>
    refine Honest.mono ?_ hmono
    have hu : UnderWay s none e := ⟨r, b, x, hm, hf⟩
    refine h.handle (s1 := { s with mode := .idle }) hr hP hK (by simp [hm]) hu rfl (fun _ => Iff.rfl) rfl rfl rfl rfl ?_
      (fun _ => List.Sublist.refl _) b true
    intro p' y hy
    cases p' with
    | none => simp [UnderWay] at hy
    | some b' =>
      have hin : UnderWay s (some b') y := hy
      refine ⟨hin, ?_⟩
      cases hya : y.answers with
      | none => exact .inl rfl
      | some t =>
        right; intro hea
        have := (h.run (by simp [hm])).sep _ _ _ _ t hin hu hya hea.symm
        exact absurd this (by simp)
  | cmdEnd b w hl hadr hq hm | readEnd b x hl hadr hx =>
    refine hsame _ (by simp) (by simp) (by simp) (by simp) (by simp) ?_ (fun _ => by simp)
    intro p e he
    cases p with
    | none =>
      simp only [UnderWay, endConn_mode, endConn] at he ⊢
      obtain ⟨r, b', x, h1, h2⟩ := he
      exact ⟨r, b', x, h1, find_append_cancelled (map_cancelled _) h2⟩
    | some b' => simpa [UnderWay] using he
  | cmdOk b c q hl hadr hq =>
    refine hsame _ (by simp) (by simp) (by simp) (by simp) (by simp) ?_ ?_
    · intro p e he
      cases p with
      | none =>
        simp only [UnderWay, setConn_mode, setConn_replyDone, connTake_mode] at he ⊢
        obtain ⟨r, b', x, h1, h2⟩ := he
        obtain ⟨o, ho, hc⟩ := connTake_replyDone s b c q
        rw [ho] at h2
        exact ⟨r, b', x, h1, find_append_cancelled hc h2⟩
      | some b' =>
        simp only [UnderWay, setConn_conns] at he
        split at he
        · rename_i hb; subst hb; simpa [UnderWay] using he
        · simpa [UnderWay] using he
    · intro x; simp only [setConn_conns]; split
      · rename_i hb; subst hb; simp
      · simp
  | cmdFail b c q hl hadr hq =>
    refine hsame _ (by simp) (by simp) (by simp) (by simp) (by simp) ?_ (fun _ => by simp)
    intro p e he
    cases p with
    | none =>
      simp only [UnderWay, connTake_mode] at he ⊢
      obtain ⟨r, b', x, h1, h2⟩ := he
      obtain ⟨o, ho, hc⟩ := connTake_replyDone s b c q
      rw [ho] at h2
      exact ⟨r, b', x, h1, find_append_cancelled hc h2⟩
    | some b' => simpa [UnderWay] using he
  | cmdPanic b c q hl hadr hq =>
    refine hsame _ (by simp) (by simp) (by simp) (by simp) (by simp) ?_ (fun _ => by simp)
    intro p e he
    cases p with
    | none =>
      simp only [UnderWay, endConn_mode, connTake_mode, endConn] at he ⊢
      obtain ⟨r, b', x, h1, h2⟩ := he
      obtain ⟨o, ho, hc⟩ := connTake_replyDone s b c q
      have h3 := find_append_cancelled (map_cancelled _) h2
      rw [ho] at h3
      simp only [setConn_mode, connTake_mode] at h1
      exact ⟨r, b', x, h1, find_append_cancelled hc h3⟩
    | some b' => simpa [UnderWay] using he
  | readSkip b x hl hadr hx => exact hh
  | readConnected b v t inb r res hl hadr hv hres =>
    have hdone := hh.done
    refine ⟨hdone, hh.got, fun hm => ?_⟩
    have hrd := ha inb hv
    have hm0 : s.mode ≠ .stopped := hm
    refine (h.run hm0).add (p := none) (e := ⟨inb, t⟩) hmono rfl rfl rfl ?_ ?_ ?_ ?_
    · intro p' x hx
      cases p' with
      | none =>
        simp only [UnderWay] at hx ⊢
        obtain ⟨r', b', y, h1, h2⟩ := hx
        rw [List.find?_append] at h2
        cases hl : s.replyDone.find? (fun p => p.1 == r') with
        | some z =>
          rw [hl] at h2
          simp only [Option.some_or, Option.some.injEq] at h2
          exact .inl ⟨r', b', y, h1, by rw [hl, h2]⟩
        | none =>
          rw [hl] at h2
          simp only [Option.none_or, List.find?_cons, List.find?_nil] at h2
          split at h2
          · simp only [Option.some.injEq, Prod.mk.injEq, TokResult.resolved.injEq] at h2
            exact .inr ⟨by trivial, h2.2.symm⟩
          · exact absurd h2 (by simp)
      | some b' =>
        left
        simp only [UnderWay, setConn_conns] at hx ⊢
        split at hx
        · rename_i hb; subst hb; exact hx
        · exact hx
    · intro x; left; simp only [setConn_conns]; split
      · rename_i hb; subst hb; rfl
      · rfl
    · intro t' ht'
      simp only at ht'; subst ht'
      exact hrd.1
    · unfold Meant
      cases t with
      | none => exact hrd
      | some t =>
        obtain ⟨h1, out, hw, hans⟩ := hrd
        obtain ⟨i, hi, hset⟩ := written_handled hr hw
        refine ⟨⟨b, v, by simp⟩, i, out, hi, hans, fun hk => ?_⟩
        rcases hset with hset | hset
        · exact hset
        · obtain ⟨⟨t', rr⟩, hmem, rfl⟩ := List.mem_map.mp hset
          cases rr with
          | cancelled => exact absurd hk ((h.run hm0).live _ _ _ hmem hi)
          | resolved e => exact absurd (h.done _ _ _ _ hmem hi hk).2 h1
  | readForward b v t inb hl hadr hv hres hm =>
    refine ⟨hh.done, hh.got, fun _ => ?_⟩
    have hrd := ha inb hv
    refine (h.run hm).add (p := some b) (e := ⟨inb, t⟩) hmono rfl rfl rfl ?_ ?_ ?_ ?_
    · intro p' x hx
      cases p' with
      | none => exact .inl hx
      | some b' =>
        simp only [UnderWay, setConn_conns] at hx ⊢
        split at hx
        · rename_i hb; subst hb
          simp only [List.mem_append, List.mem_singleton] at hx
          rcases hx with hx | hx
          · exact .inl hx
          · exact .inr ⟨rfl, hx⟩
        · exact .inl hx
    · intro x; simp only [setConn_conns]; split
      · rename_i hb; subst hb; exact .inr rfl
      · exact .inl rfl
    · intro t' ht'
      simp only at ht'; subst ht'
      exact hrd.1
    · unfold Meant
      cases t with
      | none => exact hrd
      | some t =>
        obtain ⟨h1, out, hw, hans⟩ := hrd
        obtain ⟨i, hi, hset⟩ := written_handled hr hw
        refine ⟨⟨b, v, by simp⟩, i, out, hi, hans, fun hk => ?_⟩
        rcases hset with hset | hset
        · exact hset
        · obtain ⟨⟨t', rr⟩, hmem, rfl⟩ := List.mem_map.mp hset
          cases rr with
          | cancelled => exact absurd hk ((h.run hm).live _ _ _ hmem hi)
          | resolved e => exact absurd (h.done _ _ _ _ hmem hi hk).2 h1
  | refuse i k cmd hi hk he =>
    have hm : s.mode = .stopped := by
      unfold engineEnd at he; split at he
      · assumption
      · exact absurd he (by simp)
    refine ⟨?_, ?_, fun hm' => absurd hm hm'⟩
    · intro t j o e hx
      exact hh.done t j o e (by simpa using hx)
    · intro d t j o h1 h2 h3 h4
      obtain ⟨e, he⟩ := hh.got d t j o h1 h2 h3 h4
      exact ⟨e, List.mem_append_left _ he⟩
  | freeQueue i hi hp he =>
    have hm : s.mode = .stopped := by
      unfold engineEnd at he; split at he
      · assumption
      · exact absurd he (by simp)
    refine ⟨?_, ?_, fun hm' => absurd hm hm'⟩
    · intro t j o e hx
      exact hh.done t j o e (by simpa using hx)
    · intro d t j o h1 h2 h3 h4
      obtain ⟨e, he⟩ := hh.got d t j o h1 h2 h3 h4
      exact ⟨e, List.mem_append_left _ he⟩
  | regClosed => exact hh
  | _ =>
    refine hsame _ (by simp) (by simp) (by simp) (by simp) (by simp) ?_ (fun _ => by simp)
    intro p e he; cases p <;> simpa [UnderWay] using he

theorem honest {cfg : Cfg} {K : Outbound → Prop} (hK : ∀ o o', Confusable o o' → K o → K o') {as : List Act} {s : State}
    (h : HonestRun cfg (Distinct K) as s) : Honest K as s := by
  induction h with
  | nil => refine ⟨?_, ?_, fun _ => ⟨?_, ?_, ?_, ?_⟩⟩ <;> simp [init, freshConn]
           · intro p e he; cases p <;> simp [UnderWay, init, freshConn] at he
           · intro p e p' e' t he; cases p <;> simp [UnderWay, init, freshConn] at he
  | snoc hr hs ha hp ih => exact ih.step hK hr hs ha

end Neutron.Sys
