import Verif.Proof.Session
import Verif.Proof.SysHonest
import Verif.Spec.Traces
import Verif.Props.Requests
import Verif.Props.Routing

/-!
# What the public calls do: C38/C81, C39/C82, C40, C45, C46/C86, C47/C87
-/

namespace Neutron.Props

open Neutron Neutron.Prog Neutron.Session Neutron.Sys Neutron.Trace

/-! ## C40 -/

theorem follows_call {c : Call} {cs : List Call} {tr : List Ev} (h : Steps (call c) tr) : Follows (c :: cs) tr := by
  rcases steps_call h with rfl | rfl | ⟨t, rfl⟩ | ⟨t, i, rfl⟩
  · exact .stop _
  · exact .refused _ _ _
  · exact .handed _ _ _
  · cases hr : c.resolve i with
    | ok r => exact .done _ _ _ _ _ (.stop _)
    | err e => exact .failed _ _ _ _
    | panic => exact absurd hr (resolve_not_panic _ _)

theorem follows_done {c : Call} {cs : List Call} {tr1 tr2 : List Ev} {r : Response} (h : Runs (call c) tr1 (.ok r))
    (h2 : Follows cs tr2) : Follows (c :: cs) (tr1 ++ tr2) := by
  obtain ⟨t, i, rfl, _⟩ := runs_call_ok h
  exact .done _ _ _ _ _ h2

theorem target_cons {tr1 tr2 : List Ev} {topic : String} {l : LookupTopicResponse}
    (h : Runs (call (.lookupTopic topic)) tr1 (.ok (.lookup l))) :
    target (tr1 ++ tr2) = if l.proxy then some l.brokerServiceUrl else none := by
  obtain ⟨t, i, rfl, _⟩ := runs_call_ok h
  rfl

theorem runs_lookup_call {topic : String} {tr : List Ev} {r : Response} (h : Runs (call (.lookupTopic topic)) tr (.ok r)) :
    ∃ l, r = .lookup l := by
  obtain ⟨t, i, _, h2⟩ := runs_call_ok h
  obtain ⟨l, rfl, _⟩ := resolve_lookup h2
  exact ⟨l, rfl⟩

theorem target_skip {tr1 tr2 : List Ev} {c : Call} {r : Response} (hc : ∀ topic, c ≠ .lookupTopic topic)
    (h : Runs (call c) tr1 (.ok r)) : target (tr1 ++ tr2) = target tr2 := by
  obtain ⟨t, i, rfl, h2⟩ := runs_call_ok h
  unfold target
  rw [lookups_append, lookups_call hc h2, List.nil_append]

/-- What `lookup_topic` does, from the first command to any point. -/
theorem steps_lookupTopic {topic : String} {rest : List Call} {tr : List Ev} (h : Steps (lookupTopic topic) tr) :
    Follows ((resolveScript topic (target tr)).tail ++ rest) tr := by
  unfold lookupTopic at h
  rcases steps_bind h with h | ⟨tr1, tr2, r, rfl, h1, h2⟩
  · exact follows_call h
  · obtain ⟨l, rfl⟩ := runs_lookup_call h1
    rw [target_cons h1]
    refine follows_done h1 ?_
    dsimp only at h2
    cases hty : l.responseType with
    | connect =>
      rw [hty] at h2
      dsimp only at h2
      cases hp : l.proxy with
      | true =>
        simp only [hp, if_true] at h2 ⊢
        rcases steps_bind h2 with h2 | ⟨tr3, tr4, r2, rfl, h3, h4⟩
        · exact follows_call h2
        · refine follows_done h3 ?_
          rcases steps_bind h4 with h4 | ⟨tr5, tr6, r3, rfl, h5, h6⟩
          · exact follows_call h4
          · refine follows_done h5 ?_
            rw [steps_pure] at h6
            subst h6
            exact .stop _
      | false =>
        rw [hp, if_neg (by simp), steps_pure] at h2
        subst h2
        exact .stop _
    | redirect => rw [hty, steps_ret] at h2; subst h2; exact .stop _
    | failed => rw [hty, steps_ret] at h2; subst h2; exact .stop _

/-- What a successful `lookup_topic` did, and what may follow. -/
theorem runs_lookupTopic_ok {topic : String} {rest : List Call} {tr tr2 : List Ev} (h : Runs (lookupTopic topic) tr (.ok ()))
    (h2 : Follows rest tr2) : Follows ((resolveScript topic (target (tr ++ tr2))).tail ++ rest) (tr ++ tr2) := by
  unfold lookupTopic at h
  rcases runs_bind.mp h with ⟨tr1, tr3, r, rfl, h1, h3⟩ | ⟨e, _, he⟩ | ⟨_, he⟩
  · obtain ⟨l, rfl⟩ := runs_lookup_call h1
    rw [List.append_assoc, target_cons h1]
    refine follows_done h1 ?_
    dsimp only at h3
    cases hty : l.responseType with
    | connect =>
      rw [hty] at h3
      dsimp only at h3
      cases hp : l.proxy with
      | true =>
        simp only [hp, if_true] at h3 ⊢
        rcases runs_bind.mp h3 with ⟨tr4, tr5, r2, rfl, h4, h5⟩ | ⟨e, _, he⟩ | ⟨_, he⟩
        · rw [List.append_assoc]
          refine follows_done h4 ?_
          rcases runs_bind.mp h5 with ⟨tr6, tr7, r3, rfl, h6, h7⟩ | ⟨e, _, he⟩ | ⟨_, he⟩
          · rw [List.append_assoc]
            refine follows_done h6 ?_
            rw [runs_pure] at h7
            rw [h7.1]
            exact h2
          all_goals exact absurd he (by simp)
        all_goals exact absurd he (by simp)
      | false =>
        rw [hp, if_neg (by simp), runs_pure] at h3
        rw [h3.1]
        simpa using h2
    | redirect => rw [hty, runs_ret] at h3; exact absurd h3.2 (by simp)
    | failed => rw [hty, runs_ret] at h3; exact absurd h3.2 (by simp)
  all_goals exact absurd he (by simp)

/-- Creating a producer: the commands follow the script - connect, lookup, (connect through the proxy to the broker the lookup
named, lookup,) producer - each one only after the response to the previous one, and nothing after a failure. -/
theorem C40_producer_order {topic : String} {tr : List Ev} (h : Steps (producerConnect topic) tr) :
    Follows (producerScript topic (target tr)) tr := by
  unfold producerConnect at h
  rcases steps_bind h with h | ⟨tr1, tr2, r, rfl, h1, h2⟩
  · exact follows_call h
  · rw [target_skip (by simp) h1]
    refine follows_done h1 ?_
    rcases steps_bind h2 with h2 | ⟨tr3, tr4, _, rfl, h3, h4⟩
    · exact steps_lookupTopic h2
    · refine runs_lookupTopic_ok h3 ?_
      rcases steps_bind h4 with h4 | ⟨tr5, tr6, r2, rfl, h5, h6⟩
      · exact follows_call h4
      · rw [steps_pure] at h6
        subst h6
        exact follows_done h5 (.stop _)

/-- Creating a consumer: connect, lookup, (connect through the proxy, lookup,) subscribe, flow. -/
theorem C40_consumer_order {topic subscription : String} {permits : UInt32} {tr : List Ev}
    (h : Steps (consumerConnect topic subscription permits) tr) :
    Follows (consumerScript topic subscription permits (target tr)) tr := by
  unfold consumerConnect at h
  rcases steps_bind h with h | ⟨tr1, tr2, r, rfl, h1, h2⟩
  · exact follows_call h
  · rw [target_skip (by simp) h1]
    refine follows_done h1 ?_
    rcases steps_bind h2 with h2 | ⟨tr3, tr4, _, rfl, h3, h4⟩
    · exact steps_lookupTopic h2
    · refine runs_lookupTopic_ok h3 ?_
      rcases steps_bind h4 with h4 | ⟨tr5, tr6, r2, rfl, h5, h6⟩
      · exact follows_call h4
      · refine follows_done h5 ?_
        rcases steps_bind h6 with h6 | ⟨tr7, tr8, r3, rfl, h7, h8⟩
        · rcases steps_handOver h6 with rfl | ⟨o, rfl, rfl | ⟨t, rfl⟩⟩
          · exact .stop _
          · exact .refused _ _ _
          · exact .handed _ _ _
        · rw [steps_pure] at h8
          subst h8
          rw [runs_handOver] at h7
          obtain ⟨rfl, _⟩ := h7
          exact .handed _ _ _

/-- How `lookup_topic` ends. -/
theorem runs_lookupTopic {topic : String} {tr : List Ev} {o : Outcome Unit} (h : Runs (lookupTopic topic) tr o) :
    (o = .ok () ∧ calls tr = (resolveScript topic (target tr)).tail ∧ failure tr = none ∧
      ∃ l, (lookups tr).head? = some l ∧ l.responseType = .connect) ∨
    (∃ e, o = .err e ∧ failure tr = some e) ∨
    (∃ l, (lookups tr) = [l] ∧ (o = .err .connectionFailed ∧ l.responseType = .failed ∨ o = .panic ∧ l.responseType = .redirect) ∧
      failure tr = none ∧ calls tr = [.lookupTopic topic]) := by
  unfold lookupTopic at h
  rcases runs_bind.mp h with ⟨tr1, tr3, r, rfl, h1, h3⟩ | ⟨e, he, rfl⟩ | ⟨hp, _⟩
  · obtain ⟨l, rfl⟩ := runs_lookup_call h1
    rw [target_cons h1]
    have h1' := h1
    obtain ⟨t, i, rfl, _⟩ := runs_call_ok h1
    dsimp only at h3
    cases hty : l.responseType with
    | connect =>
      rw [hty] at h3
      dsimp only at h3
      cases hp : l.proxy with
      | true =>
        simp only [hp, if_true] at h3 ⊢
        rcases runs_bind.mp h3 with ⟨tr4, tr5, r2, rfl, h4, h5⟩ | ⟨e, he, rfl⟩ | ⟨hx, _⟩
        · obtain ⟨t2, i2, rfl, _⟩ := runs_call_ok h4
          rcases runs_bind.mp h5 with ⟨tr6, tr7, r3, rfl, h6, h7⟩ | ⟨e, he, rfl⟩ | ⟨hx, _⟩
          · obtain ⟨t3, i3, rfl, _⟩ := runs_call_ok h6
            rw [runs_pure] at h7
            obtain ⟨rfl, rfl⟩ := h7
            exact .inl ⟨rfl, rfl, rfl, l, rfl, hty⟩
          · refine .inr (.inl ⟨e, rfl, ?_⟩)
            have hne : tr5 ≠ [] := by rintro rfl; exact absurd (runs_call_err he) (by simp [failure])
            rw [failure_append (by simp), failure_append hne]
            exact runs_call_err he
          · exact (runs_call_panic hx).elim
        · refine .inr (.inl ⟨e, rfl, ?_⟩)
          have hne : tr3 ≠ [] := by rintro rfl; exact absurd (runs_call_err he) (by simp [failure])
          rw [failure_append hne]
          exact runs_call_err he
        · exact (runs_call_panic hx).elim
      | false =>
        rw [hp, if_neg (by simp), runs_pure] at h3
        obtain ⟨rfl, rfl⟩ := h3
        exact .inl ⟨rfl, rfl, rfl, l, rfl, hty⟩
    | redirect =>
      rw [hty, runs_ret] at h3
      obtain ⟨rfl, rfl⟩ := h3
      exact .inr (.inr ⟨l, rfl, .inr ⟨rfl, hty⟩, rfl, rfl⟩)
    | failed =>
      rw [hty, runs_ret] at h3
      obtain ⟨rfl, rfl⟩ := h3
      exact .inr (.inr ⟨l, rfl, .inl ⟨rfl, hty⟩, rfl, rfl⟩)
  · exact .inr (.inl ⟨e, rfl, runs_call_err he⟩)
  · exact (runs_call_panic hp).elim

/-- How creating a client ends: with `Ok` after the whole script; with the error of the step that failed; or because the first
lookup was refused (`ConnectionFailed`, or a panic for a redirect), which ends the script there. -/
inductive Ending (script : List Call) (topic : String) (tr : List Ev) : Outcome Unit → Prop where
  | ok (h : calls tr = script) (hf : failure tr = none) : Ending script topic tr (.ok ())
  | failed (e : NeutronError) (h : failure tr = some e) : Ending script topic tr (.err e)
  | refused (l : LookupTopicResponse) (h : lookups tr = [l]) (hl : l.responseType = .failed)
      (hc : calls tr = [.connect, .lookupTopic topic]) : Ending script topic tr (.err .connectionFailed)
  | redirected (l : LookupTopicResponse) (h : lookups tr = [l]) (hl : l.responseType = .redirect)
      (hc : calls tr = [.connect, .lookupTopic topic]) : Ending script topic tr .panic

theorem failure_ne {tr : List Ev} {e : NeutronError} (h : failure tr = some e) : tr ≠ [] := by
  rintro rfl; exact absurd h (by simp [failure])

theorem C40_producer_result {topic : String} {tr : List Ev} {o : Outcome Unit} (h : Runs (producerConnect topic) tr o) :
    Ending (producerScript topic (target tr)) topic tr o := by
  unfold producerConnect at h
  rcases runs_bind.mp h with ⟨tr1, tr2, r, rfl, h1, h2⟩ | ⟨e, he, rfl⟩ | ⟨hp, _⟩
  · rw [target_skip (by simp) h1]
    obtain ⟨t, i, rfl, hi⟩ := runs_call_ok h1
    have hl := lookups_call (c := .connect) (t := t) (by simp) hi
    rcases runs_bind.mp h2 with ⟨tr3, tr4, _, rfl, h3, h4⟩ | ⟨e, he, rfl⟩ | ⟨hp, rfl⟩
    · rcases runs_lookupTopic h3 with ⟨_, hc, hf, l, hl1, hl2⟩ | ⟨e, he, _⟩ | ⟨l, _, ⟨he, _⟩ | ⟨he, _⟩, _⟩
      · have htg : target (tr3 ++ tr4) = target tr3 := by
          unfold target
          rw [lookups_append]
          cases hx : lookups tr3 with
          | nil => rw [hx] at hl1; simp at hl1
          | cons y ys => rfl
        rw [htg]
        rcases runs_bind.mp h4 with ⟨tr5, tr6, r2, rfl, h5, h6⟩ | ⟨e, he, rfl⟩ | ⟨hp, _⟩
        · rw [runs_pure] at h6
          obtain ⟨rfl, rfl⟩ := h6
          obtain ⟨t5, i5, rfl, _⟩ := runs_call_ok h5
          refine .ok ?_ ?_
          · simp only [calls_append, hc]
            rfl
          · rw [failure_append (by simp), failure_append (by simp)]
            rfl
        · have := runs_call_err he
          exact .failed e (by rw [failure_append (by simp [failure_ne this]), failure_append (failure_ne this), this])
        · exact (runs_call_panic hp).elim
      all_goals exact absurd he (by simp)
    · rcases runs_lookupTopic he with ⟨hx, _⟩ | ⟨e', hx, hf⟩ | ⟨l, hl1, ⟨hx, hty⟩ | ⟨hx, _⟩, _, hc⟩
      · exact absurd hx (by simp)
      · cases hx
        exact .failed e (by rw [failure_append (failure_ne hf), hf])
      · cases hx
        refine .refused l ?_ hty ?_
        · rw [lookups_append, hl, hl1, List.nil_append]
        · rw [calls_append, hc]; rfl
      · exact absurd hx (by simp)
    · rcases runs_lookupTopic hp with ⟨hx, _⟩ | ⟨e', hx, hf⟩ | ⟨l, hl1, ⟨hx, hty⟩ | ⟨_, hty⟩, _, hc⟩
      · exact absurd hx (by simp)
      · exact absurd hx (by simp)
      · exact absurd hx (by simp)
      · refine .redirected l ?_ hty ?_
        · rw [lookups_append, hl, hl1, List.nil_append]
        · rw [calls_append, hc]; rfl
  · exact .failed e (runs_call_err he)
  · exact (runs_call_panic hp).elim

theorem C40_consumer_result {topic subscription : String} {permits : UInt32} {tr : List Ev} {o : Outcome Unit}
    (h : Runs (consumerConnect topic subscription permits) tr o) :
    Ending (consumerScript topic subscription permits (target tr)) topic tr o := by
  unfold consumerConnect at h
  rcases runs_bind.mp h with ⟨tr1, tr2, r, rfl, h1, h2⟩ | ⟨e, he, rfl⟩ | ⟨hp, _⟩
  · rw [target_skip (by simp) h1]
    obtain ⟨t, i, rfl, hi⟩ := runs_call_ok h1
    have hl := lookups_call (c := .connect) (t := t) (by simp) hi
    rcases runs_bind.mp h2 with ⟨tr3, tr4, _, rfl, h3, h4⟩ | ⟨e, he, rfl⟩ | ⟨hp, rfl⟩
    · rcases runs_lookupTopic h3 with ⟨_, hc, hf, l, hl1, hl2⟩ | ⟨e, he, _⟩ | ⟨l, _, ⟨he, _⟩ | ⟨he, _⟩, _⟩
      · have htg : target (tr3 ++ tr4) = target tr3 := by
          unfold target
          rw [lookups_append]
          cases hx : lookups tr3 with
          | nil => rw [hx] at hl1; simp at hl1
          | cons y ys => rfl
        rw [htg]
        rcases runs_bind.mp h4 with ⟨tr5, tr6, r2, rfl, h5, h6⟩ | ⟨e, he, rfl⟩ | ⟨hp, _⟩
        · obtain ⟨t5, i5, rfl, _⟩ := runs_call_ok h5
          rcases runs_bind.mp h6 with ⟨tr7, tr8, r3, rfl, h7, h8⟩ | ⟨e, he, rfl⟩ | ⟨hp, _⟩
          · rw [runs_pure] at h8
            obtain ⟨rfl, rfl⟩ := h8
            rw [runs_handOver] at h7
            obtain ⟨rfl, _⟩ := h7
            refine .ok ?_ ?_
            · simp only [calls_append, hc]
              rfl
            · rw [failure_append (by simp), failure_append (by simp), failure_append (by simp)]
              rfl
          · rw [runs_handOver] at he
            obtain ⟨rfl, _⟩ := he
            exact .failed e (by rw [failure_append (by simp), failure_append (by simp), failure_append (by simp)]; rfl)
          · rw [runs_handOver] at hp
            rcases hp.2 with hx | ⟨_, hx⟩ <;> exact absurd hx (by simp)
        · have := runs_call_err he
          exact .failed e (by rw [failure_append (by simp [failure_ne this]), failure_append (failure_ne this), this])
        · exact (runs_call_panic hp).elim
      all_goals exact absurd he (by simp)
    · rcases runs_lookupTopic he with ⟨hx, _⟩ | ⟨e', hx, hf⟩ | ⟨l, hl1, ⟨hx, hty⟩ | ⟨hx, _⟩, _, hc⟩
      · exact absurd hx (by simp)
      · cases hx
        exact .failed e (by rw [failure_append (failure_ne hf), hf])
      · cases hx
        refine .refused l ?_ hty ?_
        · rw [lookups_append, hl, hl1, List.nil_append]
        · rw [calls_append, hc]; rfl
      · exact absurd hx (by simp)
    · rcases runs_lookupTopic hp with ⟨hx, _⟩ | ⟨e', hx, hf⟩ | ⟨l, hl1, ⟨hx, hty⟩ | ⟨_, hty⟩, _, hc⟩
      · exact absurd hx (by simp)
      · exact absurd hx (by simp)
      · exact absurd hx (by simp)
      · refine .redirected l ?_ hty ?_
        · rw [lookups_append, hl, hl1, List.nil_append]
        · rw [calls_append, hc]; rfl
  · exact .failed e (runs_call_err he)
  · exact (runs_call_panic hp).elim

end Neutron.Props
