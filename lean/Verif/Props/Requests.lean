import Verif.Proof.SysRun
import Verif.Spec.Traces

/-!
# Requests and their completion: C18, C19, C20, C24
-/

namespace Neutron.Props

open Neutron Neutron.Sys Neutron.Trace

/-! ## C18 -/

theorem whereabouts_eq (s : State) : whereabouts s = allToks s := by
  simp [whereabouts, allToks, withClient, pendingToks, toks]
  rfl

/-- At every moment every request ever made is in exactly one place - with its client, waiting for its response, completed -
and nothing else is in any of those places. -/
theorem C18_exactly_one_place {cfg : Cfg} {s : State} (h : Reachable cfg s) :
    (whereabouts s).Perm (List.range s.issued.length) := by
  rw [whereabouts_eq]; exact allToks_perm h

/-- The same, counted: one place each; in particular no request completes twice. -/
theorem C18_count {cfg : Cfg} {s : State} (h : Reachable cfg s) (t : Nat) (ht : t < s.issued.length) :
    (whereabouts s).count t = 1 ∧ (s.outcomes.map (·.1)).count t ≤ 1 := by
  have h1 : (whereabouts s).count t = 1 := by
    rw [(C18_exactly_one_place h).count_eq]
    rw [List.nodup_range.count]; simp [ht]
  refine ⟨h1, ?_⟩
  unfold whereabouts at h1
  rw [List.count_append] at h1
  omega

/-- Completions are final: how a request ended never changes and is never removed. -/
theorem C18_final {cfg : Cfg} {s s' : State} {a : Act} (hs : step cfg s a = some s') : s.outcomes <+: s'.outcomes :=
  outcomes_step hs

/-- The requests are exactly the calls that expect a response: such a call adds one request, with the call's command, and
nothing else adds or changes any. -/
theorem C18_requests_are_calls {cfg : Cfg} {s s' : State} {a : Act} (hs : step cfg s a = some s') :
    s'.issued = s.issued ++ match a with
      | .beginCall i call => if call.expectsResponse then [(i, ((s.clients i).core.issue call).2)] else []
      | _ => [] := by
  cases step_cases hs with
  | startOk net hm s2 h2 => rcases h2 with ⟨rfl, hb⟩ | ⟨hb, rfl⟩ <;> simp
  | out i auth net cmd q s' hm hv ha hq he =>
    cases he with
    | lost c c2 b s3 hcc h2 hb hp => simp [hp.issued]
    | connecting c c2 b s3 j hcc h2 hb hp hj ha hl => simp [hp.issued]
    | _ => simp
  | inb b e q s' hm ha hv hq he => cases he <;> simp
  | request i call hi hp hr => simp [hr]
  | oneway i call hi hp hr => simp [hr]
  | _ => simp

/-- Four requests of two clients - one being handed over, one queued, one waiting, one completed. (The hypotheses of C18_exactly_one_place,
C18_count, C18_final and C18_requests_are_calls are met.) -/
example : ∃ s, Reachable cfg0 s ∧ s.issued.length = 4 ∧ withClient s 0 = [3] ∧ withClient s 1 = [2] ∧
    s.resolver.map (·.2) = [1] ∧ s.outcomes.map (·.1) = [0] := by
  obtain ⟨s, hr, ho⟩ := reachable_obs (f := fun s => (s.issued.length, withClient s 0, withClient s 1, s.resolver.map (·.2), s.outcomes.map (·.1)))
    (as := boot ++ join 0 ++ join 1 ++ ask 0 (.sendMessage [1]) ++ ask 0 (.sendMessage [2]) ++ say b0 (receiptC 0 0) (some 0) ++
      [.beginCall 1 (.lookupTopic "t"), .submit 1 0, .beginCall 0 (.ack [])]) (x := (4, [3], [2], [1], [0])) (by rfl)
  simp only [Prod.mk.injEq] at ho
  exact ⟨s, ⟨_, hr⟩, ho⟩

/-! ## C19 -/

theorem answers_of_key {i : Nat} {out : Outbound} {inb : Inbound} {k : Key} (hb : ByCall i out) (h1 : out.tryKey = some k)
    (h2 : inb.tryKey = some k) : Answers out inb := by
  obtain ⟨core, call, _, hr, rfl⟩ := hb
  cases call <;> simp only [Client.issue, Outbound.tryKey, Option.some.injEq] at h1 <;> subst h1 <;>
    cases inb <;> simp_all [Inbound.tryKey, Answers, Client.issue, Send.sequenceId, Call.expectsResponse]

/-- A request that completed successfully got a response of the kind it asks for; a send got the receipt for its own
sequence id. -/
theorem C19_response_kind {cfg : Cfg} {s : State} (h : Reachable cfg s) {t : Nat} {e : Event}
    (ho : (t, TokResult.resolved e) ∈ s.outcomes) :
    ∃ i out, s.issued[t]? = some (i, out) ∧ Answers out e.inb := by
  obtain ⟨i, out, k, h1, h2, h3⟩ := (req h).done t e ho
  exact ⟨i, out, h1, answers_of_key ((req h).issued t i out h1).2 h2 h3⟩

/-- So the call that made the request returns that response, its fields unchanged, and never `Unresolvable`: whatever call on
whatever client it was. -/
theorem C19_never_unresolvable {cfg : Cfg} {s : State} (h : Reachable cfg s) {t i : Nat} {e : Event} {core : Client} {call : Call}
    (ho : (t, TokResult.resolved e) ∈ s.outcomes) (hi : s.issued[t]? = some (i, (core.issue call).2))
    (hr : call.expectsResponse = true) : ∃ r, call.resolve (some e.inb) = .ok r ∧ r.inbound = e.inb := by
  obtain ⟨i', out, h1, h2⟩ := C19_response_kind h ho
  rw [hi] at h1
  simp only [Option.some.injEq, Prod.mk.injEq] at h1
  obtain ⟨rfl, rfl⟩ := h1
  cases call <;> simp only [Client.issue] at h2 <;> cases hin : e.inb <;>
    simp_all [Answers, Call.resolve, Call.accept, Call.expectsResponse, Response.inbound]

/-- A lookup and a send that completed, with their responses. (The hypotheses of C19_response_kind, C19_never_unresolvable and, for the receipt, C20_unchanged are met.) -/
example : ∃ s e e', Reachable cfg0 s ∧ (1, TokResult.resolved e) ∈ s.outcomes ∧ (0, TokResult.resolved e') ∈ s.outcomes ∧
    s.issued[0]? = some (0, .send (.single "c" 0 0 [1])) ∧ s.issued[1]? = some (0, .lookupTopic ⟨0, "t"⟩) ∧
    e.inb = .lookupTopicResponse ⟨0, "u", "", .connect, false, false⟩ ∧
    e'.inb = .sendReceipt ⟨0, 0, Proto.newMsg Proto.pulsar .messageIdData⟩ := by
  obtain ⟨s, hr, ho⟩ := reachable_obs (f := fun s => (s.outcomes, s.issued))
    (as := boot ++ join 0 ++ ask 0 (.sendMessage [1]) ++ ask 0 (.lookupTopic "t") ++ say b0 (lookupC 0 "u" 1 false) (some 1) ++
      say b0 (receiptC 0 0) (some 0))
    (x := ([(1, .resolved ⟨.lookupTopicResponse ⟨0, "u", "", .connect, false, false⟩, some 1⟩),
            (0, .resolved ⟨.sendReceipt ⟨0, 0, Proto.newMsg Proto.pulsar .messageIdData⟩, some 0⟩)],
           [(0, .send (.single "c" 0 0 [1])), (0, .lookupTopic ⟨0, "t"⟩)])) (by rfl)
  simp only [Prod.mk.injEq] at ho
  refine ⟨s, ⟨.lookupTopicResponse ⟨0, "u", "", .connect, false, false⟩, some 1⟩,
    ⟨.sendReceipt ⟨0, 0, Proto.newMsg Proto.pulsar .messageIdData⟩, some 0⟩, ⟨_, hr⟩, ?_, ?_, ?_, ?_, rfl, rfl⟩
  · rw [ho.1]; exact List.mem_cons_self
  · rw [ho.1]; exact List.mem_cons_of_mem _ List.mem_cons_self
  · rw [ho.2]; rfl
  · rw [ho.2]; rfl

/-- The model's keys stand for the strings of the code: different keys are different strings. -/
theorem C19_keys_faithful {k k' : Key} (h : k.render = k'.render) : k = k' := by
  have hl := congrArg String.toList h
  cases k <;> cases k' <;> first
    | rfl
    | (exfalso; simp [Key.render] at hl; done)
    | (simp only [Key.render, String.toList_append] at hl
       have h2 := List.append_cancel_left hl
       rw [Nat.toList_repr, Nat.toList_repr] at h2
       have h3 := congrArg (fun l => Nat.ofDigitChars 10 l 0) h2
       simp only [Nat.ofDigitChars_ten_toDigits] at h3
       rw [UInt64.toNat_inj.mp h3])

/-! ## C20 -/

/-- A successful completion came from a broker: during the run some broker's socket delivered a command which, apart from the
`proxy` flag the engine clears in lookup responses, is the response the caller got. -/
theorem C20_from_broker {cfg : Cfg} {as : List Act} {s : State} (h : Run cfg as s) {t : Nat} {e : Event}
    (ho : (t, TokResult.resolved e) ∈ s.outcomes) :
    ∃ b inb, ReadFrom as b inb e.answers ∧ (e.inb = inb ∨ e.inb = adjust b inb) ∧
      ∃ i out, s.issued[t]? = some (i, out) ∧ Answers out inb := by
  have hr : Reachable cfg s := ⟨_, h⟩
  have h1 : (t, e) ∈ successes s.outcomes := by
    unfold successes; rw [List.mem_filterMap]; exact ⟨_, ho, rfl⟩
  rw [(evt hr).done] at h1
  unfold completedBy at h1
  rw [List.mem_filterMap] at h1
  obtain ⟨d, hd, hde⟩ := h1
  have hev : d.event = e := by
    split at hde
    · simp only [Option.some.injEq, Prod.mk.injEq] at hde; exact hde.2
    · exact absurd hde (by simp)
  obtain ⟨i, out, hi, ha⟩ := C19_response_kind hr ho
  cases hv : d.viaConnect with
  | true =>
    have := (rep hr).via d hd hv
    rw [hev] at this
    exact ⟨d.broker, e.inb, run_reads h _ _ (.inr this), .inl rfl, i, out, hi, ha⟩
  | false =>
    have h2 : e ∈ handledOf s.dispatches d.broker := by
      unfold handledOf; rw [List.mem_filterMap]; exact ⟨d, hd, by simp [hv, hev]⟩
    rw [(evt hr).conn, List.mem_map] at h2
    obtain ⟨e0, he0, hadj⟩ := h2
    have h3 := run_reads h d.broker e0 (.inl (by rw [((conn hr).ok _).events]; exact List.mem_append_left _ he0))
    refine ⟨d.broker, e0.inb, ?_, .inr ?_, i, out, hi, ?_⟩
    · rw [← hadj]; exact h3
    · rw [← hadj]; rfl
    · rw [← hadj] at ha
      simp only [adjustEvent] at ha
      cases he : e0.inb <;> simp only [he, adjust] at ha <;> first
        | exact ha
        | (cases out <;> simp only [Answers] at ha ⊢)

/-- The text a lookup response's broker is compared with: the URL of the connection, followed for a connection through a proxy by an
arrow and the broker behind it. -/
def connectionName : BrokerAddress → String
  | .direct url => url
  | .proxy url broker => url ++ " -> " ++ broker

theorem display_name (b : BrokerAddress) : b.display = connectionName b := by cases b <;> rfl

/-- A response other than a lookup's reaches the caller exactly as a broker sent it. -/
theorem C20_unchanged {cfg : Cfg} {as : List Act} {s : State} (h : Run cfg as s) {t : Nat} {e : Event}
    (ho : (t, TokResult.resolved e) ∈ s.outcomes) (hl : ∀ l, e.inb ≠ .lookupTopicResponse l) :
    ∃ b, ReadFrom as b e.inb e.answers := by
  obtain ⟨b, inb, hr, he, _⟩ := C20_from_broker h ho
  refine ⟨b, ?_⟩
  rcases he with he | he
  · rw [he]; exact hr
  · cases inb <;> simp only [adjust] at he <;> first | (rw [he]; exact hr) | exact absurd he (hl _)

/-- A lookup response reaches the caller as a broker sent it, except that its proxy flag is cleared if the broker named in it is the
connection it came from. -/
theorem C20_lookup {cfg : Cfg} {as : List Act} {s : State} (h : Run cfg as s) {t : Nat} {e : Event}
    (ho : (t, TokResult.resolved e) ∈ s.outcomes) {l : LookupTopicResponse} (hl : e.inb = .lookupTopicResponse l) :
    ∃ b l0, ReadFrom as b (.lookupTopicResponse l0) e.answers ∧ l = { l0 with proxy := l.proxy } ∧
      (l.proxy = true ↔ l0.proxy = true ∧ l0.brokerServiceUrl ≠ connectionName b) := by
  have hr : Reachable cfg s := ⟨_, h⟩
  have h1 : (t, e) ∈ successes s.outcomes := by
    unfold successes; rw [List.mem_filterMap]; exact ⟨_, ho, rfl⟩
  rw [(evt hr).done] at h1
  unfold completedBy at h1
  rw [List.mem_filterMap] at h1
  obtain ⟨d, hd, hde⟩ := h1
  have hev : d.event = e := by
    split at hde
    · simp only [Option.some.injEq, Prod.mk.injEq] at hde; exact hde.2
    · exact absurd hde (by simp)
  cases hv : d.viaConnect with
  | true =>
    have := (rep hr).connected _ _ ((rep hr).via d hd hv)
    rw [hev, hl] at this
    cases this
  | false =>
    have h2 : e ∈ handledOf s.dispatches d.broker := by
      unfold handledOf; rw [List.mem_filterMap]; exact ⟨d, hd, by simp [hv, hev]⟩
    rw [(evt hr).conn, List.mem_map] at h2
    obtain ⟨e0, he0, hadj⟩ := h2
    have h3 := run_reads h d.broker e0 (.inl (by rw [((conn hr).ok _).events]; exact List.mem_append_left _ he0))
    rw [← hadj] at hl
    have ha : e0.answers = e.answers := by rw [← hadj]; rfl
    rw [ha] at h3
    simp only [adjustEvent] at hl
    cases hi : e0.inb <;> rw [hi] at hl <;> simp only [adjust] at hl <;> first | cases hl | skip
    rename_i l0
    refine ⟨d.broker, l0, hi ▸ h3, rfl, ?_⟩
    rw [display_name]
    simp

/-- The configured broker answers two lookups with the proxy flag set: the one naming itself loses the flag. (The hypotheses of
C20_from_broker and C20_lookup are met.) -/
example : (go (boot ++ join 0 ++ ask 0 (.lookupTopic "t") ++ say b0 (lookupC 0 "pulsar://a:6650" 1 true) (some 0) ++
      ask 0 (.lookupTopic "t") ++ say b0 (lookupC 1 "pulsar://z:1" 1 true) (some 1))).map (fun s => s.outcomes.map fun p => match p.2 with
        | .resolved ⟨.lookupTopicResponse l, _⟩ => (l.brokerServiceUrl, l.proxy)
        | _ => ("", false)) =
    some [("pulsar://a:6650", false), ("pulsar://z:1", true)] := by rfl

end Neutron.Props
