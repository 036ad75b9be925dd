import Verif.Props.Calls

/-!
# Acknowledging one message: C69/C96
-/

namespace Neutron.Props

open Neutron Neutron.Prog Neutron.Session Neutron.Sys Neutron.Trace

/-- `ack` returns `Ok` only after an acknowledgement response was read from a broker's socket and completed this request, which
carries exactly the given message id; otherwise it returns `ChannelTerminated`, and then the engine was gone or the request failed
because the engine stopped (or because another acknowledgement took its place, see C22).  Not claimed: that the
response carries no error (C96) and is the response to this acknowledgement (C22). -/
theorem C69_answered {cfg : Cfg} {as : List Act} {s : State} (h : Run cfg as s) {i : Nat} {id : MessageId} {tr : List Ev}
    {o : Outcome Unit} (hr : Runs (ack id) tr o) (hf : ∀ ev, ev ∈ tr → Fits s i ev) :
    (∃ t, o = .ok () ∧ AckConfirmed as s i t id) ∨
    (o = .err .channelTerminated ∧ (tr = [.handed (.ack id) (.err .channelTerminated)] ∨
      ∃ t consumer req, s.issued[t]? = some (i, .ack [⟨consumer, id, req⟩]) ∧ (t, TokResult.cancelled) ∈ s.outcomes)) := by
  have key : ∀ {tr x}, Runs (call (.ack id)) tr x → (∀ ev, ev ∈ tr → Fits s i ev) →
      (∃ t, (∃ r, x = .ok r) ∧ AckConfirmed as s i t id) ∨
      (x = .err .channelTerminated ∧ (tr = [.handed (.ack id) (.err .channelTerminated)] ∨
        ∃ t consumer req, s.issued[t]? = some (i, .ack [⟨consumer, id, req⟩]) ∧ (t, TokResult.cancelled) ∈ s.outcomes)) := by
    intro tr x hr hf
    rcases runs_call.mp hr with ⟨rfl, rfl⟩ | ⟨t, inp, rfl, rfl⟩
    · exact .inr ⟨rfl, .inl rfl⟩
    · obtain ⟨core, hc⟩ := hf (.handed (.ack id) (.ok t)) (by simp) rfl
      obtain ⟨res, hres, hreq⟩ := hf (.waited t (.ack id) (Call.resolve (.ack id) inp)) (by simp)
      rw [hreq]
      cases res with
      | cancelled => exact .inr ⟨rfl, .inr ⟨t, _, _, hc, hres⟩⟩
      | resolved e =>
        obtain ⟨r, hok, _⟩ := C19_never_unresolvable ⟨_, h⟩ hres hc rfl
        exact .inl ⟨t, ⟨r, hok⟩, ackConfirmed_of_ok h hc hres⟩
  unfold ack at hr
  rcases runs_bind.mp hr with ⟨tr1, tr2, r, rfl, h1, h2⟩ | ⟨e, he, rfl⟩ | ⟨hp, _⟩
  · rw [runs_pure] at h2
    obtain ⟨rfl, rfl⟩ := h2
    rw [List.append_nil] at hf ⊢
    rcases key h1 hf with ⟨t, _, g2⟩ | ⟨g1, _⟩
    · exact .inl ⟨t, rfl, g2⟩
    · exact absurd g1 (by simp)
  · rcases key he hf with ⟨t, ⟨r, hr⟩, g2⟩ | ⟨g1, g2⟩
    · exact absurd hr (by simp)
    · cases g1; exact .inr ⟨rfl, g2⟩
  · exact (runs_call_panic hp).elim

/-- An acknowledgement response in which the broker reports an error (`error`, field 4, and `message`, field 5). -/
def ackErrorC (consumer req : UInt64) (code : Int) (text : String) : MessageCommand :=
  ⟨baseCommand 38 38 (Neutron.mkMsg .commandAckResponse
    [(1, vU64 consumer), (4, [.int code]), (5, vStr text), (6, vU64 req)]), none⟩

/-- The error in an acknowledgement response is not looked at: whatever it is, the client sees what it sees without it. -/
theorem C96_refuted_error_ignored (consumer req : UInt64) (code : Int) (text : String) :
    Inbound.ofCommand (ackErrorC consumer req code text) = .ok (.ackReciept ⟨consumer, req⟩) ∧
    Inbound.ofCommand (ackErrorC consumer req code text) = Inbound.ofCommand (ackC consumer req) := by
  have h : ∀ n : UInt64, UInt64.ofNat ((n.toNat : Int)).toNat = n := by simp
  constructor
  · show Outcome.ok (Inbound.ackReciept ⟨UInt64.ofNat ((consumer.toNat : Int)).toNat, UInt64.ofNat ((req.toNat : Int)).toNat⟩) = _
    rw [h, h]
  · rfl

/-- So an acknowledgement the broker rejects is reported as successful. -/
theorem C96_refuted : ∃ as s, Run cfg0 as s ∧ ReadFrom as b0 (.ackReciept ⟨0, 0⟩) (some 0) ∧
    (∀ v t, Act.connRead b0 (.command v t) ∈ as → v = ackErrorC 0 0 1 "no") ∧
    Runs (ack []) [.handed (.ack []) (.ok 0), .waited 0 (.ack []) (.ok (.ack ⟨0, 0⟩))] (.ok ()) ∧
    Fits s 0 (.handed (.ack []) (.ok 0)) ∧ Fits s 0 (.waited 0 (.ack []) (.ok (.ack ⟨0, 0⟩))) := by
  obtain ⟨s, hr, ho⟩ := reachable_obs (f := fun s => (s.outcomes, s.issued))
    (as := boot ++ join 0 ++ ask 0 (.ack []) ++ say b0 (ackErrorC 0 0 1 "no") (some 0))
    (x := ([(0, .resolved ⟨.ackReciept ⟨0, 0⟩, some 0⟩)], [(0, .ack [⟨0, [], 0⟩])])) (by rfl)
  simp only [Prod.mk.injEq] at ho
  refine ⟨_, s, hr, ⟨ackErrorC 0 0 1 "no", ?_, rfl⟩, ?_, ?_, fun _ => ⟨⟨0, "c", 0, 0⟩, by rw [ho.2]; rfl⟩,
    ⟨.resolved ⟨.ackReciept ⟨0, 0⟩, some 0⟩, by rw [ho.1]; exact List.mem_cons_self, rfl⟩⟩
  · simp [say]
  · intro v t hv
    simp only [boot, join, ask, say, List.mem_append, List.mem_cons, List.not_mem_nil, or_false] at hv
    have : v = ackErrorC 0 0 1 "no" ∧ t = some 0 := by simpa using hv
    exact this.1
  · exact .hand _ _ _ _ _ (.handed _ 0) <| .wait _ _ _ _ _ _ (.waited 0 _ (some (.ackReciept ⟨0, 0⟩))) <| .ret _

end Neutron.Props
