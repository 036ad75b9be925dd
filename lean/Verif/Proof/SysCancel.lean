import Verif.Proof.SysHonest
import Verif.Proof.SysStop

/-!
# Why a request is cancelled
-/

namespace Neutron.Sys

open Neutron

theorem byCall_key {i : Nat} {out : Outbound} (h : ByCall i out) : out.tryKey ≠ none := by
  obtain ⟨core, call, _, hr, rfl⟩ := h
  cases call <;> simp_all [Client.issue, Outbound.tryKey, Call.expectsResponse]

theorem put_dropped {r : Resolver} {o : Outbound} {t d : Nat} (hk : o.tryKey ≠ none) (h : d ∈ (r.put o t).2.toList) :
    ∃ k, o.tryKey = some k ∧ (k, d) ∈ r := by
  unfold Resolver.put at h
  cases hk : o.tryKey with
  | none => contradiction
  | some k =>
    simp only [hk, Option.mem_toList] at h
    exact ⟨k, rfl, mem_find h⟩

/-- A request the engine cancels without stopping is one whose place in the resolver another request takes. -/
theorem cancelled_step {cfg : Cfg} {s s' : State} {a : Act} (h : Reachable cfg s) (hs : step cfg s a = some s') (hm' : s'.mode ≠ .stopped)
    {t : Nat} (ht : (t, TokResult.cancelled) ∈ s'.outcomes) :
    (t, TokResult.cancelled) ∈ s.outcomes ∨ (∃ i auth net, a = .engOut i auth net) ∧ ∃ i cmd t' k, i < s.nClients ∧ cmd ∈ (s.clients i).queue ∧
      cmd.tok = some t' ∧ cmd.out.tryKey = some k ∧ (k, t) ∈ s.resolver := by
  have hend : ∀ i, engineEnd s i = false → s.mode = .stopped := by
    intro i he
    unfold engineEnd at he
    split at he
    · assumption
    · cases he
  have hms : ∀ (x : State) e b v, (t, TokResult.cancelled) ∈ (managerSend x e b v).outcomes → (t, TokResult.cancelled) ∈ x.outcomes := by
    intro x e b v
    unfold managerSend
    split
    · simp
    · exact id
  cases step_cases hs with
  | startOk net hm s2 h2 =>
    rcases h2 with ⟨rfl, _⟩ | ⟨_, rfl⟩
    · exact .inl ht
    · exact .inl (by simpa using ht)
  | out i auth net cmd q s'' hm hv ha hq he =>
    have key : (t, TokResult.cancelled) ∈ (takeCmd s i cmd q).outcomes → (t, TokResult.cancelled) ∈ s.outcomes ∨
        (∃ j au n, Act.engOut i auth net = .engOut j au n) ∧ ∃ i cmd t' k, i < s.nClients ∧ cmd ∈ (s.clients i).queue ∧ cmd.tok = some t' ∧
          cmd.out.tryKey = some k ∧ (k, t) ∈ s.resolver := by
      rw [takeCmd_outcomes]
      intro hx
      rcases List.mem_append.mp hx with hx | hx
      · exact .inl hx
      · cases htok : cmd.tok with
        | none => rw [htok] at hx; simp at hx
        | some t' =>
          rw [htok] at hx
          obtain ⟨d, hd, he⟩ := List.mem_map.mp hx
          cases he
          have hiss := (req h).pending i ((wf h).vecLt i hv) cmd (by rw [hq]; simp) t' htok
          obtain ⟨k, hk, hr⟩ := put_dropped (byCall_key ((req h).issued _ _ _ hiss).2) hd
          exact .inr ⟨⟨i, auth, net, rfl⟩, i, cmd, t', k, (wf h).vecLt i hv, by rw [hq]; simp, htok, hk, hr⟩
    cases he with
    | failed => exact absurd rfl hm'
    | lost => exact absurd rfl hm'
    | sent => exact key (by simpa using ht)
    | connecting c c2 b s3 j hc h2 hb hp => exact key (by simpa [hp.outcomes] using ht)
  | inb b e q s'' hm ha hv hq he =>
    cases he with
    | pingFailed => exact absurd rfl hm'
    | ping => exact .inl (by simpa using ht)
    | other => exact .inl (by simpa using hms _ _ _ _ ht)
  | connectOk r b x e hm hf => exact .inl (hms { s with mode := .idle } _ _ _ ht)
  | startFail | outGone | inLost | regClosedStop | noConn | connectLost | regFail => exact absurd rfl hm'
  | refuse i k cmd hi hk he => exact absurd (hend i he) hm'
  | freeQueue i hi hp he => exact absurd (hend i he) hm'
  | _ => exact .inl (by simpa using ht)

/-- While the engine has not stopped, a request is cancelled only by taking another one, outstanding at the same time, of the same key. -/
theorem cancels {cfg : Cfg} {s s' : State} {a : Act} (h : Reachable cfg s) (hs : step cfg s a = some s') (hm' : s'.mode ≠ .stopped)
    {t : Nat} (ht : (t, TokResult.cancelled) ∈ s'.outcomes) :
    (t, TokResult.cancelled) ∈ s.outcomes ∨ (∃ i auth net, a = .engOut i auth net) ∧ Outstanding s t ∧ ∃ t', Outstanding s t' ∧ t' ≠ t ∧
      ∃ i i' out out' k, s.issued[t]? = some (i, out) ∧ s.issued[t']? = some (i', out') ∧ out.tryKey = some k ∧ out'.tryKey = some k := by
  rcases cancelled_step h hs hm' ht with ho | ⟨ha, i, cmd, t', k, hi, hc, htok, hk, hres⟩
  · exact .inl ho
  · obtain ⟨i0, out, h1, h2⟩ := (req h).waiting k t hres
    have h3 := (req h).pending i hi cmd (by simp [hc]) t' htok
    have hq := queue_outstanding h hi hc htok
    refine .inr ⟨ha, waiting_outstanding h (List.mem_map.mpr ⟨_, hres, rfl⟩), t', hq.1, ?_, i0, i, out, cmd.out, k, h1, h3, h2, hk⟩
    rintro rfl
    exact hq.2 (List.mem_map.mpr ⟨_, hres, rfl⟩)

end Neutron.Sys
