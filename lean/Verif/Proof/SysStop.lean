import Verif.Proof.SysMade

/-!
# Stopping, dropping, registering
-/

namespace Neutron.Sys

open Neutron

/-- A stopped engine holds no pending requests. -/
theorem stopped_resolver {cfg : Cfg} {s : State} (h : Reachable cfg s) (hm : s.mode = .stopped) : s.resolver = [] := by
  refine h.induct (P := fun s => s.mode = .stopped → s.resolver = []) (fun hx => by simp [init]) ?_ hm
  intro s a s' hr ih hs hm'
  have hms : ∀ (t : State) e b v, t.mode = .stopped → t.resolver = [] → (managerSend t e b v).resolver = [] := by
    intro t e b v _ h; unfold managerSend Resolver.tryResolve; rw [h]; split
    · rename_i hh; split at hh <;> simp_all [Resolver.find]
    · rfl
  cases step_cases hs with
  | startOk net hm s2 h2 => simp at hm'
  | out j auth net cmd q s'' hm hv ha hq he =>
    cases he with
    | failed => rfl
    | lost => rfl
    | sent => simp [hm] at hm'
    | connecting => simp at hm'
  | inb b e q s'' hm ha hv hq he =>
    cases he with
    | pingFailed => rfl
    | ping => simp [hm] at hm'
    | other => simp [hm] at hm'
  | connectOk => simp at hm'
  | startFail | outGone | inLost | regClosedStop | noConn | connectLost | regFail => rfl
  | _ => simpa using ih (by simpa using hm')

/-- In the step in which the engine stops, every request it had pending is cancelled. -/
theorem stop_cancels {cfg : Cfg} {s s' : State} {a : Act} (hs : step cfg s a = some s') (hm : s.mode ≠ .stopped)
    (hm' : s'.mode = .stopped) {k : Key} {t : Nat} (ht : (k, t) ∈ s.resolver) : (t, TokResult.cancelled) ∈ s'.outcomes := by
  have hst : ∀ x : State, (∃ k, (k, t) ∈ x.resolver) ∨ (t, TokResult.cancelled) ∈ x.outcomes →
      (t, TokResult.cancelled) ∈ (stop x).outcomes := by
    intro x hx
    rw [stop_outcomes, List.mem_append]
    rcases hx with ⟨k, hk⟩ | hx
    · exact .inr (List.mem_map.mpr ⟨_, hk, rfl⟩)
    · exact .inl hx
  have htc : ∀ i cmd q, (∃ k, (k, t) ∈ (takeCmd s i cmd q).resolver) ∨ (t, TokResult.cancelled) ∈ (takeCmd s i cmd q).outcomes := by
    intro i cmd q
    rw [takeCmd_resolver, takeCmd_outcomes]
    cases htok : cmd.tok with
    | none => exact .inl ⟨k, ht⟩
    | some t' =>
      simp only [Resolver.put]
      cases hk : cmd.out.tryKey with
      | none => exact .inl ⟨k, ht⟩
      | some k' =>
        simp only
        by_cases hke : (k, t) ∈ s.resolver.erase k'
        · exact .inl ⟨k, List.mem_append_left _ hke⟩
        · right
          -- the entry was the one erased
          have hfind : s.resolver.find k' = some t := by
            unfold Resolver.erase at hke
            unfold Resolver.find
            generalize s.resolver = r at ht hke
            induction r with
            | nil => simp at ht
            | cons p r ih =>
              by_cases hp : (p.1 == k') = true
              · rw [List.eraseP_cons_of_pos (p := fun p : Key × Nat => p.1 == k') hp] at hke
                rw [List.find?_cons_of_pos (p := fun p : Key × Nat => p.1 == k') hp]
                rcases List.mem_cons.mp ht with rfl | h
                · rfl
                · exact absurd h hke
              · rw [List.eraseP_cons_of_neg (p := fun p : Key × Nat => p.1 == k') hp] at hke
                rw [List.find?_cons_of_neg (p := fun p : Key × Nat => p.1 == k') hp]
                rcases List.mem_cons.mp ht with rfl | h
                · exact absurd List.mem_cons_self hke
                · exact ih h fun hx => hke (List.mem_cons_of_mem _ hx)
          rw [hfind]; simp
  cases step_cases hs with
  | startOk net hm s2 h2 => simp at hm'
  | startFail | outGone | inLost | regClosedStop | noConn | connectLost => exact hst s (.inl ⟨k, ht⟩)
  | regFail => exact hst _ (.inl ⟨k, ht⟩)
  | out j auth net cmd q s'' hm hv ha hq he =>
    cases he with
    | failed => exact hst _ (htc ..)
    | lost c c2 b s3 hcc h2 hb hp =>
      refine hst _ ?_
      rw [hp.resolver, hp.outcomes]; exact htc ..
    | sent => simp [hm] at hm'
    | connecting => simp at hm'
  | inb b e q s'' hm ha hv hq he =>
    cases he with
    | pingFailed => exact hst _ (.inl ⟨k, by simpa using ht⟩)
    | ping => simp [hm] at hm'
    | other => simp [hm] at hm'
  | connectOk => simp at hm'
  | _ => exact absurd (by simpa using hm') hm

/-- A request in a client's channel stays there once the engine has stopped, unless the client is dropped. -/
theorem queued_stays {cfg : Cfg} {s s' : State} {a : Act} (hs : step cfg s a = some s') (hm : s.mode = .stopped) {i : Nat}
    (hi : i < s.nClients) (hg : (s.clients i).phase ≠ .gone) {cmd : ClientCmd} (hq : cmd ∈ (s.clients i).queue) :
    cmd ∈ (s'.clients i).queue ∧ i < s'.nClients := by
  cases step_cases hs with
  | startOk net hm' => rw [hm] at hm'; exact absurd hm' (by simp)
  | out j auth net c q s'' hm' => rw [hm] at hm'; exact absurd hm' (by simp)
  | inb b e q s'' hm' => rw [hm] at hm'; exact absurd hm' (by simp)
  | connectOk r b x e hm' => rw [hm] at hm'; exact absurd hm' (by simp)
  | newClient name hl =>
    have : i ≠ s.nClients := by omega
    exact ⟨by simpa [setClient_clients, this] using hq, by simp only; omega⟩
  | reg j q hm' | regFail j q hm' => rw [hm] at hm'; exact absurd hm' (by simp)
  | freeQueue j hj hp he =>
    by_cases hij : i = j
    · subst hij; exact absurd hp hg
    · exact ⟨by simpa [setClient_clients, hij] using hq, by simpa using hi⟩
  | submit j k c hj hk he =>
    by_cases hij : i = j
    · subst hij; exact ⟨by simp [setClient_clients, hq], by simpa using hi⟩
    · exact ⟨by simpa [setClient_clients, hij] using hq, by simpa using hi⟩
  | sendRegFail j | sendReg j | recvReply j | recvReplyFail j | cancelReg j | request j | oneway j | refuse j
    | clientNext j | dropClient j =>
    by_cases hij : i = j
    · subst hij; exact ⟨by simpa [setClient_clients] using hq, by simpa using hi⟩
    · exact ⟨by simpa [setClient_clients, hij] using hq, by simpa using hi⟩
  | _ => exact ⟨by simpa using hq, by simpa using hi⟩

theorem le_sum_of_mem {l : List Nat} {n : Nat} (h : n ∈ l) : n ≤ l.sum := by
  induction l with
  | nil => simp at h
  | cons a l ih =>
    rw [List.sum_cons]
    rcases List.mem_cons.mp h with rfl | h
    · omega
    · have := ih h; omega

/-- A request with its client has not completed. -/
theorem queued_outstanding {cfg : Cfg} {s : State} (h : Reachable cfg s) {i : Nat} (hi : i < s.nClients) {cmd : ClientCmd} {t : Nat}
    (hq : cmd ∈ (s.clients i).queue) (ht : cmd.tok = some t) : Outstanding s t := by
  have hissued := (req h).pending i hi cmd (List.mem_append_right _ hq) t ht
  have hlt : t < s.issued.length := by
    have := List.getElem?_eq_some_iff.mp hissued; exact this.1
  refine ⟨hlt, fun r hr => ?_⟩
  have h1 := places_eq h t
  rw [ind, if_pos hlt] at h1
  unfold places at h1
  have h2 : 1 ≤ (s.outcomes.map (·.1)).count t := List.count_pos_iff.mpr (List.mem_map.mpr ⟨_, hr, rfl⟩)
  have h3 : 1 ≤ (pendingToks s i).count t := by
    refine List.count_pos_iff.mpr ?_
    unfold pendingToks toks
    exact List.mem_append_right _ (List.mem_filterMap.mpr ⟨cmd, hq, ht⟩)
  have h4 : (pendingToks s i).count t ≤ ((List.range s.nClients).map fun j => (pendingToks s j).count t).sum := by
    refine le_sum_of_mem ?_
    exact List.mem_map.mpr ⟨i, List.mem_range.mpr hi, rfl⟩
  omega

/-- A client that waits for its registration or has returned from it is registered, or its registration is on the way. -/
def Known (s : State) : Prop := ∀ i, i < s.nClients →
  ((s.clients i).phase = .waiting ∨ (s.clients i).phase = .ready) → i ∈ s.vec ∨ i ∈ s.regQueue

theorem Known.congr {s s' : State} (h : Known s) (hn : s'.nClients = s.nClients) (hv : s'.vec = s.vec)
    (hr : s'.regQueue = s.regQueue) (hp : ∀ k, (s'.clients k).phase = (s.clients k).phase) : Known s' := by
  intro i hi hx
  rw [hp] at hx; rw [hv, hr]; exact h i (hn ▸ hi) hx

theorem known {cfg : Cfg} {s : State} (h : Reachable cfg s) : Known s := by
  refine h.induct (P := Known) (fun i hi => absurd hi (Nat.not_lt_zero i)) ?_
  intro s a s' hr ih hs
  cases step_cases hs with
  | startOk net hm s2 h2 => rcases h2 with ⟨rfl, hb⟩ | ⟨hb, rfl⟩ <;> (apply ih.congr <;> simp)
  | out j auth net cmd q s'' hm hv ha hq he =>
    have h1 : Known (takeCmd s j cmd q) := by
      apply ih.congr <;> simp
    cases he with
    | lost c c2 b s3 hcc h2 hb hp =>
      exact h1.congr (by simp [hp.nClients]) (by simp [hp.vec]) (by simp [hp.regQueue]) (fun k => by simp [hp.clients_phase])
    | connecting c c2 b s3 k hcc h2 hb hp hj ha hl =>
      exact h1.congr (by simp [hp.nClients]) (by simp [hp.vec]) (by simp [hp.regQueue]) (fun k => by simp [hp.clients_phase])
    | failed => exact h1
    | sent => exact h1
  | inb b e q s'' hm ha hv hq he => cases he <;> (apply ih.congr <;> simp)
  | connectOk => apply ih.congr <;> simp
  | reg j q hm hc hq hl | regFail j q hm hc hq hl =>
    intro i hi hx
    have := ih i hi (by
      simp only [stop_clients, setClient_clients] at hx
      split at hx
      · rename_i hij; subst hij; exact hx
      · exact hx)
    rw [hq] at this
    simp only [stop_vec, stop_regQueue, List.mem_append, List.mem_cons, List.mem_singleton, List.not_mem_nil, or_false] at this ⊢
    rcases this with h | h | h
    · exact .inl (.inl h)
    · exact .inl (.inr h)
    · exact .inr h
  | sendReg j hl hj hp hm =>
    intro i hi hx
    by_cases hij : i = j
    · subst hij; exact .inr (by simp)
    · have := ih i hi (by simpa [setClient_clients, hij] using hx)
      rcases this with h | h
      · exact .inl h
      · exact .inr (by simp [h])
  | newClient name hl =>
    intro i hi hx
    by_cases hij : i = s.nClients
    · subst hij; simp [setClient_clients] at hx
    · simp only at hi
      exact ih i (by omega) (by simpa [setClient_clients, hij] using hx)
  | sendRegFail j | recvReplyFail j | cancelReg j | dropClient j =>
    intro i hi hx
    by_cases hij : i = j
    · subst hij; simp [setClient_clients] at hx
    · exact ih i (by simpa using hi) (by simpa [setClient_clients, hij] using hx)
  | recvReply j hl hj hp hr =>
    intro i hi hx
    by_cases hij : i = j
    · subst hij; exact ih i hj (.inl hp)
    · exact ih i hi (by simpa [setClient_clients, hij] using hx)
  | request j | oneway j | submit j | refuse j | clientNext j | freeQueue j =>
    refine ih.congr (by simp) (by simp) (by simp) (fun k => ?_)
    simp only [setClient_clients]; split
    · rename_i hk; subst hk; rfl
    · rfl
  | _ => apply ih.congr <;> simp

/-- Registrations one at a time. -/
structure OneByOne (s : State) : Prop where
  waiting : ∀ i, i < s.nClients → (s.clients i).phase = .waiting →
    (s.regQueue = [i] ∧ s.replies = 0) ∨ (s.regQueue = [] ∧ s.replies ≤ 1 ∧ i ∈ s.vec)
  none : (∀ i, i < s.nClients → (s.clients i).phase ≠ .waiting) → s.replies = 0 ∧ (s.mode ≠ .stopped → s.regQueue = [])
  ready : ∀ i, i < s.nClients → (s.clients i).phase = .ready → i ∈ s.vec

theorem OneByOne.congr {s s' : State} (h : OneByOne s) (hn : s'.nClients = s.nClients) (hv : s'.vec = s.vec)
    (hr : s'.regQueue = s.regQueue) (hrep : s'.replies = s.replies) (hm : s'.mode ≠ .stopped → s.mode ≠ .stopped)
    (hp : ∀ k, (s'.clients k).phase = (s.clients k).phase) : OneByOne s' := by
  refine ⟨fun i hi hw => ?_, fun hw => ?_, fun i hi hw => ?_⟩
  · rw [hr, hrep, hv]; exact h.waiting i (hn ▸ hi) (hp i ▸ hw)
  · rw [hr, hrep]
    have := h.none fun i hi => by rw [← hp]; exact hw i (hn ▸ hi)
    exact ⟨this.1, fun hx => this.2 (hm hx)⟩
  · rw [hv]; exact h.ready i (hn ▸ hi) (hp i ▸ hw)

theorem OneByOne.step {cfg : Cfg} {s s' : State} {a : Act} (ih : OneByOne s) (hs : step cfg s a = some s')
    (hc : ∀ i, a ≠ .cancelReg i)
    (h1 : ∀ i j, i < s'.nClients → j < s'.nClients → (s'.clients i).phase = .waiting → (s'.clients j).phase = .waiting → i = j) :
    OneByOne s' := by
  cases step_cases hs with
  | startOk net hm s2 h2 => rcases h2 with ⟨rfl, hb⟩ | ⟨hb, rfl⟩ <;> (apply ih.congr <;> simp [hm])
  | out j auth net cmd q s'' hm hv ha hq he =>
    have ht : OneByOne (takeCmd s j cmd q) := by
      apply ih.congr <;> simp
    cases he with
    | lost c c2 b s3 hcc h2 hb hp =>
      exact ht.congr (by simp [hp.nClients]) (by simp [hp.vec]) (by simp [hp.regQueue]) (by simp [hp.replies]) (by simp)
        (fun k => by simp [hp.clients_phase])
    | connecting c c2 b s3 k hcc h2 hb hp hj ha hl =>
      exact ht.congr (by simp [hp.nClients]) (by simp [hp.vec]) (by simp [hp.regQueue]) (by simp [hp.replies]) (by simp [hm])
        (fun k => by simp [hp.clients_phase])
    | failed => apply ht.congr <;> simp
    | sent => apply ht.congr <;> simp
  | inb b e q s'' hm ha hv hq he => cases he <;> (apply ih.congr <;> simp)
  | connectOk r b x e hm hf => apply ih.congr <;> simp [hm]
  | startFail | outGone | inLost | regClosedStop | noConn | connectLost => apply ih.congr <;> simp
  | reg j q hm hc hq hl =>
    have hph : ∀ k, ((s.setClient j { s.clients j with broker := cfg.config.brokerAddress }).clients k).phase = (s.clients k).phase := by
      intro k; simp only [setClient_clients]; split
      · rename_i hk; subst hk; rfl
      · rfl
    have hex : ∃ i, i < s.nClients ∧ (s.clients i).phase = .waiting := by
      apply Classical.byContradiction
      intro hx
      have := (ih.none fun i hi hw => hx ⟨i, hi, hw⟩).2 (by simp [hm])
      rw [hq] at this; simp at this
    obtain ⟨i, hi, hw⟩ := hex
    have hiw := ih.waiting i hi hw
    rw [hq] at hiw
    have hqe : j = i ∧ q = [] ∧ s.replies = 0 := by
      rcases hiw with ⟨h, h'⟩ | ⟨h, _⟩
      · simp at h; exact ⟨h.1, h.2, h'⟩
      · simp at h
    obtain ⟨rfl, rfl, hrep⟩ := hqe
    refine ⟨fun k hk hkw => ?_, fun hno => ?_, fun k hk hkr => ?_⟩
    · have : k = j := h1 k j hk hi hkw (by show ((s.setClient j _).clients j).phase = _; rw [hph]; exact hw)
      subst this
      exact .inr ⟨rfl, by simp [hrep], by simp⟩
    · exact absurd (by show ((s.setClient j _).clients j).phase = _; rw [hph]; exact hw) (hno j hi)
    · have : (s.clients k).phase = .ready := by rw [← hph]; exact hkr
      simp only [List.mem_append]; exact .inl (ih.ready k hk this)
  | regFail j q hm hc hq hl =>
    have hph : ∀ k, ((s.setClient j { s.clients j with broker := cfg.config.brokerAddress }).clients k).phase = (s.clients k).phase := by
      intro k; simp only [setClient_clients]; split
      · rename_i hk; subst hk; rfl
      · rfl
    have hex : ∃ i, i < s.nClients ∧ (s.clients i).phase = .waiting := by
      apply Classical.byContradiction
      intro hx
      have := (ih.none fun i hi hw => hx ⟨i, hi, hw⟩).2 (by simp [hm])
      rw [hq] at this; simp at this
    obtain ⟨i, hi, hw⟩ := hex
    have hiw := ih.waiting i hi hw
    rw [hq] at hiw
    have hqe : j = i ∧ q = [] ∧ s.replies = 0 := by
      rcases hiw with ⟨h, h'⟩ | ⟨h, _⟩
      · simp at h; exact ⟨h.1, h.2, h'⟩
      · simp at h
    obtain ⟨rfl, rfl, hrep⟩ := hqe
    refine ⟨fun k hk hkw => ?_, fun hno => ?_, fun k hk hkr => ?_⟩
    · have : k = j := h1 k j hk hi hkw (by show ((s.setClient j _).clients j).phase = _; rw [hph]; exact hw)
      subst this
      exact .inr ⟨rfl, by simp [hrep], by simp⟩
    · exact absurd (by show ((s.setClient j _).clients j).phase = _; rw [hph]; exact hw) (hno j hi)
    · have : (s.clients k).phase = .ready := by rw [← hph]; exact hkr
      simp only [stop_vec, List.mem_append]; exact .inl (ih.ready k hk this)
  | sendReg j hl hj hp hm =>
    have hsame : ∀ k, k ≠ j → ((s.setClient j { s.clients j with phase := .waiting }).clients k).phase = (s.clients k).phase := by
      intro k hk; simp [setClient_clients, hk]
    have hjw : ((s.setClient j { s.clients j with phase := .waiting }).clients j).phase = .waiting := by simp [setClient_clients]
    have hno : ∀ i, i < s.nClients → (s.clients i).phase ≠ .waiting := by
      intro i hi hw
      by_cases hij : i = j
      · subst hij; rw [hp] at hw; simp at hw
      · exact hij (h1 i j hi hj (by show ((s.setClient j _).clients i).phase = _; rw [hsame i hij]; exact hw) hjw)
    obtain ⟨hr0, hq0⟩ := ih.none hno
    refine ⟨fun k hk hkw => ?_, fun hx => absurd hjw (hx j hj), fun k hk hkr => ?_⟩
    · have : k = j := h1 k j hk hj hkw hjw
      subst this
      exact .inl ⟨by simp [hq0 hm], hr0⟩
    · by_cases hkj : k = j
      · subst hkj; rw [show _ = Phase.waiting from hjw] at hkr; simp at hkr
      · exact ih.ready k hk (by rw [← hsame k hkj]; exact hkr)
  | recvReply j hl hj hp hr =>
    have hsame : ∀ k, k ≠ j → ((s.setClient j { s.clients j with phase := .ready }).clients k).phase = (s.clients k).phase := by
      intro k hk; simp [setClient_clients, hk]
    have hjr : ((s.setClient j { s.clients j with phase := .ready }).clients j).phase = .ready := by simp [setClient_clients]
    have hjv : s.regQueue = [] ∧ s.replies ≤ 1 ∧ j ∈ s.vec := by
      rcases ih.waiting j hj hp with ⟨_, h⟩ | h
      · omega
      · exact h
    refine ⟨fun k hk hkw => ?_, fun _ => ⟨?_, fun _ => hjv.1⟩, fun k hk hkr => ?_⟩
    · by_cases hkj : k = j
      · subst hkj; rw [show _ = Phase.ready from hjr] at hkw; simp at hkw
      · have hkw' : (s.clients k).phase = .waiting := by rw [← hsame k hkj]; exact hkw
        rcases ih.waiting k hk hkw' with ⟨h, _⟩ | ⟨h2, h3, h4⟩
        · rw [hjv.1] at h; simp at h
        · exact .inr ⟨h2, by show s.replies - 1 ≤ 1; omega, h4⟩
    · show s.replies - 1 = 0; omega
    · by_cases hkj : k = j
      · subst hkj; exact hjv.2.2
      · exact ih.ready k hk (by rw [← hsame k hkj]; exact hkr)
  | sendRegFail j hl hj hp hm =>
    have hsame : ∀ k, k ≠ j → ((s.setClient j { s.clients j with phase := .gone }).clients k).phase = (s.clients k).phase := by
      intro k hk; simp [setClient_clients, hk]
    have hjg : ((s.setClient j { s.clients j with phase := .gone }).clients j).phase = .gone := by simp [setClient_clients]
    refine ⟨fun k hk hkw => ?_, fun hno => ?_, fun k hk hkr => ?_⟩
    · by_cases hkj : k = j
      · subst hkj; rw [hjg] at hkw; simp at hkw
      · exact ih.waiting k hk (by rw [← hsame k hkj]; exact hkw)
    · exact ih.none fun i hi hw => by
        by_cases hij : i = j
        · subst hij; rw [hp] at hw; simp at hw
        · exact hno i hi (by rw [hsame i hij]; exact hw)
    · by_cases hkj : k = j
      · subst hkj; rw [hjg] at hkr; simp at hkr
      · exact ih.ready k hk (by rw [← hsame k hkj]; exact hkr)
  | recvReplyFail j hl hj hp hr hm =>
    have hsame : ∀ k, k ≠ j → ((s.setClient j { s.clients j with phase := .gone }).clients k).phase = (s.clients k).phase := by
      intro k hk; simp [setClient_clients, hk]
    have hjg : ((s.setClient j { s.clients j with phase := .gone }).clients j).phase = .gone := by simp [setClient_clients]
    refine ⟨fun k hk hkw => ?_, fun hno => ⟨hr, fun hx => absurd hm hx⟩, fun k hk hkr => ?_⟩
    · by_cases hkj : k = j
      · subst hkj; rw [hjg] at hkw; simp at hkw
      · exact ih.waiting k hk (by rw [← hsame k hkj]; exact hkw)
    · by_cases hkj : k = j
      · subst hkj; rw [hjg] at hkr; simp at hkr
      · exact ih.ready k hk (by rw [← hsame k hkj]; exact hkr)
  | cancelReg j => exact absurd rfl (hc j)
  | dropClient j hj hp hst =>
    have hsame : ∀ k, k ≠ j → ((s.setClient j { s.clients j with phase := .gone }).clients k).phase = (s.clients k).phase := by
      intro k hk; simp [setClient_clients, hk]
    have hjg : ((s.setClient j { s.clients j with phase := .gone }).clients j).phase = .gone := by simp [setClient_clients]
    refine ⟨fun k hk hkw => ?_, fun hno => ?_, fun k hk hkr => ?_⟩
    · by_cases hkj : k = j
      · subst hkj; rw [hjg] at hkw; simp at hkw
      · exact ih.waiting k hk (by rw [← hsame k hkj]; exact hkw)
    · exact ih.none fun i hi hw => by
        by_cases hij : i = j
        · subst hij; rw [hp] at hw; simp at hw
        · exact hno i hi (by rw [hsame i hij]; exact hw)
    · by_cases hkj : k = j
      · subst hkj; rw [hjg] at hkr; simp at hkr
      · exact ih.ready k hk (by rw [← hsame k hkj]; exact hkr)
  | newClient name hl =>
    have hnew : ∀ k, k ≠ s.nClients → ((s.setClient s.nClients
        ⟨⟨UInt64.ofNat s.nClients, name, 0, 0⟩, .fresh, cfg.config.brokerAddress, [], [], [], [], [], []⟩).clients k) = s.clients k := by
      intro k hk; simp [setClient_clients, hk]
    have hf : ((s.setClient s.nClients
        ⟨⟨UInt64.ofNat s.nClients, name, 0, 0⟩, .fresh, cfg.config.brokerAddress, [], [], [], [], [], []⟩).clients s.nClients).phase =
        .fresh := by simp [setClient_clients]
    refine ⟨fun k hk hkw => ?_, fun hno => ?_, fun k hk hkr => ?_⟩
    · by_cases hkj : k = s.nClients
      · subst hkj; rw [show _ = Phase.fresh from hf] at hkw; simp at hkw
      · exact ih.waiting k (by simp only at hk; omega) (by rw [← hnew k hkj]; exact hkw)
    · exact ih.none fun i hi hw => hno i (by simp only; omega) (by
        show ((s.setClient s.nClients _).clients i).phase = _
        rw [hnew i (by omega)]; exact hw)
    · by_cases hkj : k = s.nClients
      · subst hkj; rw [show _ = Phase.fresh from hf] at hkr; simp at hkr
      · exact ih.ready k (by simp only at hk; omega) (by rw [← hnew k hkj]; exact hkr)
  | request j | oneway j | submit j | refuse j | clientNext j | freeQueue j =>
    refine ih.congr (by simp) (by simp) (by simp) (by simp) (by simp) (fun k => ?_)
    simp only [setClient_clients]; split
    · rename_i hk; subst hk; rfl
    · rfl
  | _ => apply ih.congr <;> simp

end Neutron.Sys
