import Verif.Spec.Service
import Verif.Proof.SysMade
import Verif.Proof.SysPlaced
import Verif.Proof.SysRun
import Verif.Proof.SysOnce
import Verif.Proof.WorldWrites

/-!
# What serving a channel does to it
-/

namespace Neutron.Sys

open Neutron

theorem countActs_snoc (p : Act → Bool) (as : List Act) (a : Act) : countActs p (as ++ [a]) = countActs p as + (if p a then 1 else 0) := by
  unfold countActs
  rw [List.filter_append, List.length_append]
  cases h : p a <;> simp [h]

theorem continues_reachable {cfg : Cfg} {s s' : State} {as : List Act} (h : Reachable cfg s) (hp : Continues cfg s as s') : Reachable cfg s' := by
  induction hp with
  | nil => exact h
  | snoc _ hs _ ih => obtain ⟨bs, hb⟩ := ih; exact ⟨_, hb.snoc hs⟩

/-- The engine's side of a client's channel. -/
theorem served_client {cfg : Cfg} {s s' : State} {a : Act} (hs : step cfg s a = some s') {i : Nat} (hi : i < s.nClients) :
    (s.clients i).submitted <+: (s'.clients i).submitted ∧ (s.clients i).handled <+: (s'.clients i).handled ∧
    (a.servesClient i = true → (s'.clients i).handled.length = (s.clients i).handled.length + 1 ∨ s'.mode = .stopped) := by
  cases step_cases hs with
  | startOk net hm s2 h2 => rcases h2 with ⟨rfl, hb⟩ | ⟨hb, rfl⟩ <;> simp [Act.servesClient]
  | outGone => simp
  | out j auth net cmd q s'' hm hv ha hq he =>
    have ht : ((takeCmd s j cmd q).clients i).submitted = (s.clients i).submitted ∧
        (s.clients i).handled <+: ((takeCmd s j cmd q).clients i).handled ∧
        (j = i → ((takeCmd s j cmd q).clients i).handled.length = (s.clients i).handled.length + 1) := by
      rw [takeCmd_clients]; split
      · rename_i hij; subst hij; simp
      · rename_i hij; simp [Ne.symm hij]
    obtain ⟨h1, h2, h3⟩ := ht
    have h1' : (s.clients i).submitted <+: ((takeCmd s j cmd q).clients i).submitted := by rw [h1]; exact List.prefix_rfl
    have fin : (Act.engOut j auth net).servesClient i = true → ((takeCmd s j cmd q).clients i).handled.length = (s.clients i).handled.length + 1 := by
      intro h; exact h3 (by simpa [Act.servesClient] using h)
    cases he with
    | failed => exact ⟨h1', h2, fun _ => .inr rfl⟩
    | lost c c2 b s3 hcc _ hb hp =>
      refine ⟨?_, ?_, fun _ => .inr rfl⟩
      · show _ <+: (s3.clients i).submitted
        rw [hp.clients_submitted]; exact h1'
      · show _ <+: (s3.clients i).handled
        rw [hp.clients_handled]; exact h2
    | sent => exact ⟨by simpa using h1', by simpa using h2, fun h => .inl (by simpa using fin h)⟩
    | connecting c c2 b s3 k hcc _ hb hp hj ha hl =>
      refine ⟨?_, ?_, fun h => .inl ?_⟩
      · simp only [pushed_clients, hp.clients_submitted]; exact h1'
      · simp only [pushed_clients, hp.clients_handled]; exact h2
      · simp only [pushed_clients, hp.clients_handled]; exact fin h
  | inb b e q s'' hm ha hv hq he => cases he <;> simp [Act.servesClient]
  | newClient name hl =>
    have : i ≠ s.nClients := by omega
    simp [setClient_clients, this, Act.servesClient]
  | reg j | regFail j | sendRegFail j | sendReg j | recvReply j | recvReplyFail j | cancelReg j | request j | oneway j | submit j | refuse j
    | dropClient j | freeQueue j | clientNext j =>
    by_cases hij : i = j
    · subst hij; simp [setClient_clients, Act.servesClient]
    · simp [setClient_clients, hij, Act.servesClient]
  | _ => simp [Act.servesClient]

theorem pushed_dispatched (s : State) (x b : BrokerAddress) (c : ConnCmd) :
    ((pushed s x c).conns b).dispatched = (s.conns b).dispatched := by
  simp only [pushed, setConn_conns]
  split
  · rename_i h; subst h; rfl
  · rfl

/-- The engine's side of a connection's channel. -/
theorem served_reads {cfg : Cfg} {s s' : State} {a : Act} (h : Reachable cfg s) (hs : step cfg s a = some s') (b : BrokerAddress) :
    (s.conns b).reads <+: (s'.conns b).reads ∧ (s.conns b).dispatched <+: (s'.conns b).dispatched ∧
    (a.servesReads b = true → (s'.conns b).dispatched.length = (s.conns b).dispatched.length + 1 ∨ s'.mode = .stopped) := by
  have hcn := conn h
  refine ⟨?_, ?_⟩
  · rcases step_reads hcn hs b with ⟨h1, _⟩ | ⟨v, ans, inb, _, _, ⟨h1, _⟩ | ⟨h1, _⟩⟩ <;> rw [h1] <;> first | exact List.prefix_rfl | exact List.prefix_append ..
  have dial : ∀ {t : State} {x : BrokerAddress}, Conn t → x ∉ t.addrs → ((dialed t x).conns b).dispatched = (t.conns b).dispatched := by
    intro t x ht hx; rw [dialed_conns_eq ht hx]
  cases step_cases hs with
  | startOk net hm s2 h2 =>
    rcases h2 with ⟨rfl, hb⟩ | ⟨hb, rfl⟩
    · simp [Act.servesReads]
    · simp [Act.servesReads, dial hcn hb]
  | out j auth net cmd q s'' hm hv ha hq he =>
    have hc1 : Conn (takeCmd s j cmd q) := hcn.congr (by simp) (by simp) (by simp)
    have h0 : ((takeCmd s j cmd q).conns b).dispatched = (s.conns b).dispatched := by simp
    cases he with
    | failed => simp [Act.servesReads]
    | lost c c2 b' s3 hcc h2 hb hp => simp [Act.servesReads, hp.conns hc1]
    | sent => simp [Act.servesReads, pushed_dispatched]
    | connecting c c2 b' s3 k hcc h2 hb hp hj ha hl => simp [Act.servesReads, pushed_dispatched, hp.conns hc1]
  | inLost => simp
  | inb b' e q s'' hm ha hv hq he =>
    have h0 : ((takeEvent s b' e q).conns b).dispatched = (s.conns b).dispatched ++ (if b' = b then [e] else []) := by
      simp only [takeEvent, setConn_conns]
      by_cases hb : b = b'
      · subst hb; simp
      · simp [hb, Ne.symm hb]
    have h1 : (s.conns b).dispatched <+: ((takeEvent s b' e q).conns b).dispatched := by rw [h0]; exact List.prefix_append ..
    have h2 : (Act.engIn b').servesReads b = true → ((takeEvent s b' e q).conns b).dispatched.length = (s.conns b).dispatched.length + 1 := by
      intro hx
      have : b' = b := by simpa [Act.servesReads] using hx
      rw [h0, if_pos this]; simp
    cases he with
    | pingFailed => exact ⟨h1, fun _ => .inr rfl⟩
    | ping hp ha hl => exact ⟨by simpa [pushed_dispatched] using h1, fun hx => .inl (by simpa [pushed_dispatched] using h2 hx)⟩
    | other hp => exact ⟨by simpa using h1, fun hx => .inl (by simpa using h2 hx)⟩
  | cmdEnd b' | readEnd b' => simp [Act.servesReads, endConn_conns]; split <;> simp_all
  | cmdOk b' c q => simp [Act.servesReads, setConn_conns, connTake_conns]; split <;> simp_all
  | cmdFail b' c q => simp [Act.servesReads, connTake_conns]; split <;> simp_all
  | cmdPanic b' c q => simp [Act.servesReads, endConn_conns, connTake_conns]; split <;> simp_all
  | readConnected b' | readForward b' => simp [Act.servesReads, setConn_conns]; split <;> simp_all
  | _ => simp [Act.servesReads]

/-- The connection task's side of its channel. -/
theorem served_writes {cfg : Cfg} {s s' : State} {a : Act} (h : Reachable cfg s) (hs : step cfg s a = some s') (b : BrokerAddress) :
    (s.conns b).processed <+: (s'.conns b).processed ∧
    (a.servesWrites b = true → (s'.conns b).processed.length = (s.conns b).processed.length + 1 ∨ (s'.conns b).alive = false) := by
  by_cases ha : ∀ w, a ≠ .connCmd b w
  · obtain ⟨h1, h2⟩ := processed_step h hs b ha
    refine ⟨by rw [h1]; exact List.prefix_rfl, fun hx => ?_⟩
    cases a <;> simp [Act.servesWrites] at hx
    subst hx
    exact absurd rfl (ha _)
  · simp only [ne_eq, Classical.not_forall, Classical.not_not] at ha
    obtain ⟨w, rfl⟩ := ha
    cases hq : (s.conns b).queue with
    | nil =>
      cases step_cases hs with
      | cmdEnd => simp [endConn_conns]
      | cmdOk _ c q hl hb hq' => rw [hq] at hq'; cases hq'
      | cmdFail _ c q hl hb hq' => rw [hq] at hq'; cases hq'
      | cmdPanic _ c q hl hb hq' => rw [hq] at hq'; cases hq'
    | cons c q =>
      obtain ⟨h1, h2⟩ := cmd_step hs hq
      rw [h1]
      exact ⟨List.prefix_append .., fun _ => .inl (by simp)⟩

theorem find_mem {r : Resolver} {k : Key} {t : Nat} (h : r.find k = some t) : (k, t) ∈ r := by
  unfold Resolver.find at h
  cases hf : List.find? (fun p => p.1 == k) r with
  | none => rw [hf] at h; cases h
  | some p =>
    rw [hf] at h
    have h1 := List.mem_of_find?_eq_some hf
    have h2 := List.find?_some hf
    simp only [beq_iff_eq] at h2
    obtain ⟨k', t'⟩ := p
    simp only [Option.map_some, Option.some.injEq] at h
    subst h2; subst h
    exact h1

/-- A pending request stays pending, or completes. -/
theorem pending_step {cfg : Cfg} {s s' : State} {a : Act} (h : Reachable cfg s) (hs : step cfg s a = some s') {k : Key} {t : Nat}
    (hf : s.resolver.find k = some t) : s'.resolver.find k = some t ∨ Done s' t := by
  have hst : ∀ x : State, x.resolver.find k = some t ∨ Done x t → Done (stop x) t := by
    intro x hx
    rcases hx with hx | ⟨r, hr⟩
    · exact ⟨.cancelled, by rw [stop_outcomes]; exact List.mem_append_right _ (List.mem_map.mpr ⟨_, find_mem hx, rfl⟩)⟩
    · exact ⟨r, by rw [stop_outcomes]; exact List.mem_append_left _ hr⟩
  have hms : ∀ (x : State) e b v, x.resolver.find k = some t → (managerSend x e b v).resolver.find k = some t ∨ Done (managerSend x e b v) t := by
    intro x e b v hx
    unfold managerSend
    split
    · rename_i t' r' hr
      obtain ⟨k', hk', hf', rfl⟩ := tryResolve_some hr
      by_cases hkk : k = k'
      · subst hkk
        rw [hx] at hf'; cases hf'
        exact .inr ⟨_, List.mem_append_right _ (List.mem_singleton.mpr rfl)⟩
      · exact .inl (by simpa [find_erase_ne _ hkk] using hx)
    · exact .inl hx
  have htc : ∀ i cmd q, (takeCmd s i cmd q).resolver.find k = some t ∨ Done (takeCmd s i cmd q) t := by
    intro i cmd q
    rw [takeCmd_resolver]
    unfold Done
    rw [takeCmd_outcomes]
    cases cmd.tok with
    | none => exact .inl hf
    | some t' =>
      by_cases hk : cmd.out.tryKey = some k
      · refine .inr ⟨.cancelled, List.mem_append_right _ ?_⟩
        simp [Resolver.put, hk, hf]
      · exact .inl (by simpa [find_put_ne _ _ hk] using hf)
  cases step_cases hs with
  | startOk net hm s2 h2 => rcases h2 with ⟨rfl, hb⟩ | ⟨hb, rfl⟩ <;> exact .inl (by simpa using hf)
  | startFail | outGone | inLost | regClosedStop | noConn | connectLost => exact .inr (hst _ (.inl hf))
  | regFail => exact .inr (hst _ (.inl hf))
  | out i auth net cmd q s'' hm hv ha hq he =>
    have h1 := htc i cmd q
    cases he with
    | failed => exact .inr (hst _ h1)
    | lost c c2 b s3 hcc h2 hb hp =>
      refine .inr (hst _ ?_)
      unfold Done at h1 ⊢
      rw [hp.resolver, hp.outcomes]; exact h1
    | sent => exact h1
    | connecting c c2 b s3 j hcc h2 hb hp hj ha hl =>
      unfold Done at h1 ⊢
      simp only [pushed_resolver, pushed_outcomes, hp.resolver, hp.outcomes]; exact h1
  | inb b e q s'' hm ha hv hq he =>
    cases he with
    | pingFailed => exact .inr (hst _ (.inl hf))
    | ping => exact .inl hf
    | other _ => exact hms (takeEvent s b e q) _ _ _ hf
  | connectOk => exact hms { s with mode := .idle } _ _ _ hf
  | refuse | freeQueue => exact .inl hf
  | _ => exact .inl (by simpa using hf)

/-- What was handed to connections stays on record. -/
theorem sent_prefix {cfg : Cfg} {s s' : State} {a : Act} (hs : step cfg s a = some s') : s.sent <+: s'.sent := by
  cases step_cases hs with
  | startOk net hm s2 h2 => rcases h2 with ⟨rfl, hb⟩ | ⟨hb, rfl⟩ <;> simp
  | out j auth net cmd q s'' hm hv ha hq he =>
    cases he with
    | failed => simp
    | lost c c2 b s3 hcc h2 hb hp => simp [hp.sent]
    | sent => simp [pushed]
    | connecting c c2 b s3 k hcc h2 hb hp hj ha hl => simp [pushed, hp.sent]
  | inb b e q s'' hm ha hv hq he => cases he <;> simp [pushed]
  | _ => simp

/-- What is waiting to be dispatched. -/
theorem outbox_step {cfg : Cfg} {s s' : State} {a : Act} (h : Reachable cfg s) (hs : step cfg s a = some s') (b : BrokerAddress)
    (ha : a ≠ .engIn b) : (s.conns b).outbox <+: (s'.conns b).outbox := by
  have hcn := conn h
  have dial : ∀ {t : State} {x : BrokerAddress}, Conn t → x ∉ t.addrs → ((dialed t x).conns b).outbox = (t.conns b).outbox := by
    intro t x ht hx; rw [dialed_conns_eq ht hx]
  cases step_cases hs with
  | startOk net hm s2 h2 =>
    rcases h2 with ⟨rfl, hb⟩ | ⟨hb, rfl⟩
    · simp
    · simp [dial hcn hb]
  | out j auth net cmd q s'' hm hv ha hq he =>
    have hc1 : Conn (takeCmd s j cmd q) := hcn.congr (by simp) (by simp) (by simp)
    cases he with
    | failed => simp
    | lost c c2 b' s3 hcc h2 hb hp => simp [hp.conns hc1]
    | sent => simp
    | connecting c c2 b' s3 k hcc h2 hb hp hj ha hl => simp [hp.conns hc1]
  | inLost => simp
  | inb b' e q s'' hm ha' hv hq he =>
    have hne : b ≠ b' := by rintro rfl; exact ha rfl
    have h0 : ((takeEvent s b' e q).conns b).outbox = (s.conns b).outbox := by
      simp only [takeEvent, setConn_conns]
      simp [hne]
    cases he with
    | pingFailed => simp [h0]
    | ping hp ha hl => simp [h0]
    | other hp => simp [h0]
  | cmdEnd b' | readEnd b' => simp
  | cmdOk b' c q => simp [setConn_conns]; split <;> simp_all
  | cmdFail b' c q => simp
  | cmdPanic b' c q => simp
  | readConnected b' | readForward b' => simp [setConn_conns]; split <;> simp_all
  | _ => simp

/-- Serving what is waiting to be dispatched: its first event goes, and if that has the key of a pending request, the request
completes. -/
theorem inbox_step {cfg : Cfg} {s s' : State} {b : BrokerAddress} (hs : step cfg s (.engIn b) = some s') {e : Event} {q : List Event}
    (hq : (s.conns b).outbox = e :: q) : (s'.conns b).outbox = q ∧
    ∀ k t, e.inb.tryKey = some k → s.resolver.find k = some t → Done s' t := by
  cases step_cases hs with
  | inLost _ _ _ _ hq' => rw [hq] at hq'; cases hq'
  | inb _ e' q' s'' hm ha' hv hq' he =>
    rw [hq] at hq'; cases hq'
    have h0 : ((takeEvent s b e q).conns b).outbox = q := by
      simp only [takeEvent, setConn_conns]; simp
    cases he with
    | pingFailed hp => exact ⟨by simpa using h0, fun k t hk => by simp [hp, Inbound.tryKey] at hk⟩
    | ping hp ha hl => exact ⟨by simpa using h0, fun k t hk => by simp [hp, Inbound.tryKey] at hk⟩
    | other hp =>
      refine ⟨by simpa using h0, fun k t hk hf => ?_⟩
      have : (takeEvent s b e q).resolver.tryResolve (adjust b e.inb) = some (t, s.resolver.erase k) := by
        simp [Resolver.tryResolve, adjust_tryKey, hk, hf]
      unfold managerSend
      rw [this]
      exact ⟨_, List.mem_append_right _ (List.mem_singleton.mpr rfl)⟩

end Neutron.Sys
