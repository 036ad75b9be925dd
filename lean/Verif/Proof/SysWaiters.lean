import Verif.Proof.SysStop

/-!
# Whoever waits for its registration has a registration or a reply on the way
-/

namespace Neutron.Sys

theorem countP_change (p q : Nat → Bool) (j : Nat) (h : ∀ k, k ≠ j → p k = q k) : ∀ n, j < n →
    (List.range n).countP p + (if q j then 1 else 0) = (List.range n).countP q + (if p j then 1 else 0) := by
  have low : ∀ n, n ≤ j → (List.range n).countP p = (List.range n).countP q := by
    intro n hn
    refine List.countP_congr fun k hk => ?_
    rw [List.mem_range] at hk
    rw [h k (by omega)]
  intro n
  induction n with
  | zero => intro hj; omega
  | succ n ih =>
    intro hj
    rw [List.range_succ, List.countP_append, List.countP_append, List.countP_singleton, List.countP_singleton]
    by_cases he : j = n
    · subst he
      rw [low j (Nat.le_refl _)]
      omega
    · have := ih (by omega)
      rw [h n (fun h => he h.symm)]
      omega

/-- The client waits for its registration. -/
def waits (s : State) (i : Nat) : Bool := decide ((s.clients i).phase = .waiting)

/-- How many clients wait for their registration. -/
def waiters (s : State) : Nat := (List.range s.nClients).countP (waits s)

/-- No more clients wait than there are registrations and replies on the way; without the manager none waits. -/
def Counted (s : State) : Prop := if s.managerAlive then waiters s ≤ s.regQueue.length + s.replies else waiters s = 0

theorem waiters_same {s s' : State} (hn : s'.nClients = s.nClients) (hp : ∀ k, k < s.nClients → (s'.clients k).phase = (s.clients k).phase) :
    waiters s' = waiters s := by
  unfold waiters
  rw [hn]
  refine List.countP_congr fun k hk => ?_
  rw [List.mem_range] at hk
  simp only [waits, hp k hk]

theorem Counted.congr {s s' : State} (h : Counted s) (hn : s'.nClients = s.nClients) (hm : s'.managerAlive = s.managerAlive)
    (hr : s'.regQueue = s.regQueue) (hrep : s'.replies = s.replies) (hp : ∀ k, (s'.clients k).phase = (s.clients k).phase) : Counted s' := by
  unfold Counted at h ⊢
  rw [hm, waiters_same hn fun k _ => hp k, hr, hrep]
  exact h

/-- One client changes its phase. -/
theorem waiters_change {s s' : State} {j : Nat} (hn : s'.nClients = s.nClients) (hj : j < s.nClients)
    (hp : ∀ k, k ≠ j → (s'.clients k).phase = (s.clients k).phase) :
    waiters s' + (if (s.clients j).phase = .waiting then 1 else 0) = waiters s + (if (s'.clients j).phase = .waiting then 1 else 0) := by
  have := countP_change (waits s') (waits s) j (fun k hk => by simp only [waits, hp k hk]) s.nClients hj
  unfold waiters
  rw [hn]
  simpa [waits] using this

/-- One client changes its phase, and perhaps something is on the way now, or not any more. -/
theorem Counted.change {s s' : State} (h : Counted s) {j : Nat} (hn : s'.nClients = s.nClients) (hj : j < s.nClients)
    (hp : ∀ k, k ≠ j → (s'.clients k).phase = (s.clients k).phase) (hm : s.managerAlive = true) (hm' : s'.managerAlive = true)
    (hle : s.regQueue.length + s.replies + (if (s'.clients j).phase = .waiting then 1 else 0) ≤
      s'.regQueue.length + s'.replies + (if (s.clients j).phase = .waiting then 1 else 0)) : Counted s' := by
  have := waiters_change hn hj hp
  unfold Counted at h ⊢
  rw [if_pos hm] at h
  rw [if_pos hm']
  omega

theorem counted {cfg : Cfg} {s : State} (h : Reachable cfg s) : Counted s := by
  refine h.induct (P := Counted) ?_ ?_
  · unfold Counted waiters; simp [init]
  intro s a s' hr ih hs
  have gone : ∀ (j : Nat) (s' : State), j < s.nClients → s'.nClients = s.nClients → s'.managerAlive = s.managerAlive → s'.regQueue = s.regQueue →
      s'.replies = s.replies → (∀ k, k ≠ j → (s'.clients k).phase = (s.clients k).phase) → (s'.clients j).phase = .gone → Counted s' := by
    intro j s' hj hn hm hq hrep hp hg
    have := waiters_change hn hj hp
    rw [hg] at this
    unfold Counted at ih ⊢
    rw [hm, hq, hrep]
    split at ih <;> simp_all <;> split at this <;> omega
  cases step_cases hs with
  | startOk net hm s2 h2 => rcases h2 with ⟨rfl, hb⟩ | ⟨hb, rfl⟩ <;> (apply ih.congr <;> simp)
  | out j auth net cmd q s'' hm hv ha hq he =>
    have h1 : Counted (takeCmd s j cmd q) := by
      apply ih.congr <;> simp
    cases he with
    | lost c c2 b s3 hcc h2 hb hp =>
      exact h1.congr (by simp [hp.nClients]) (by simp [hp.managerAlive]) (by simp [hp.regQueue]) (by simp [hp.replies]) (fun k => by simp [hp.clients_phase])
    | connecting c c2 b s3 k hcc h2 hb hp hj ha hl =>
      exact h1.congr (by simp [hp.nClients]) (by simp [hp.managerAlive]) (by simp [hp.regQueue]) (by simp [hp.replies]) (fun k => by simp [hp.clients_phase])
    | failed => exact h1
    | sent => exact h1
  | inb b e q s'' hm ha hv hq he => cases he <;> (apply ih.congr <;> simp)
  | connectOk => apply ih.congr <;> simp
  | reg j q hm hc hq hl =>
    by_cases hlt : j < s.nClients
    · refine ih.change (j := j) rfl hlt (fun k hk => by simp [setClient_clients, hk]) hl (by simpa using hl) ?_
      simp only [hq, List.length_cons, setClient_clients, if_true]
      omega
    · unfold Counted at ih ⊢
      rw [if_pos hl, hq, List.length_cons] at ih
      rw [if_pos (by simpa using hl)]
      refine Nat.le_trans (Nat.le_of_eq (waiters_same (s := s) rfl fun k hk => ?_)) ?_
      · simp [setClient_clients, show k ≠ j by omega]
      · simp only
        omega
  | regFail j q hm hc hq hl =>
    unfold Counted at ih ⊢
    rw [hl, if_neg (by simp)] at ih
    rw [if_neg (by simp [hl])]
    rw [← ih]
    refine waiters_same rfl fun k _ => ?_
    simp only [stop_clients, setClient_clients]; split
    · rename_i hk; subst hk; rfl
    · rfl
  | sendReg j hl hj hp hm =>
    refine ih.change (j := j) rfl hj (fun k hk => by simp [setClient_clients, hk]) hl (by simpa using hl) ?_
    simp only [List.length_append, List.length_singleton, setClient_clients, if_true, setClient_replies, hp, reduceCtorEq, if_false]
    omega
  | newClient name hl =>
    unfold Counted at ih ⊢
    rw [if_pos hl] at ih
    rw [if_pos (by simpa using hl)]
    refine Nat.le_trans (Nat.le_of_eq ?_) ih
    unfold waiters
    simp only
    rw [List.range_succ, List.countP_append, List.countP_singleton]
    have h0 : waits { s.setClient s.nClients ⟨⟨UInt64.ofNat s.nClients, name, 0, 0⟩, .fresh, cfg.config.brokerAddress, [], [], [], [], [], []⟩ with nClients := s.nClients + 1 } s.nClients = false := by
      simp [waits, setClient_clients]
    rw [h0]
    simp only [Bool.false_eq_true, if_false, Nat.add_zero]
    refine List.countP_congr fun k hk => ?_
    rw [List.mem_range] at hk
    simp [waits, setClient_clients, show k ≠ s.nClients by omega]
  | sendRegFail j hl hj | recvReplyFail j hl hj | cancelReg j hj | dropClient j hj =>
    exact gone j _ hj rfl rfl rfl rfl (fun k hk => by simp [setClient_clients, hk]) (by simp [setClient_clients])
  | recvReply j hl hj hp hr =>
    refine ih.change (j := j) rfl hj (fun k hk => by simp [setClient_clients, hk]) hl (by simpa using hl) ?_
    simp only [setClient_clients, if_true, setClient_regQueue, hp, reduceCtorEq, if_false]
    omega
  | request j | oneway j | submit j | refuse j | clientNext j | freeQueue j =>
    refine ih.congr (by simp) (by simp) (by simp) (by simp) (fun k => ?_)
    simp only [setClient_clients]; split
    · rename_i hk; subst hk; rfl
    · rfl
  | dropManager hl h =>
    unfold Counted
    rw [if_neg (by simp)]
    unfold waiters
    rw [List.countP_eq_zero]
    intro k hk
    rw [List.mem_range] at hk
    simp [waits, (h k hk).2]
  | _ => apply ih.congr <;> simp

/-- While a client waits for its registration and there is no reply, a registration is on the way. -/
theorem registration_on_the_way {cfg : Cfg} {s : State} (h : Reachable cfg s) {i : Nat} (hi : i < s.nClients) (hw : (s.clients i).phase = .waiting)
    (hr : s.replies = 0) : s.regQueue ≠ [] ∧ s.managerAlive = true := by
  have hc := counted h
  have hp : 0 < waiters s := by
    unfold waiters
    rw [List.countP_pos_iff]
    exact ⟨i, List.mem_range.mpr hi, by simp [waits, hw]⟩
  unfold Counted at hc
  split at hc
  · rename_i hm
    refine ⟨?_, hm⟩
    intro h0
    rw [h0, hr] at hc
    simp at hc
    omega
  · omega

/-- A client that has sent its registration does not go back. -/
theorem not_fresh_again {cfg : Cfg} {s s' : State} {a : Act} (hs : step cfg s a = some s') {i : Nat} (hi : i < s.nClients)
    (hp : (s.clients i).phase ≠ .fresh) : (s'.clients i).phase ≠ .fresh := by
  have same : (∀ k, (s'.clients k).phase = (s.clients k).phase) → (s'.clients i).phase ≠ .fresh := fun h => by rw [h]; exact hp
  have at' : ∀ (j : Nat) (c : ClientSt), c.phase ≠ .fresh → ((s.setClient j c).clients i).phase ≠ .fresh := by
    intro j c hc
    simp only [setClient_clients]
    split
    · exact hc
    · exact hp
  cases step_cases hs with
  | startOk net hm s2 h2 => rcases h2 with ⟨rfl, hb⟩ | ⟨hb, rfl⟩ <;> simpa using hp
  | out j auth net cmd q s'' hm hv ha hq he =>
    cases he with
    | lost c c2 b s3 hcc h2 hb hp' => simpa [hp'.clients_phase] using hp
    | connecting c c2 b s3 k hcc h2 hb hp' hj ha hl => simpa [hp'.clients_phase] using hp
    | failed => simpa using hp
    | sent => simpa using hp
  | inb b e q s'' hm ha hv hq he => cases he <;> simpa using hp
  | connectOk => simpa using hp
  | reg j q hm hc hq hl | regFail j q hm hc hq hl =>
    simp only [stop_clients, setClient_clients]; split
    · rename_i hk; subst hk; exact hp
    · exact hp
  | sendReg j hl hj hp' hm => exact at' j _ (by simp)
  | newClient name hl =>
    simp only [setClient_clients]
    rw [if_neg (by omega)]
    exact hp
  | sendRegFail j | recvReplyFail j | cancelReg j | dropClient j => exact at' j _ (by simp)
  | recvReply j hl hj hp hr => exact at' j _ (by simp)
  | request j | oneway j | submit j | refuse j | clientNext j | freeQueue j =>
    simp only [setClient_clients]; split
    · rename_i hk; subst hk; exact hp
    · exact hp
  | _ => simpa using hp

end Neutron.Sys
