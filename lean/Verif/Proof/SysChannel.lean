import Verif.Proof.SysDeliver

/-!
# A client's inbound channel, step by step
-/

namespace Neutron.Sys

open Neutron

theorem nClients_mono {cfg : Cfg} {s s' : State} {a : Act} (hs : step cfg s a = some s') : s.nClients ≤ s'.nClients := by
  cases step_cases hs with
  | startOk net hm s2 h2 => rcases h2 with ⟨rfl, hb⟩ | ⟨hb, rfl⟩ <;> simp
  | out j auth net cmd q s'' hm hv ha hq he =>
    cases he with
    | lost c c2 b s3 hcc h2 hb hp => simp [hp.nClients]
    | connecting c c2 b s3 k hcc h2 hb hp hj ha hl => simp [hp.nClients]
    | _ => simp
  | inb b e q s'' hm ha hv hq he => cases he <;> simp
  | newClient => simp
  | _ => simp

/-- The engine's end of a channel does not come back. -/
theorem engineEnd_mono {cfg : Cfg} {s s' : State} {a : Act} (hs : step cfg s a = some s') {i : Nat} (h : engineEnd s i = false) :
    engineEnd s' i = false := by
  have hm : s.mode = .stopped := by
    unfold engineEnd at h
    cases hm : s.mode <;> simp_all
  have hm' := stopped_step hs hm
  unfold engineEnd at h ⊢
  rw [hm] at h
  rw [hm']
  simp only [Bool.and_eq_false_iff, decide_eq_false_iff_not] at h ⊢
  cases step_cases hs with
  | startOk _ hx | startFail _ hx | outGone _ _ _ hx | inLost _ hx | reg _ _ hx | regFail _ _ hx | regClosedStop hx | regClosed hx | noConn hx =>
    rw [hm] at hx; cases hx
  | out _ _ _ _ _ _ hx => rw [hm] at hx; cases hx
  | inb _ _ _ _ hx => rw [hm] at hx; cases hx
  | connectOk _ _ _ _ hx | connectLost _ _ _ hx => rw [hm] at hx; cases hx
  | dropManager => exact .inl rfl
  | sendReg j hl hj hp hx => exact absurd hm hx
  | _ => simpa using h

/-- What a step does to the inbound channel of client `i`. -/
inductive ChannelStep (s : State) (a : Act) (i : Nat) (s' : State) : Prop where
  | same (hq : (s'.clients i).inbox = (s.clients i).inbox) (ht : (s'.clients i).taken = (s.clients i).taken)
  | taken (e : Event) (q : List Event) (ha : a = .clientNext i) (h0 : (s.clients i).inbox = e :: q)
      (hq : (s'.clients i).inbox = q) (ht : (s'.clients i).taken = (s.clients i).taken ++ [e])
      (he : engineEnd s' i = engineEnd s i)
  | added (e : Event) (hq : (s'.clients i).inbox = (s.clients i).inbox ++ [e]) (ht : (s'.clients i).taken = (s.clients i).taken)
      (hv : i ∈ s.vec) (he : engineEnd s i = true) (he' : engineEnd s' i = true) (hm' : s'.mode ≠ .stopped)
      (hsrc : (∃ b e0, e0 ∈ (s.conns b).outbox ∧ e.inb = adjust b e0.inb) ∨ ∃ x, (x, TokResult.resolved e) ∈ s.replyDone)

/-- A client that does not exist yet has no events. -/
def Blank (s : State) : Prop := ∀ i, s.nClients ≤ i → (s.clients i).inbox = [] ∧ (s.clients i).taken = []

theorem channel_step {cfg : Cfg} {s s' : State} {a : Act} (h0 : Blank s) (hs : step cfg s a = some s') (i : Nat) :
    ChannelStep s a i s' := by
  have run : ∀ t : State, t.mode ≠ .stopped → engineEnd t i = true := by
    intro t ht; unfold engineEnd; cases h : t.mode <;> simp_all
  cases step_cases hs with
  | startOk net hm s2 h2 => rcases h2 with ⟨rfl, hb⟩ | ⟨hb, rfl⟩ <;> exact .same (by simp) (by simp)
  | out j auth net cmd q s'' hm hv ha hq he =>
    have ht : ((takeCmd s j cmd q).clients i).inbox = (s.clients i).inbox ∧
        ((takeCmd s j cmd q).clients i).taken = (s.clients i).taken := by
      rw [takeCmd_clients]; split
      · rename_i hij; subst hij; exact ⟨rfl, rfl⟩
      · exact ⟨rfl, rfl⟩
    cases he with
    | lost c c2 b s3 hcc h2 hb hp => exact .same (by simp [hp.clients_inbox]) (by simp [hp.clients_taken])
    | connecting c c2 b s3 k hcc h2 hb hp hj ha hl => exact .same (by simp [hp.clients_inbox]) (by simp [hp.clients_taken])
    | _ => exact .same (by simp [ht]) (by simp [ht])
  | inb b e q s'' hm ha hv hq he =>
    cases he with
    | pingFailed => exact .same (by simp) (by simp)
    | ping => exact .same (by simp) (by simp)
    | other hp =>
      rcases managerSend_client (takeEvent s b e q) { e with inb := adjust b e.inb } b false i with hc | ⟨hc, hrc, _⟩
      · exact .same (by rw [hc]; simp) (by rw [hc]; simp)
      · exact .added { e with inb := adjust b e.inb } (by rw [hc]; simp) (by rw [hc]; simp)
          (by rw [recipients_iff] at hrc; simpa using hrc.1) (run _ (by simp [hm]))
          (run _ (by simp [hm])) (by simp [hm]) (.inl ⟨b, e, by simp [hq], rfl⟩)
  | connectOk r b x e hm hf =>
    rcases managerSend_client { s with mode := .idle } e b true i with hc | ⟨hc, hrc, _⟩
    · exact .same (by rw [hc]) (by rw [hc])
    · exact .added e (by rw [hc]) (by rw [hc]) (by rw [recipients_iff] at hrc; simpa using hrc.1) (run _ (by simp [hm])) (run _ (by simp)) (by simp)
        (.inr ⟨_, List.mem_of_find?_eq_some hf⟩)
  | clientNext j e q hj hp hq =>
    by_cases hij : i = j
    · subst hij; exact .taken e q rfl hq (by simp [setClient_clients]) (by simp [setClient_clients]) rfl
    · exact .same (by simp [setClient_clients, hij]) (by simp [setClient_clients, hij])
  | newClient name hl =>
    by_cases hi : i = s.nClients
    · subst hi
      have := h0 _ (Nat.le_refl _)
      exact .same (by simp [setClient_clients, this]) (by simp [setClient_clients, this])
    · exact .same (by simp [setClient_clients, hi]) (by simp [setClient_clients, hi])
  | reg j | regFail j | sendRegFail j | sendReg j | recvReply j | recvReplyFail j | cancelReg j | request j | oneway j | submit j | refuse j
    | dropClient j | freeQueue j =>
    by_cases hij : i = j
    · subst hij; exact .same (by simp [setClient_clients]) (by simp [setClient_clients])
    · exact .same (by simp [setClient_clients, hij]) (by simp [setClient_clients, hij])
  | _ => exact .same (by simp) (by simp)

theorem blank {cfg : Cfg} {s : State} (h : Reachable cfg s) : Blank s := by
  refine Reachable.induct (P := Blank) (fun i _ => ⟨rfl, rfl⟩) ?_ h
  intro s a s' hr h0 hs i hi
  have hlt := nClients_mono hs
  obtain ⟨h1, h2⟩ := h0 i (by omega)
  cases channel_step h0 hs i with
  | same hq ht => rw [hq, ht]; exact ⟨h1, h2⟩
  | taken e q ha hq => rw [h1] at hq; cases hq
  | added e hq ht hv =>
    have := (wf hr).vecLt i hv
    omega

/-- A message a client has got was read from a socket. -/
theorem message_source {cfg : Cfg} {as : List Act} {s : State} (h : Run cfg as s) {i : Nat} {m : Message}
    (hm : m ∈ messagesIn ((s.clients i).taken ++ (s.clients i).inbox)) : ∃ b, m ∈ socketMessages as b := by
  have mono : ∀ (as : List Act) (a : Act) b (m : Message), m ∈ socketMessages as b → m ∈ socketMessages (as ++ [a]) b := by
    intro as a b m h; unfold socketMessages at *; rw [List.filterMap_append]; exact List.mem_append_left _ h
  induction h with
  | nil => cases hm
  | @snoc as s s' a h hs ih =>
    have hr : Reachable cfg s := ⟨_, h⟩
    have up : m ∈ messagesIn ((s.clients i).taken ++ (s.clients i).inbox) → ∃ b, m ∈ socketMessages (as ++ [a]) b := by
      intro hm; obtain ⟨b, hb⟩ := ih hm; exact ⟨b, mono _ _ _ _ hb⟩
    cases channel_step (blank hr) hs i with
    | same hq ht => rw [hq, ht] at hm; exact up hm
    | taken e q ha h0 hq ht => rw [hq, ht] at hm; refine up ?_; rw [h0]; simpa using hm
    | added e hq ht hv he he' hm' hsrc =>
      rw [hq, ht, ← List.append_assoc, messagesIn_append, List.mem_append] at hm
      rcases hm with hm | hm
      · exact up hm
      · have hem : e.inb = .message m := by
          unfold messagesIn at hm
          cases hx : e.inb <;> simp [hx] at hm
          rw [hm]
        rcases hsrc with ⟨b, e0, h1, h2⟩ | ⟨x, hx⟩
        · rw [hem] at h2
          have h2' := (adjust_message b e0.inb m).mp h2.symm
          have h3 : e0 ∈ (s.conns b).reads := by rw [((conn hr).ok b).events]; exact List.mem_append_right _ h1
          obtain ⟨v, hv1, hv2⟩ := run_reads h b e0 (.inl h3)
          refine ⟨b, mono _ _ _ _ ?_⟩
          unfold socketMessages
          rw [List.mem_filterMap]
          exact ⟨_, hv1, by simp [hv2, h2']⟩
        · obtain ⟨b1, c1, _, _, he1⟩ := (rep hr).done x e hx
          rw [(rep hr).connected b1 e he1] at hem; cases hem

end Neutron.Sys
