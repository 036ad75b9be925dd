import Verif.Proof.SysDeliver

/-!
# What clients hand over: calls, ids, counters
-/

namespace Neutron.Sys

open Neutron

/-- How one step changes the client side of client `i`. -/
inductive ClientStep (s s' : State) (a : Act) (i : Nat) : Prop where
  | same (hc : (s'.clients i).core = (s.clients i).core) (hs : (s'.clients i).starting = (s.clients i).starting)
      (hb : (s'.clients i).submitted = (s.clients i).submitted)
      (hi : s'.issued = s.issued ∨ ∃ j out, j ≠ i ∧ s'.issued = s.issued ++ [(j, out)])
  | began (call : Call) (ha : a = .beginCall i call) (hc : (s'.clients i).core = ((s.clients i).core.issue call).1)
      (hs : (s'.clients i).starting = (s.clients i).starting ++
        [⟨((s.clients i).core.issue call).2, if call.expectsResponse then some s.issued.length else none⟩])
      (hb : (s'.clients i).submitted = (s.clients i).submitted)
      (hi : s'.issued = if call.expectsResponse then s.issued ++ [(i, ((s.clients i).core.issue call).2)] else s.issued)
  | submitted (k : Nat) (cmd : ClientCmd) (ha : a = .submit i k) (hk : (s.clients i).starting[k]? = some cmd)
      (hc : (s'.clients i).core = (s.clients i).core)
      (hs : (s'.clients i).starting = (s.clients i).starting.eraseIdx k)
      (hb : (s'.clients i).submitted = (s.clients i).submitted ++ [cmd])
      (hi : s'.issued = s.issued)
  | refused (k : Nat) (cmd : ClientCmd) (ha : a = .submit i k) (hk : (s.clients i).starting[k]? = some cmd)
      (hc : (s'.clients i).core = (s.clients i).core)
      (hs : (s'.clients i).starting = (s.clients i).starting.eraseIdx k)
      (hb : (s'.clients i).submitted = (s.clients i).submitted)
      (hi : s'.issued = s.issued)

theorem client_step {cfg : Cfg} {s s' : State} {a : Act} (hs : step cfg s a = some s') {i : Nat} (hi : i < s'.nClients) :
    (i < s.nClients ∧ ClientStep s s' a i) ∨
    (i = s.nClients ∧ s'.issued = s.issued ∧ ∃ name, a = .newClient name ∧ s'.clients i =
      ⟨⟨UInt64.ofNat i, name, 0, 0⟩, .fresh, cfg.config.brokerAddress, [], [], [], [], [], []⟩) := by
  cases step_cases hs with
  | startOk net hm s2 h2 =>
    rcases h2 with ⟨rfl, hb⟩ | ⟨hb, rfl⟩
    all_goals exact .inl ⟨by simpa using hi, .same (by simp) (by simp) (by simp) (.inl (by simp))⟩
  | out j auth net cmd q s'' hm hv ha hq he =>
    have ht : ((takeCmd s j cmd q).clients i).core = (s.clients i).core ∧
        ((takeCmd s j cmd q).clients i).starting = (s.clients i).starting ∧
        ((takeCmd s j cmd q).clients i).submitted = (s.clients i).submitted := by
      rw [takeCmd_clients]; split
      · rename_i hij; subst hij; exact ⟨rfl, rfl, rfl⟩
      · exact ⟨rfl, rfl, rfl⟩
    cases he with
    | lost c c2 b s3 hcc h2 hb hp =>
      exact .inl ⟨by simpa [hp.nClients] using hi, .same (by simp [hp.clients_core, ht.1]) (by simp [hp.clients_starting, ht.2.1])
        (by simp [hp.clients_submitted, ht.2.2]) (.inl (by simp [hp.issued]))⟩
    | connecting c c2 b s3 k hcc h2 hb hp hj ha hl =>
      exact .inl ⟨by simpa [hp.nClients] using hi, .same (by simp [hp.clients_core, ht.1]) (by simp [hp.clients_starting, ht.2.1])
        (by simp [hp.clients_submitted, ht.2.2]) (.inl (by simp [hp.issued]))⟩
    | failed | sent =>
      exact .inl ⟨by simpa using hi, .same (by simp [ht.1]) (by simp [ht.2.1]) (by simp [ht.2.2]) (.inl (by simp))⟩
  | inb b e q s'' hm ha hv hq he =>
    cases he <;> exact .inl ⟨by simpa using hi, .same (by simp) (by simp) (by simp) (.inl (by simp))⟩
  | newClient name hl =>
    by_cases hij : i = s.nClients
    · subst hij; exact .inr ⟨rfl, rfl, name, rfl, by simp [setClient_clients]⟩
    · simp only at hi
      exact .inl ⟨by omega, .same (by simp [setClient_clients, hij]) (by simp [setClient_clients, hij])
        (by simp [setClient_clients, hij]) (.inl rfl)⟩
  | reg j | regFail j | sendRegFail j | sendReg j | recvReply j | recvReplyFail j | cancelReg j | clientNext j | dropClient j
    | freeQueue j =>
    by_cases hij : i = j
    · subst hij; exact .inl ⟨by simpa using hi, .same (by simp [setClient_clients]) (by simp [setClient_clients])
        (by simp [setClient_clients]) (.inl (by simp))⟩
    · exact .inl ⟨by simpa using hi, .same (by simp [setClient_clients, hij]) (by simp [setClient_clients, hij])
        (by simp [setClient_clients, hij]) (.inl (by simp))⟩
  | request j call hj hp hr =>
    by_cases hij : i = j
    · subst hij
      exact .inl ⟨by simpa using hi, .began call rfl (by simp [setClient_clients]) (by simp [setClient_clients, hr])
        (by simp [setClient_clients]) (by simp [hr])⟩
    · exact .inl ⟨by simpa using hi, .same (by simp [setClient_clients, hij]) (by simp [setClient_clients, hij])
        (by simp [setClient_clients, hij]) (.inr ⟨j, ((s.clients j).core.issue call).2, fun h => hij h.symm, rfl⟩)⟩
  | oneway j call hj hp hr =>
    by_cases hij : i = j
    · subst hij
      exact .inl ⟨by simpa using hi, .began call rfl (by simp [setClient_clients]) (by simp [setClient_clients, hr])
        (by simp [setClient_clients]) (by simp [hr])⟩
    · exact .inl ⟨by simpa using hi, .same (by simp [setClient_clients, hij]) (by simp [setClient_clients, hij])
        (by simp [setClient_clients, hij]) (.inl (by simp))⟩
  | submit j k cmd hj hk he =>
    by_cases hij : i = j
    · subst hij
      exact .inl ⟨by simpa using hi, .submitted k cmd rfl hk (by simp [setClient_clients]) (by simp [setClient_clients])
        (by simp [setClient_clients]) (by simp)⟩
    · exact .inl ⟨by simpa using hi, .same (by simp [setClient_clients, hij]) (by simp [setClient_clients, hij])
        (by simp [setClient_clients, hij]) (.inl (by simp))⟩
  | refuse j k cmd hj hk he =>
    by_cases hij : i = j
    · subst hij
      exact .inl ⟨by simpa using hi, .refused k cmd rfl hk (by simp [setClient_clients]) (by simp [setClient_clients])
        (by simp [setClient_clients]) (by simp)⟩
    · exact .inl ⟨by simpa using hi, .same (by simp [setClient_clients, hij]) (by simp [setClient_clients, hij])
        (by simp [setClient_clients, hij]) (.inl (by simp))⟩
  | _ => exact .inl ⟨by simpa using hi, .same (by simp) (by simp) (by simp) (.inl (by simp))⟩

/-- The command is what some API call of client `i` issues. -/
def MadeBy (i : Nat) (cmd : ClientCmd) : Prop :=
  ∃ (core : Client) (call : Call), core.clientId = UInt64.ofNat i ∧ cmd.out = (core.issue call).2 ∧
    cmd.tok.isSome = call.expectsResponse

/-- Everything clients hand over comes from API calls. -/
def Made (s : State) : Prop :=
  ∀ i, i < s.nClients → ∀ cmd, cmd ∈ (s.clients i).starting ++ (s.clients i).submitted → MadeBy i cmd

theorem made {cfg : Cfg} {s : State} (h : Reachable cfg s) : Made s := by
  refine h.induct (P := Made) (fun i hi => absurd hi (Nat.not_lt_zero i)) ?_
  intro s a s' hr ih hs i hi cmd hm
  rcases client_step hs hi with ⟨hi', hc⟩ | ⟨rfl, _, name, _, hc⟩
  · have ih := ih i hi'
    cases hc with
    | same h1 h2 h3 => rw [h2, h3] at hm; exact ih cmd hm
    | began call ha h1 h2 h3 h4 =>
      rw [h2, h3, List.mem_append, List.mem_append, List.mem_singleton] at hm
      rcases hm with (hm | rfl) | hm
      · exact ih cmd (List.mem_append_left _ hm)
      · exact ⟨(s.clients i).core, call, (wf hr).ids i hi', rfl, by cases call.expectsResponse <;> simp⟩
      · exact ih cmd (List.mem_append_right _ hm)
    | submitted k c ha hk h1 h2 h3 h4 =>
      rw [h2, h3, List.mem_append, List.mem_append, List.mem_singleton] at hm
      rcases hm with hm | hm | rfl
      · exact ih cmd (List.mem_append_left _ (List.mem_of_mem_eraseIdx hm))
      · exact ih cmd (List.mem_append_right _ hm)
      · exact ih cmd (List.mem_append_left _ (List.mem_of_getElem? hk))
    | refused k c ha hk h1 h2 h3 h4 =>
      rw [h2, h3, List.mem_append] at hm
      rcases hm with hm | hm
      · exact ih cmd (List.mem_append_left _ (List.mem_of_mem_eraseIdx hm))
      · exact ih cmd (List.mem_append_right _ hm)
  · rw [hc] at hm; simp at hm

theorem made_handled {cfg : Cfg} {s : State} (h : Reachable cfg s) {i : Nat} (hi : i < s.nClients) {cmd : ClientCmd}
    (hm : cmd ∈ (s.clients i).handled) : MadeBy i cmd :=
  made h i hi cmd (List.mem_append_right _ (((cmd_ h).submitted i hi).subset (List.mem_append_left _ hm)))
where cmd_ (h : Reachable cfg s) := Sys.cmd h

theorem MadeBy.not_pong {i : Nat} {cmd : ClientCmd} (h : MadeBy i cmd) : cmd.out ≠ .pong := by
  obtain ⟨core, call, _, ho, _⟩ := h
  rw [ho]; cases call <;> simp [Client.issue]

theorem run_written {cfg : Cfg} {as : List Act} {s : State} (h : Run cfg as s) (hn : NoWriteFailure as) (b : BrokerAddress) :
    (s.conns b).written = (s.conns b).processed := by
  induction h with
  | nil => rfl
  | @snoc as s s' a hr hs ih =>
    have ih := ih fun b w hm => hn b w (List.mem_append_left _ hm)
    have hcn : Conn s := conn ⟨_, hr⟩
    have hlast : ∀ b w, a = Act.connCmd b w → w = .ok := fun b w hm => hn b w (by simp [hm])
    cases step_cases hs with
    | startOk net hm s2 h2 =>
      rcases h2 with ⟨rfl, hb⟩ | ⟨hb, rfl⟩
      · simpa using ih
      · by_cases hbb : b = cfg.config.brokerAddress
        · subst hbb; simp [dialed, setConn_conns, freshConn]
        · simp [dialed, setConn_conns, hbb, ih]
    | out j auth net cmd q s'' hm hv ha hq he =>
      have hc1 : Conn (takeCmd s j cmd q) := hcn.congr (by simp) (by simp) (by simp)
      cases he with
      | lost c c2 b' s3 hcc h2 hb hp => simpa [hp.conns hc1] using ih
      | connecting c c2 b' s3 k hcc h2 hb hp hj ha hl =>
        simp only [Sys.pushed, setConn_conns]; split
        · rename_i hx; subst hx; simpa [hp.conns hc1] using ih
        · simpa [hp.conns hc1] using ih
      | failed => simpa using ih
      | sent =>
        simp only [Sys.pushed, setConn_conns]; split
        · rename_i hx; subst hx; simpa using ih
        · simpa using ih
    | inb b' e q s'' hm ha hv hq he =>
      have ht : ((takeEvent s b' e q).conns b).written = (s.conns b).written ∧
          ((takeEvent s b' e q).conns b).processed = (s.conns b).processed := by
        unfold takeEvent; simp only [setConn_conns]; split
        · rename_i hx; subst hx; exact ⟨rfl, rfl⟩
        · exact ⟨rfl, rfl⟩
      cases he with
      | pingFailed => simpa [ht] using ih
      | ping =>
        simp only [Sys.pushed, setConn_conns]; split
        · rename_i hx; subst hx; simpa [ht] using ih
        · simpa [ht] using ih
      | other => simpa [ht] using ih
    | cmdEnd b' w | readEnd b' =>
      simp only [endConn, setConn_conns]; split
      · rename_i hx; subst hx; simpa using ih
      · simpa using ih
    | cmdOk b' c q =>
      simp only [setConn_conns]; split
      · rename_i hx; subst hx
        simp only [connTake_conns, if_true]; rw [ih]
      · rename_i hx; simp only [connTake_conns, if_neg hx]; exact ih
    | cmdFail b' c q => exact absurd (hlast _ _ rfl) (by simp)
    | cmdPanic b' c q => exact absurd (hlast _ _ rfl) (by simp)
    | readConnected b' | readForward b' =>
      simp only [setConn_conns]; split
      · rename_i hx; subst hx; simpa using ih
      · simpa using ih
    | _ => simpa using ih

theorem idsOf_append (f : Outbound → Option UInt64) (l l' : List (Nat × Outbound)) (i : Nat) :
    idsOf f (l ++ l') i = idsOf f l i ++ idsOf f l' i := List.filterMap_append

theorem countUp_succ (n : Nat) : countUp (n + 1) = countUp n ++ [UInt64.ofNat n] := by
  simp [countUp, List.range_succ]

/-- Counters. -/
def Counts (s : State) : Prop := ∀ i, i < s.nClients →
  idsOf sequenceIdOf s.issued i = countUp (idsOf sequenceIdOf s.issued i).length ∧
  (s.clients i).core.sequenceId = UInt64.ofNat (idsOf sequenceIdOf s.issued i).length ∧
  idsOf requestIdOf s.issued i = countUp (idsOf requestIdOf s.issued i).length ∧
  (s.clients i).core.requestId = UInt64.ofNat (idsOf requestIdOf s.issued i).length

theorem ofNat_succ (n : Nat) : UInt64.ofNat n + 1 = UInt64.ofNat (n + 1) := by
  rw [UInt64.ofNat_add]; rfl

theorem counts {cfg : Cfg} {s : State} (h : Reachable cfg s) : Counts s := by
  refine h.induct (P := Counts) (fun i hi => absurd hi (Nat.not_lt_zero i)) ?_
  intro s a s' hr ih hs i hi
  rcases client_step hs hi with ⟨hi', hc⟩ | ⟨rfl, hiss, name, _, hc⟩
  · obtain ⟨h1, h2, h3, h4⟩ := ih i hi'
    cases hc with
    | same hc _ _ hiss =>
      rw [hc]
      rcases hiss with hiss | ⟨j, out, hji, hiss⟩
      · rw [hiss]; exact ⟨h1, h2, h3, h4⟩
      · have : ∀ f, idsOf f (s.issued ++ [(j, out)]) i = idsOf f s.issued i := by
          intro f; rw [idsOf_append]; simp [idsOf, hji]
        rw [hiss, this, this]; exact ⟨h1, h2, h3, h4⟩
    | began call ha hcore _ _ hiss =>
      have key : ∀ f x, f x = none → idsOf f (s.issued ++ [(i, x)]) i = idsOf f s.issued i := by
        intro f x hx; rw [idsOf_append]; simp [idsOf, hx]
      have key2 : ∀ f x n, f x = some n → idsOf f (s.issued ++ [(i, x)]) i = idsOf f s.issued i ++ [n] := by
        intro f x n hx; rw [idsOf_append]; simp [idsOf, hx]
      have up : ∀ (l : List UInt64) (n : UInt64), l = countUp l.length → n = UInt64.ofNat l.length →
          l ++ [n] = countUp (l ++ [n]).length ∧ n + 1 = UInt64.ofNat (l ++ [n]).length := by
        intro l n hl hn
        have e : (l ++ [n]).length = l.length + 1 := by simp
        rw [e, countUp_succ, ← hl, hn, ofNat_succ]; exact ⟨rfl, rfl⟩
      rw [hcore, hiss]
      cases call with
      | connect => exact ⟨by simpa [Client.issue, Call.expectsResponse, key sequenceIdOf (.connect ⟨none, none, none⟩) rfl] using h1, by simpa [Client.issue, Call.expectsResponse, key sequenceIdOf (.connect ⟨none, none, none⟩) rfl] using h2, by simpa [Client.issue, Call.expectsResponse, key requestIdOf (.connect ⟨none, none, none⟩) rfl] using h3, by simpa [Client.issue, Call.expectsResponse, key requestIdOf (.connect ⟨none, none, none⟩) rfl] using h4⟩
      | connectToProxy p => exact ⟨by simpa [Client.issue, Call.expectsResponse, key sequenceIdOf (.connect ⟨none, none, some (.proxy "" p)⟩) rfl] using h1, by simpa [Client.issue, Call.expectsResponse, key sequenceIdOf (.connect ⟨none, none, some (.proxy "" p)⟩) rfl] using h2, by simpa [Client.issue, Call.expectsResponse, key requestIdOf (.connect ⟨none, none, some (.proxy "" p)⟩) rfl] using h3, by simpa [Client.issue, Call.expectsResponse, key requestIdOf (.connect ⟨none, none, some (.proxy "" p)⟩) rfl] using h4⟩
      | flow n => simpa [Client.issue, Call.expectsResponse] using ⟨h1, h2, h3, h4⟩
      | lookupTopic t =>
        simp only [Client.issue, Call.expectsResponse, if_true]
        rw [key sequenceIdOf _ rfl, key2 requestIdOf _ (s.clients i).core.requestId rfl]
        exact ⟨h1, h2, up _ _ h3 h4⟩
      | producer t =>
        simp only [Client.issue, Call.expectsResponse, if_true]
        rw [key sequenceIdOf _ rfl, key2 requestIdOf _ (s.clients i).core.requestId rfl]
        exact ⟨h1, h2, up _ _ h3 h4⟩
      | subscribe t u =>
        simp only [Client.issue, Call.expectsResponse, if_true]
        rw [key sequenceIdOf _ rfl, key2 requestIdOf _ (s.clients i).core.requestId rfl]
        exact ⟨h1, h2, up _ _ h3 h4⟩
      | ack m =>
        simp only [Client.issue, Call.expectsResponse, if_true]
        rw [key sequenceIdOf _ rfl, key2 requestIdOf _ (s.clients i).core.requestId rfl]
        exact ⟨h1, h2, up _ _ h3 h4⟩
      | sendMessage p =>
        simp only [Client.issue, Call.expectsResponse, if_true]
        rw [key requestIdOf _ rfl, key2 sequenceIdOf _ (s.clients i).core.sequenceId rfl]
        exact ⟨(up _ _ h1 h2).1, (up _ _ h1 h2).2, h3, h4⟩
      | sendBatch p =>
        simp only [Client.issue, Call.expectsResponse, if_true]
        rw [key requestIdOf _ rfl, key2 sequenceIdOf _ (s.clients i).core.sequenceId rfl]
        exact ⟨(up _ _ h1 h2).1, (up _ _ h1 h2).2, h3, h4⟩
    | submitted k c ha hk hc _ _ hiss => rw [hc, hiss]; exact ⟨h1, h2, h3, h4⟩
    | refused k c ha hk hc _ _ hiss => rw [hc, hiss]; exact ⟨h1, h2, h3, h4⟩
  · have : ∀ f, idsOf f s'.issued s.nClients = [] := by
      intro f
      rw [hiss]; unfold idsOf; rw [List.filterMap_eq_nil_iff]
      intro p hp
      obtain ⟨t, ht⟩ := List.getElem?_of_mem hp
      have := ((req hr).issued t p.1 p.2 ht).1
      rw [if_neg (by omega)]
    rw [this, this, hc]
    exact ⟨rfl, rfl, rfl, rfl⟩

end Neutron.Sys
