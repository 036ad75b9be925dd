import Verif.Proof.SysRun

/-!
# Delivery of events to clients, step by step
-/

namespace Neutron.Sys

open Neutron

/-- No request waits for a message. -/
theorem message_unresolved {s : State} (h : Req s) {e : Event} {m : Message} (he : e.inb = .message m) :
    s.resolver.tryResolve e.inb = none := by
  cases hr : s.resolver.tryResolve e.inb with
  | none => rfl
  | some p =>
    obtain ⟨k, hk, hf, _⟩ := tryResolve_some (r' := p.2) (t := p.1) hr
    rw [he] at hk
    simp only [Inbound.tryKey, Option.some.injEq] at hk
    subst hk
    obtain ⟨i, out, hi, ho⟩ := h.waiting _ _ (mem_find hf)
    obtain ⟨core, call, _, _, rfl⟩ := (h.issued _ _ _ hi).2
    cases call <;> simp [Client.issue, Outbound.tryKey] at ho

/-- No connection waits for a message. -/
theorem message_forwarded {s : State} (h : Rep s) {b : BrokerAddress} {m : Message} :
    (s.conns b).resolver.tryResolve (.message m) = none := by
  cases hr : (s.conns b).resolver.tryResolve (.message m) with
  | none => rfl
  | some p =>
    obtain ⟨k, hk, hf, _⟩ := tryResolve_some (r' := p.2) (t := p.1) hr
    have := (h.waiting b k _ (mem_find hf)).1
    subst this
    simp [Inbound.tryKey] at hk

theorem recipients_iff (s : State) (e : Event) (b : BrokerAddress) (i : Nat) :
    i ∈ recipients s e b ↔ i ∈ s.vec ∧ (s.clients i).broker = b ∧
      ∀ id, e.inb.tryConsumerOrProducerId = some id → (s.clients i).core.clientId = id := by
  unfold recipients
  rw [List.mem_filter]
  cases e.inb.tryConsumerOrProducerId <;> simp

/-- What `managerSend` does to one client: nothing, or one event in its inbox. -/
theorem managerSend_client (s : State) (e : Event) (b : BrokerAddress) (v : Bool) (i : Nat) :
    ((managerSend s e b v).clients i = s.clients i ∨
     ((managerSend s e b v).clients i = { s.clients i with inbox := (s.clients i).inbox ++ [e] } ∧
      i ∈ recipients s e b ∧ (s.clients i).phase ≠ .gone)) := by
  unfold managerSend
  split
  · exact .inl rfl
  · simp only; split
    · rename_i h; exact .inr ⟨rfl, h⟩
    · exact .inl rfl

/-- A message goes to the client with its id on the connection it came from, and nowhere else. -/
theorem managerSend_message {s : State} (h : Req s) {e : Event} {m : Message} (he : e.inb = .message m) (b : BrokerAddress)
    (v : Bool) (i : Nat) :
    (managerSend s e b v).clients i =
      if i ∈ s.vec ∧ (s.clients i).broker = b ∧ (s.clients i).core.clientId = m.consumerId ∧ (s.clients i).phase ≠ .gone
      then { s.clients i with inbox := (s.clients i).inbox ++ [e] } else s.clients i := by
  unfold managerSend
  rw [message_unresolved h he]
  simp only [recipients_iff, he, Inbound.tryConsumerOrProducerId, Option.some.injEq, forall_eq']
  congr 1
  simp only [and_assoc]

theorem messagesIn_append (l l' : List Event) : messagesIn (l ++ l') = messagesIn l ++ messagesIn l' := List.filterMap_append

theorem addressedTo_append (id : UInt64) (l l' : List Message) : addressedTo id (l ++ l') = addressedTo id l ++ addressedTo id l' :=
  List.filter_append ..

theorem messagesIn_other {e : Event} (h : ∀ m, e.inb ≠ .message m) : messagesIn [e] = [] := by
  unfold messagesIn
  cases he : e.inb <;> simp_all

theorem messagesIn_message {e : Event} {m : Message} (h : e.inb = .message m) : messagesIn [e] = [m] := by
  simp [messagesIn, h]

/-- Messages for `id` seen by client `i`, or on their way to it on connection `b`. -/
def stream (s : State) (i : Nat) (b : BrokerAddress) : List Message :=
  addressedTo (s.clients i).core.clientId (messagesIn ((s.clients i).taken ++ (s.clients i).inbox)) ++
  addressedTo (s.clients i).core.clientId (messagesIn (s.conns b).outbox)

theorem managerSend_seen {s : State} (h : Req s) (e : Event) (b : BrokerAddress) (v : Bool) {i : Nat}
    (hg : (s.clients i).phase ≠ .gone) :
    addressedTo (s.clients i).core.clientId
      (messagesIn (((managerSend s e b v).clients i).taken ++ ((managerSend s e b v).clients i).inbox)) =
    addressedTo (s.clients i).core.clientId (messagesIn ((s.clients i).taken ++ (s.clients i).inbox)) ++
      if i ∈ s.vec ∧ (s.clients i).broker = b then addressedTo (s.clients i).core.clientId (messagesIn [e]) else [] := by
  by_cases hm : ∃ m, e.inb = .message m
  · obtain ⟨m, hm⟩ := hm
    rw [managerSend_message h hm, messagesIn_message hm]
    by_cases hid : (s.clients i).core.clientId = m.consumerId
    · by_cases hc : i ∈ s.vec ∧ (s.clients i).broker = b
      · rw [if_pos ⟨hc.1, hc.2, hid, hg⟩, if_pos hc]
        simp only [← List.append_assoc]
        rw [messagesIn_append, messagesIn_message hm, addressedTo_append]
      · rw [if_neg (fun x => hc ⟨x.1, x.2.1⟩), if_neg hc, List.append_nil]
    · rw [if_neg (fun x => hid x.2.2.1)]
      have : addressedTo (s.clients i).core.clientId [m] = [] := by
        have : m.consumerId ≠ (s.clients i).core.clientId := fun h => hid h.symm
        simp [addressedTo, this]
      rw [this]; simp
  · have hn : ∀ m, e.inb ≠ .message m := fun m hh => hm ⟨m, hh⟩
    rw [messagesIn_other hn]
    have : addressedTo (s.clients i).core.clientId [] = [] := rfl
    rw [this, ite_self, List.append_nil]
    rcases managerSend_client s e b v i with hc | ⟨hc, _⟩
    · rw [hc]
    · rw [hc]
      simp only [← List.append_assoc]
      rw [messagesIn_append, messagesIn_other hn, List.append_nil]

theorem adjust_message (b : BrokerAddress) (i : Inbound) (m : Message) : adjust b i = .message m ↔ i = .message m := by
  cases i <;> simp [adjust]

theorem messagesIn_adjust (b : BrokerAddress) (e : Event) : messagesIn [{ e with inb := adjust b e.inb }] = messagesIn [e] := by
  by_cases hm : ∃ m, e.inb = .message m
  · obtain ⟨m, hm⟩ := hm
    rw [messagesIn_message (m := m) (by simp [adjust_message, hm]), messagesIn_message hm]
  · have hn : ∀ m, e.inb ≠ .message m := fun m hh => hm ⟨m, hh⟩
    rw [messagesIn_other hn, messagesIn_other (fun m hh => hn m ((adjust_message b e.inb m).mp hh))]

theorem stream_congr {s s' : State} {i : Nat} {b : BrokerAddress} (h1 : (s'.clients i).core.clientId = (s.clients i).core.clientId)
    (h2 : (s'.clients i).taken ++ (s'.clients i).inbox = (s.clients i).taken ++ (s.clients i).inbox)
    (h3 : (s'.conns b).outbox = (s.conns b).outbox) : stream s' i b = stream s i b := by
  unfold stream; rw [h1, h2, h3]

/-- While a registered client stays on `b` and the engine runs, its stream only grows by what the socket of `b` delivers. -/
theorem stream_step {cfg : Cfg} {s s' : State} {a : Act} (hr : Reachable cfg s) (hs : step cfg s a = some s') {i : Nat}
    {b : BrokerAddress} (hi : i < s.nClients) (hv : i ∈ s.vec) (hb : (s.clients i).broker = b) (hg : (s.clients i).phase ≠ .gone)
    (hm' : s'.mode ≠ .stopped) :
    stream s' i b = stream s i b ++ addressedTo (s.clients i).core.clientId (socketMessages [a] b) := by
  have hcn := conn hr
  have hrq := req hr
  have hrp := rep hr
  have key : ∀ (a : Act), (∀ v ans, a ≠ .connRead b (.command v ans)) → socketMessages [a] b = [] := by
    intro a ha
    unfold socketMessages
    cases a <;> first | rfl | skip
    rename_i b' x
    cases x <;> first | rfl | skip
    rename_i v ans
    by_cases hbb : b' = b
    · subst hbb; exact absurd rfl (ha v ans)
    · simp [hbb]
  have hnil : ∀ id, addressedTo id [] = [] := fun _ => rfl
  cases step_cases hs with
  | startOk net hm s2 h2 =>
    rw [key _ (by simp), hnil, List.append_nil]
    rcases h2 with ⟨rfl, hbb⟩ | ⟨hbb, rfl⟩
    · rfl
    · refine stream_congr rfl rfl ?_
      show ((dialed s _).conns b).outbox = _
      rw [dialed_conns_eq hcn hbb]
  | startFail | outGone | inLost | regClosedStop | noConn | connectLost | regFail => exact absurd rfl hm'
  | out j auth net cmd q s'' hm hvj ha hq he =>
    rw [key _ (by simp), hnil, List.append_nil]
    have hc1 : Conn (takeCmd s j cmd q) := hcn.congr (by simp) (by simp) (by simp)
    have ht : ((takeCmd s j cmd q).clients i).core = (s.clients i).core ∧ ((takeCmd s j cmd q).clients i).taken = (s.clients i).taken ∧
        ((takeCmd s j cmd q).clients i).inbox = (s.clients i).inbox := by
      rw [takeCmd_clients]; split
      · rename_i hij; subst hij; exact ⟨rfl, rfl, rfl⟩
      · exact ⟨rfl, rfl, rfl⟩
    cases he with
    | failed => exact absurd rfl hm'
    | lost => exact absurd rfl hm'
    | sent k hn hj ha hl =>
      refine stream_congr (by simp [ht.1]) (by simp [ht.2]) ?_
      simp only [Sys.pushed, setConn_conns]; split
      · rename_i hbb; subst hbb; simp
      · simp
    | connecting c c2 b' s3 k hcc h2 hbb hp hj ha hl =>
      refine stream_congr (by simp [hp.clients_core, ht.1]) (by simp [hp.clients_taken, hp.clients_inbox, ht.2]) ?_
      simp only [Sys.pushed, setConn_conns]; split
      · rename_i hx; subst hx; simp [hp.conns hc1]
      · simp [hp.conns hc1]
  | inb b' e q s'' hm ha hvv hq he =>
    rw [key _ (by simp), hnil, List.append_nil]
    have hout : ∀ x, ((takeEvent s b' e q).conns x).outbox = if x = b' then q else (s.conns x).outbox := by
      intro x; unfold takeEvent; simp only [setConn_conns]; split <;> rfl
    cases he with
    | pingFailed => exact absurd rfl hm'
    | ping hping ha' hl =>
      unfold stream
      have h1 : ∀ x, ((pushed { takeEvent s b' e q with
          dispatches := (takeEvent s b' e q).dispatches ++ [⟨b', e, false, .pong⟩] } b' ⟨.pong, none, none⟩).conns x).outbox =
          if x = b' then q else (s.conns x).outbox := by
        intro x; simp only [Sys.pushed, setConn_conns]
        split
        · rename_i hx; subst hx; simp [hout]
        · rename_i hx; rw [hout, if_neg hx]
      rw [h1]
      simp only [pushed_clients, takeEvent_clients]
      congr 1
      split
      · rename_i hx; subst hx
        rw [hq]
        show _ = addressedTo _ (messagesIn ([e] ++ q))
        rw [messagesIn_append, messagesIn_other (by simp [hping])]; rfl
      · rfl
    | other hping =>
      unfold stream
      have hreq1 : Req (takeEvent s b' e q) := by apply hrq.congr <;> simp
      have hs1 := managerSend_seen hreq1 { e with inb := adjust b' e.inb } b' false (i := i) (by simpa using hg)
      subst hb
      by_cases hx : (s.clients i).broker = b'
      · rw [if_pos (by simpa using ⟨hv, hx⟩)] at hs1
        simp only [takeEvent_clients] at hs1
        rw [managerSend_clients_core]
        simp only [takeEvent_clients]
        rw [hs1, messagesIn_adjust, managerSend_conns, hout, if_pos hx, hx, hq]
        show _ = _ ++ addressedTo _ (messagesIn ([e] ++ q))
        rw [List.append_assoc, ← addressedTo_append, ← messagesIn_append]
      · rw [if_neg (by simpa using fun _ => hx)] at hs1
        simp only [takeEvent_clients] at hs1
        rw [managerSend_clients_core]
        simp only [takeEvent_clients]
        rw [hs1, managerSend_conns, hout, if_neg hx, List.append_nil]
  | reg j q hm hc hq hl =>
    rw [key _ (by simp), hnil, List.append_nil]
    refine stream_congr ?_ ?_ rfl <;> (simp only [setClient_clients]; split <;> simp_all)
  | connectOk r b' x e hm hf =>
    rw [key _ (by simp), hnil, List.append_nil]
    obtain ⟨b1, c1, hs1, hr1, he1⟩ := hrp.done x e (List.mem_of_find?_eq_some hf)
    have hec := hrp.connected b1 e he1
    unfold stream
    have hreq1 : Req { s with mode := .idle } := by apply hrq.congr <;> simp
    have hs2 := managerSend_seen hreq1 e b' true (i := i) hg
    rw [managerSend_clients_core]
    simp only at hs2 ⊢
    rw [hs2, managerSend_conns, messagesIn_other (by simp [hec])]
    simp [hnil]
  | cmdEnd b' w hl ha hq hm | readSkip b' x hl ha hx =>
    first
    | (rw [key _ (by simp), hnil, List.append_nil]; exact stream_congr (by simp) (by simp) (by simp))
    | (have : socketMessages [.connRead b' x] b = [] := by
        rcases hx with rfl | ⟨v, t, er, rfl, hx⟩
        · rfl
        · simp [socketMessages, hx]
       rw [this, hnil, List.append_nil])
  | cmdOk b' c q hl ha hq =>
    rw [key _ (by simp), hnil, List.append_nil]
    refine stream_congr (by simp) (by simp) ?_
    simp only [setConn_conns]; split
    · rename_i hx; subst hx; simp
    · simp
  | cmdFail b' c q hl ha hq | cmdPanic b' c q hl ha hq =>
    rw [key _ (by simp), hnil, List.append_nil]
    exact stream_congr (by simp) (by simp) (by simp)
  | readEnd b' x hl ha hx =>
    have : socketMessages [.connRead b' x] b = [] := by
      rcases hx with rfl | rfl | ⟨v, t, rfl, hx | ⟨inb, hx, _, hst⟩⟩
      · rfl
      · rfl
      · simp [socketMessages, hx]
      · exact absurd (by simpa using hst) hm'
    rw [this, hnil, List.append_nil]
    exact stream_congr (by simp) (by simp) (by simp)
  | readConnected b' v t inb r res hl ha hvv hres =>
    have hnm : ∀ m, inb ≠ .message m := by
      intro m hm
      rw [hm, message_forwarded hrp] at hres
      exact absurd hres (by simp)
    have : socketMessages [.connRead b' (.command v t)] b = [] := by
      unfold socketMessages
      simp only [List.filterMap_cons, List.filterMap_nil, hvv]
      cases inb <;> simp_all
    rw [this, hnil, List.append_nil]
    refine stream_congr rfl rfl ?_
    simp only [setConn_conns]; split
    · rename_i hx; subst hx; rfl
    · rfl
  | readForward b' v t inb hl ha hvv hres hm =>
    unfold stream
    simp only [setConn_clients, setConn_conns]
    by_cases hx : b = b'
    · subst hx
      rw [if_pos rfl]
      simp only [messagesIn_append, addressedTo_append, List.append_assoc]
      congr 3
      unfold socketMessages messagesIn
      cases inb <;> simp_all
    · rw [if_neg hx]
      have : socketMessages [.connRead b' (.command v t)] b = [] := by
        unfold socketMessages; simp [Ne.symm hx]
      rw [this, hnil, List.append_nil]
  | newClient name hl =>
    rw [key _ (by simp), hnil, List.append_nil]
    refine stream_congr ?_ ?_ rfl <;> (simp only [setClient_clients]; rw [if_neg (by omega)])
  | request j call hj hp hre | oneway j call hj hp hre =>
    rw [key _ (by simp), hnil, List.append_nil]
    refine stream_congr ?_ ?_ rfl <;> (simp only [setClient_clients]; split <;> simp_all [issue_clientId])
  | sendRegFail j _ _ _ _ | sendReg j _ _ _ _ | recvReply j _ _ _ _ | recvReplyFail j _ _ _ _ _ | cancelReg j _ _
  | clientNext j e q hi hp hq | dropClient j _ _ _ | refuse j k cmd _ _ _ | submit j k cmd _ _ _ | freeQueue j _ _ _ =>
    rw [key _ (by simp), hnil, List.append_nil]
    refine stream_congr ?_ ?_ rfl <;> (simp only [setClient_clients]; split <;> simp_all)
  | _ => rw [key _ (by simp), hnil, List.append_nil]; try exact stream_congr rfl rfl rfl

end Neutron.Sys
