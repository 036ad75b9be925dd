import Verif.Proof.SysDeliver
import Verif.Spec.Traces

/-!
# Delivery of messages: C24, C25, C26
-/

namespace Neutron.Props

open Neutron Neutron.Sys Neutron.Trace

/-! ## C24 -/

/-- No request, and no internal wait of the engine, is ever completed by a message. -/
theorem C24_never_a_response {cfg : Cfg} {s : State} (h : Reachable cfg s) :
    (∀ (t : Nat) e, (t, TokResult.resolved e) ∈ s.outcomes → ∀ m, e.inb ≠ .message m) ∧
    (∀ (r : Nat) e, (r, TokResult.resolved e) ∈ s.replyDone → ∀ m, e.inb ≠ .message m) := by
  refine ⟨fun t e ho m hm => ?_, fun r e ho m hm => ?_⟩
  · obtain ⟨i, out, k, h1, h2, h3⟩ := (req h).done t e ho
    rw [hm] at h3
    simp only [Inbound.tryKey, Option.some.injEq] at h3
    subst h3
    obtain ⟨core, call, _, _, rfl⟩ := ((req h).issued t i out h1).2
    cases call <;> simp [Client.issue, Outbound.tryKey] at h2
  · obtain ⟨b, c, _, _, he⟩ := (rep h).done r e ho
    rw [(rep h).connected b e he] at hm
    exact absurd hm (by simp)

/-- A message read from a live connection while the engine runs is put, unchanged, behind everything else the engine has yet
to take from that connection; nothing completes. -/
theorem C24_read {cfg : Cfg} {s : State} (h : Reachable cfg s) {b : BrokerAddress} {v : MessageCommand} {m : Message}
    {ans : Option Tok} (hl : (s.conns b).alive = true) (hb : b ∈ s.addrs) (hm : s.mode ≠ .stopped)
    (hv : Inbound.ofCommand v = .ok (.message m)) :
    ∃ s', step cfg s (.connRead b (.command v ans)) = some s' ∧ (s'.conns b).outbox = (s.conns b).outbox ++ [⟨.message m, ans⟩] ∧
      s'.outcomes = s.outcomes ∧ s'.replyDone = s.replyDone ∧ ∀ i, s'.clients i = s.clients i := by
  refine ⟨s.setConn b { s.conns b with outbox := (s.conns b).outbox ++ [⟨.message m, ans⟩],
                                       reads := (s.conns b).reads ++ [⟨.message m, ans⟩] }, ?_, ?_, ?_⟩
  · simp [step, connRead, hl, hb, hv, message_forwarded (rep h), hm]
  · simp [setConn_conns]
  · simp

/-- When the engine takes a message from a connection, exactly the registered, undropped client with the message's consumer id
on that connection gets it; nothing completes. -/
theorem C24_passed_on {cfg : Cfg} {s s' : State} (h : Reachable cfg s) {b : BrokerAddress} {m : Message} {ans : Option Tok}
    {q : List Event} (hq : (s.conns b).outbox = ⟨.message m, ans⟩ :: q) (hs : step cfg s (.engIn b) = some s') :
    s'.mode = s.mode ∧ s'.outcomes = s.outcomes ∧ (s'.conns b).outbox = q ∧
    ∀ i, (s'.clients i).inbox = (s.clients i).inbox ++
      if i ∈ s.vec ∧ (s.clients i).broker = b ∧ (s.clients i).core.clientId = m.consumerId ∧ (s.clients i).phase ≠ .gone
      then [⟨.message m, ans⟩] else [] := by
  cases step_cases hs with
  | inLost _ _ _ _ hq' => rw [hq] at hq'; exact absurd hq' (by simp)
  | inb _ e q' _ hm ha hv hq' he =>
    rw [hq] at hq'
    simp only [List.cons.injEq] at hq'
    obtain ⟨rfl, rfl⟩ := hq'
    cases he with
    | pingFailed hp => exact absurd hp (by simp)
    | ping hp => exact absurd hp (by simp)
    | other _ =>
      have hreq1 : Req (takeEvent s b ⟨.message m, ans⟩ q) := by apply (req h).congr <;> simp
      have hout : ((takeEvent s b ⟨.message m, ans⟩ q).conns b).outbox = q := by
        unfold takeEvent; simp [setConn_conns]
      refine ⟨by simp, ?_, by simp [hout], fun i => ?_⟩
      · unfold managerSend
        rw [message_unresolved hreq1 (m := m) rfl]; simp
      · rw [managerSend_message hreq1 (m := m) rfl]
        by_cases hc : i ∈ s.vec ∧ (s.clients i).broker = b ∧ (s.clients i).core.clientId = m.consumerId ∧
            (s.clients i).phase ≠ .gone
        · rw [if_pos (by simpa using hc), if_pos hc]; simp [adjust]
        · rw [if_neg (by simpa using hc), if_neg hc]; simp

/-- A consumer with an outstanding ack is sent a message; the message is delivered and the ack still waits. (The hypotheses of
C24_never_a_response and C24_passed_on are met.) -/
example : (go (boot ++ join 0 ++ ask 0 (.ack (Proto.newMsg Proto.pulsar .messageIdData)) ++ say b0 (messageC 0 [7]) none)).map
    (fun s => (s.outcomes.length, s.resolver.length, (s.clients 0).inbox.length)) = some (0, 1, 1) := by rfl

/-! ## C25 -/

/-- The consumer is registered with the engine, undropped, on the connection to `b`, and the engine runs. -/
def Attached (i : Nat) (b : BrokerAddress) (s : State) : Prop :=
  i ∈ s.vec ∧ (s.clients i).broker = b ∧ (s.clients i).phase ≠ .gone ∧ s.mode ≠ .stopped

/-- Messages with the client's id the client has taken or has queued. -/
def received (s : State) (i : Nat) : List Message :=
  addressedTo (s.clients i).core.clientId (messagesIn ((s.clients i).taken ++ (s.clients i).inbox))

/-- Messages with the client's id read from connection `b` and not yet taken by the engine. -/
def underway (s : State) (i : Nat) (b : BrokerAddress) : List Message :=
  addressedTo (s.clients i).core.clientId (messagesIn (s.conns b).outbox)

theorem path_reachable {cfg : Cfg} {P : State → Prop} {s s' : State} {as : List Act} (h : Reachable cfg s)
    (hp : Path cfg P s as s') : Reachable cfg s' := by
  induction hp with
  | nil _ => exact h
  | snoc _ hs _ ih => exact ih.step hs

theorem path_end {cfg : Cfg} {P : State → Prop} {s s' : State} {as : List Act} (hp : Path cfg P s as s') : P s' := by
  cases hp with
  | nil h => exact h
  | snoc _ _ h => exact h

theorem path_start {cfg : Cfg} {P : State → Prop} {s s' : State} {as : List Act} (hp : Path cfg P s as s') : P s := by
  induction hp with
  | nil h => exact h
  | snoc _ _ _ ih => exact ih

theorem socketMessages_append (as bs : List Act) (b : BrokerAddress) :
    socketMessages (as ++ bs) b = socketMessages as b ++ socketMessages bs b := List.filterMap_append

/-- While the consumer stays attached to a broker, what it has received, followed by what is under way to it, grows by exactly
the messages addressed to it that the broker's socket delivers: nothing lost, duplicated or reordered. -/
theorem C25_exactly_once_in_order {cfg : Cfg} {s s' : State} {as : List Act} {i : Nat} {b : BrokerAddress}
    (h : Reachable cfg s) (hp : Path cfg (Attached i b) s as s') :
    received s' i ++ underway s' i b =
      received s i ++ underway s i b ++ addressedTo (UInt64.ofNat i) (socketMessages as b) := by
  induction hp with
  | nil _ => simp [socketMessages, addressedTo]
  | snoc hp hs hP ih =>
    obtain ⟨hv, hb, hg, hm⟩ := path_end hp
    have hr := path_reachable h hp
    have hi := (wf hr).vecLt _ hv
    have := stream_step hr hs hi hv hb hg hP.2.2.2
    rw [(wf hr).ids _ hi] at this
    show stream _ i b = _
    rw [this]
    have ih' : stream _ i b = _ := ih
    rw [ih', socketMessages_append, addressedTo_append, List.append_assoc]

/-- So once the engine has taken what it was sent, the consumer has received exactly the messages sent to it. -/
theorem C25_all_received {cfg : Cfg} {s s' : State} {as : List Act} {i : Nat} {b : BrokerAddress}
    (h : Reachable cfg s) (hp : Path cfg (Attached i b) s as s') (h0 : underway s i b = []) (h1 : (s'.conns b).outbox = []) :
    received s' i = received s i ++ addressedTo (UInt64.ofNat i) (socketMessages as b) := by
  have := C25_exactly_once_in_order h hp
  have h2 : underway s' i b = [] := by simp [underway, h1, messagesIn, addressedTo]
  rwa [h0, h2, List.append_nil, List.append_nil] at this

/-- Before it is registered a client has received nothing, and everything in a consumer's channel it has received is a command
the broker sent (no other source). -/
theorem C25_nothing_before {cfg : Cfg} {s : State} (h : Reachable cfg s) {i : Nat} (hi : i < s.nClients) (hv : i ∉ s.vec) :
    (s.clients i).taken = [] ∧ (s.clients i).inbox = [] := by
  have h1 := (evt h).prefixed i hi
  have h2 : deliveredTo s.dispatches i = [] := by
    unfold deliveredTo
    rw [List.filterMap_eq_nil_iff]
    intro d hd
    have := (evt h).recs d hd
    unfold RecOk at this
    cases hds : d.dest with
    | pong => rfl
    | waiter t => rfl
    | clients is =>
      rw [hds] at this
      simp only
      rw [if_neg fun hc => hv (this.2.1 i hc)]
  rw [h2] at h1
  simpa using h1

/-- Taking a message from the channel is possible whenever one is there (and the consumer exists), in order. -/
theorem C25_next {cfg : Cfg} {s : State} {i : Nat} {e : Event} {q : List Event} (hi : i < s.nClients)
    (hp : (s.clients i).phase = .ready) (hq : (s.clients i).inbox = e :: q) :
    ∃ s', step cfg s (.clientNext i) = some s' ∧ (s'.clients i).inbox = q ∧ (s'.clients i).taken = (s.clients i).taken ++ [e] := by
  refine ⟨s.setClient i { s.clients i with inbox := q, taken := (s.clients i).taken ++ [e] }, ?_, ?_, ?_⟩
  · simp [step, clientNext, hi, hp, hq]
  · simp [setClient_clients]
  · simp [setClient_clients]

/-! ## C26 -/

/-- Every change of what a client has in its channel: it takes the first event; or the engine adds one event, taken from the
head of what the client's own broker connection delivered (or the answer to a `Connect` on that connection), and if the event
carries a consumer or producer id it is this client's id. -/
theorem C26_only_own {cfg : Cfg} {s s' : State} {a : Act} (h : Reachable cfg s) (hs : step cfg s a = some s') {i : Nat}
    (hi : i < s.nClients) :
    (s'.clients i).inbox = (s.clients i).inbox ∨
    (a = .clientNext i ∧ (s'.clients i).inbox = (s.clients i).inbox.tail) ∨
    ∃ e, (s'.clients i).inbox = (s.clients i).inbox ++ [e] ∧ i ∈ s.vec ∧
      (∀ id, e.inb.tryConsumerOrProducerId = some id → (s.clients i).core.clientId = id ∧ id = UInt64.ofNat i) ∧
      ((∃ e0 q, a = .engIn (s.clients i).broker ∧ (s.conns (s.clients i).broker).outbox = e0 :: q ∧
          e.inb = adjust (s.clients i).broker e0.inb) ∨
       (a = .engConnectDone ∧ ∃ r, s.mode = .awaitConnect r (s.clients i).broker)) := by
  have hid := (wf h).ids i hi
  cases step_cases hs with
  | startOk net hm s2 h2 => rcases h2 with ⟨rfl, hb⟩ | ⟨hb, rfl⟩ <;> simp
  | out j auth net cmd q s'' hm hv ha hq he =>
    refine .inl ?_
    have ht : ((takeCmd s j cmd q).clients i).inbox = (s.clients i).inbox := by
      rw [takeCmd_clients]; split
      · rename_i hij; subst hij; rfl
      · rfl
    cases he with
    | lost c c2 b s3 hcc h2 hb hp => simp [hp.clients_inbox, ht]
    | connecting c c2 b s3 k hcc h2 hb hp hj ha hl => simp [hp.clients_inbox, ht]
    | _ => simp [ht]
  | inb b e q s'' hm ha hv hq he =>
    cases he with
    | pingFailed => exact .inl (by simp)
    | ping => exact .inl (by simp)
    | other hp =>
      rcases managerSend_client (takeEvent s b e q) { e with inb := adjust b e.inb } b false i with hc | ⟨hc, hrc, _⟩
      · exact .inl (by rw [hc]; simp)
      · refine .inr (.inr ⟨{ e with inb := adjust b e.inb }, by rw [hc]; simp, ?_⟩)
        rw [recipients_iff] at hrc
        simp only [takeEvent_clients, takeEvent_vec] at hrc
        obtain ⟨h1, rfl, h3⟩ := hrc
        exact ⟨h1, fun id hh => ⟨h3 id hh, (h3 id hh).symm.trans hid⟩, .inl ⟨e, q, rfl, hq, rfl⟩⟩
  | connectOk r b x e hm hf =>
    rcases managerSend_client { s with mode := .idle } e b true i with hc | ⟨hc, hrc, _⟩
    · exact .inl (by rw [hc])
    · refine .inr (.inr ⟨e, by rw [hc], ?_⟩)
      rw [recipients_iff] at hrc
      obtain ⟨h1, rfl, h3⟩ := hrc
      exact ⟨h1, fun id hh => ⟨h3 id hh, (h3 id hh).symm.trans hid⟩, .inr ⟨rfl, r, hm⟩⟩
  | clientNext j e q hj hp hq =>
    by_cases hij : i = j
    · subst hij; exact .inr (.inl ⟨rfl, by simp [setClient_clients, hq]⟩)
    · exact .inl (by simp [setClient_clients, hij])
  | newClient name hl =>
    refine .inl ?_
    have : i ≠ s.nClients := by omega
    simp [setClient_clients, this]
  | reg j | regFail j | sendRegFail j | sendReg j | recvReply j | recvReplyFail j | cancelReg j | request j | oneway j | submit j | refuse j
    | dropClient j | freeQueue j =>
    refine .inl ?_
    by_cases hij : i = j
    · subst hij; simp [setClient_clients]
    · simp [setClient_clients, hij]
  | _ => exact .inl (by simp)

/-- In total: everything a client ever got that carries a consumer or producer id carries this client's id. -/
theorem C26_ids {cfg : Cfg} {s : State} (h : Reachable cfg s) {i : Nat} (hi : i < s.nClients) {e : Event} {id : UInt64}
    (he : e ∈ (s.clients i).taken ++ (s.clients i).inbox) (hid : e.inb.tryConsumerOrProducerId = some id) :
    (s.clients i).core.clientId = id := by
  have h1 := ((evt h).prefixed i hi).subset he
  unfold deliveredTo at h1
  rw [List.mem_filterMap] at h1
  obtain ⟨d, hd, hde⟩ := h1
  have := (evt h).recs d hd
  unfold RecOk at this
  cases hds : d.dest with
  | pong => rw [hds] at hde; exact absurd hde (by simp)
  | waiter t => rw [hds] at hde; exact absurd hde (by simp)
  | clients is =>
    rw [hds] at hde this
    simp only at hde
    split at hde
    · rename_i hmem
      simp only [Option.some.injEq] at hde
      subst hde
      rw [(wf h).ids i hi]
      exact this.2.2 id hid i hmem
    · exact absurd hde (by simp)

/-- Runs as in C25_all_received, C25_nothing_before, C25_next, C26_only_own and C26_ids: two consumers on one connection; each gets its own message. -/
example : (go (boot ++ join 0 ++ join 1 ++ say b0 (messageC 1 [5]) none ++ say b0 (messageC 0 [6]) none ++
      [.connRead b0 (.command (messageC 1 [8]) none)])).map
    (fun s => ((received s 0).map (fun m => match m with | .single _ _ p => p | _ => []),
               (received s 1).map (fun m => match m with | .single _ _ p => p | _ => []),
               (underway s 1 b0).map (fun m => match m with | .single _ _ p => p | _ => []))) =
    some ([[6]], [[5]], [[8]]) := by rfl

/-- A path as in C25_exactly_once_in_order. -/
example : ∃ s, (Reachable cfg0 s ∧ Attached 1 b0 s) ∧ ∃ as s', Path cfg0 (Attached 1 b0) s as s' ∧ socketMessages as b0 ≠ [] := by
  obtain ⟨s, hr, hs⟩ := reachable_obs (as := boot ++ join 0 ++ join 1)
    (f := fun s => (s.vec, (s.clients 1).broker, (s.clients 1).phase, s.mode, (s.conns b0).alive, s.addrs))
    (x := ([0, 1], b0, .ready, .idle, true, [b0])) rfl
  simp only [Prod.mk.injEq] at hs
  obtain ⟨h1, h2, h3, h4, h5, h6⟩ := hs
  have hA : Attached 1 b0 s := ⟨by simp [h1], h2, by simp [h3], by simp [h4]⟩
  have hv : Inbound.ofCommand (messageC 1 [5]) = .ok (.message (.single 1 (Proto.newMsg Proto.pulsar .messageIdData) [5])) := rfl
  obtain ⟨s', hs', _, _, _, hc⟩ := C24_read (ans := none) ⟨_, hr⟩ h5 (by simp [h6]) (by simp [h4]) hv
  have hs'' := hs'
  refine ⟨s, ⟨⟨_, hr⟩, hA⟩, [.connRead b0 (.command (messageC 1 [5]) none)], s', ?_, ?_⟩
  · refine .snoc (as := []) (.nil hA) hs' ?_
    cases step_cases hs' with
    | readForward => exact ⟨by simp [h1], by simp [h2], by simp [h3], by simp [h4]⟩
    | readSkip _ _ _ _ hx =>
      rcases hx with hx | ⟨v, t, e, hx, hx2⟩
      · exact absurd hx (by simp)
      · simp only [Item.command.injEq] at hx; rw [← hx.1, hv] at hx2; exact absurd hx2 (by simp)
    | readEnd _ _ _ _ hx =>
      rcases hx with hx | hx | ⟨v, t, hx, hx2⟩
      · exact absurd hx (by simp)
      · exact absurd hx (by simp)
      · simp only [Item.command.injEq] at hx
        rw [← hx.1, hv] at hx2
        rcases hx2 with hx2 | ⟨_, _, _, hx2⟩
        · exact absurd hx2 (by simp)
        · rw [h4] at hx2; exact absurd hx2 (by simp)
    | readConnected => exact ⟨by simp [h1], by simp [h2], by simp [h3], by simp [h4]⟩
  · unfold socketMessages; simp [hv]

end Neutron.Props
