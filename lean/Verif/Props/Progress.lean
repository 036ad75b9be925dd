import Verif.Props.Shutdown
import Verif.Spec.Service

/-!
# Errors, blocking, fairness, panics, registration: C35, C36, C41/C83, C42/C84, C43/C85
-/

namespace Neutron.Props

open Neutron Neutron.Sys Neutron.Trace

/-! ## C35 -/

/-- The claim is false for every request and every state: reading an `ERROR` (14) or `SEND_ERROR` (8) from a live connection
changes nothing at all, so no call returns because of it. -/
theorem C35_refuted {cfg : Cfg} {s : State} {b : BrokerAddress} {v : MessageCommand} {ans : Option Tok}
    (hl : (s.conns b).alive = true) (hb : b ∈ s.addrs) (hv : commandType v.command = 14 ∨ commandType v.command = 8) :
    step cfg s (.connRead b (.command v ans)) = some s := by
  have : Inbound.ofCommand v = .err .unsupportedCommand := by
    unfold Inbound.ofCommand
    rcases hv with hv | hv <;> simp [hv]
  simp [step, connRead, hl, hb, this]

/-- A run in which it happens: the broker answers a subscribe (and a send) with an error, and both calls still wait. -/
theorem C35_refuted_run : ∃ s, Reachable cfg0 s ∧ s.mode = .idle ∧ Outstanding s 0 ∧ Outstanding s 1 := by
  obtain ⟨s, hr, hs⟩ := reachable_obs
    (as := boot ++ join 0 ++ ask 0 (.subscribe "t" "s") ++ ask 0 (.sendMessage [1]) ++ [.connRead b0 (.command (errorC 0) (some 0)),
      .connRead b0 (.command ⟨baseCommand 8 8 (mkMsg .commandSendError [(1, vU64 0), (2, vU64 0), (3, [.int 0]), (4, vStr "no")]),
        none⟩ (some 1))])
    (f := fun s => (s.mode, s.issued.length, s.outcomes.length)) (x := (.idle, 2, 0)) rfl
  simp only [Prod.mk.injEq] at hs
  obtain ⟨h1, h2, h3⟩ := hs
  have h3 : s.outcomes = [] := List.length_eq_zero_iff.mp h3
  exact ⟨s, ⟨_, hr⟩, h1, ⟨by omega, by simp [h3]⟩, ⟨by omega, by simp [h3]⟩⟩

/-! ## C36 -/

/-- The ways the wait for a `Connect` on `b` can end: the connection ends, or the broker sends `CONNECTED`. -/
def EndsConnect (b : BrokerAddress) : Act → Prop
  | .connRead b' (.command v _) => b' = b ∧ (Inbound.ofCommand v = .ok .connected ∨ Inbound.ofCommand v = .panic)
  | .connRead b' .closed => b' = b
  | .connRead b' .panicked => b' = b
  | _ => False

/-- What stays as it was while the engine waits. -/
structure Blocked (r : Nat) (b : BrokerAddress) (s0 s : State) : Prop where
  mode : s.mode = .awaitConnect r b
  noReply : ∀ x, (r, x) ∉ s.replyDone
  queue : (s.conns b).queue = [] ∨ (s.conns b).alive = false
  outcomes : s.outcomes = s0.outcomes
  sent : s.sent = s0.sent
  vec : s.vec = s0.vec
  dispatches : s.dispatches = s0.dispatches
  nClients : s0.nClients ≤ s.nClients
  handled : ∀ i, i < s0.nClients → (s.clients i).handled = (s0.clients i).handled
  got : ∀ i, i < s0.nClients → (s.clients i).taken ++ (s.clients i).inbox = (s0.clients i).taken ++ (s0.clients i).inbox

theorem Blocked.step {cfg : Cfg} {r : Nat} {b : BrokerAddress} {s0 s s' : State} {a : Act} (hr : Reachable cfg s)
    (h : Blocked r b s0 s) (hs : step cfg s a = some s') (ha : (s.conns b).alive = true → ¬ EndsConnect b a) :
    Blocked r b s0 s' := by
  have hdead : (s.conns b).alive = false → (s'.conns b).alive = false := by
    intro hd
    have hb : b ∈ s.addrs := by
      refine Classical.byContradiction fun hb => ?_
      rw [(conn hr).unused b hb] at hd
      simp [freshConn] at hd
    exact (C34_stays_lost hr hs hb hd).2
  obtain ⟨c0, _, _, _, hc0, hrep0, _⟩ := (rep hr).mode r b h.mode
  have hother : ∀ x k r', (k, r') ∈ (s.conns x).resolver → r' = r → x = b := by
    intro x k r' hk he
    obtain ⟨_, c, hc, hcr⟩ := (rep hr).waiting x k r' hk
    exact ((rep hr).uniq x c b c0 hc hc0 (by simp [hcr]) (by rw [hcr, hrep0, he])).1
  have hqueued : ∀ x c, c ∈ (s.conns x).queue → c.reply = some r → x = b := by
    intro x c hc hcr
    have : (x, c) ∈ s.sent := by
      rw [← mem_sentTo, ← (conn hr).accepted, ((conn hr).ok x).fifo]
      exact List.mem_append_right _ hc
    exact ((rep hr).uniq x c b c0 this hc0 (by simp [hcr]) (by rw [hcr, hrep0])).1
  have hcongr : ∀ {x : State}, ((s.conns b).alive = false → (x.conns b).alive = false) → x.mode = s.mode →
      (∀ y, (r, y) ∉ x.replyDone) → (x.conns b).queue = (s.conns b).queue →
      x.outcomes = s.outcomes → x.sent = s.sent → x.vec = s.vec → x.dispatches = s.dispatches → s.nClients ≤ x.nClients →
      (∀ i, i < s.nClients → (x.clients i).handled = (s.clients i).handled ∧
        (x.clients i).taken ++ (x.clients i).inbox = (s.clients i).taken ++ (s.clients i).inbox) → Blocked r b s0 x := by
    intro x h0 h1 h2 h3 h4 h5 h6 h7 h8 h9
    exact ⟨h1.trans h.mode, h2, h.queue.imp h3.trans h0, h4.trans h.outcomes, h5.trans h.sent, h6.trans h.vec,
      h7.trans h.dispatches, Nat.le_trans h.nClients h8,
      fun i hi => ((h9 i (Nat.lt_of_lt_of_le hi h.nClients)).1).trans (h.handled i hi),
      fun i hi => ((h9 i (Nat.lt_of_lt_of_le hi h.nClients)).2).trans (h.got i hi)⟩
  have hm := h.mode
  have hcl : ∀ (j : Nat) (c : ClientSt), c.handled = (s.clients j).handled → c.taken ++ c.inbox = (s.clients j).taken ++ (s.clients j).inbox →
      ∀ i, i < s.nClients → ((s.setClient j c).clients i).handled = (s.clients i).handled ∧
        ((s.setClient j c).clients i).taken ++ ((s.setClient j c).clients i).inbox = (s.clients i).taken ++ (s.clients i).inbox := by
    intro j c h1 h2 i _
    rw [setClient_clients]
    split
    · rename_i hij; subst hij; exact ⟨h1, h2⟩
    · exact ⟨rfl, rfl⟩
  cases step_cases hs with
  | startOk net hm' | startFail net hm' | outGone i auth net hm' | out i auth net cmd q s' hm' | inLost b hm' | inb b e q s' hm'
  | reg i q hm' | regFail i q hm' | regClosedStop hm' | regClosed hm' | noConn hm' =>
    rw [hm] at hm'; exact absurd hm' (by simp)
  | connectOk r' b' x e hm' hf =>
    rw [hm] at hm'
    simp only [Mode.awaitConnect.injEq] at hm'
    obtain ⟨rfl, rfl⟩ := hm'
    have h1 := List.mem_of_find?_eq_some hf
    have h2 := List.find?_some hf
    simp only [beq_iff_eq] at h2
    subst h2
    exact absurd h1 (h.noReply _)
  | connectLost r' b' x hm' hf =>
    rw [hm] at hm'
    simp only [Mode.awaitConnect.injEq] at hm'
    obtain ⟨rfl, rfl⟩ := hm'
    have h1 := List.mem_of_find?_eq_some hf
    have h2 := List.find?_some hf
    simp only [beq_iff_eq] at h2
    subst h2
    exact absurd h1 (h.noReply _)
  | cmdEnd x w hl hx hq hm' => rw [hm] at hm'; exact absurd hm' (by simp)
  | cmdOk x c q hl hx hq | cmdFail x c q hl hx hq | cmdPanic x c q hl hx hq =>
    have hxb : x ≠ b := by 
      rintro rfl
      rcases h.queue with h0 | h0
      · rw [h0] at hq; simp at hq
      · rw [h0] at hl; simp at hl
    have hnr : ∀ y, (r, y) ∉ (connTake s x c q).replyDone := by
      intro y hy
      unfold connTake at hy
      cases hcr : c.reply with
      | none => rw [hcr] at hy; exact h.noReply y hy
      | some r' =>
        rw [hcr] at hy
        simp only [List.mem_append, List.mem_map] at hy
        rcases hy with hy | ⟨d, hd, hde⟩
        · exact h.noReply y hy
        · simp only [Prod.mk.injEq] at hde
          obtain ⟨rfl, _⟩ := hde
          unfold Resolver.put at hd
          cases hk : c.out.tryKey with
          | none =>
            rw [hk] at hd
            simp only [Option.toList_some, List.mem_singleton] at hd
            exact hxb (hqueued x c (by rw [hq]; simp) (by rw [hcr, hd]))
          | some k =>
            rw [hk] at hd
            simp only [Option.mem_toList] at hd
            exact hxb (hother x k d (mem_find hd) rfl)
    have hnr2 : ∀ k, (k, r) ∉ ((connTake s x c q).conns x).resolver := by
      intro k hk
      rw [connTake_conns, if_pos rfl] at hk
      simp only at hk
      cases hcr : c.reply with
      | none => rw [hcr] at hk; exact hxb (hother x k r hk rfl)
      | some r' =>
        rw [hcr] at hk
        rcases mem_put hk with hk | ⟨_, hk⟩
        · exact hxb (hother x k r hk rfl)
        · exact hxb (hqueued x c (by rw [hq]; simp) (by rw [hcr]; simp only at hk; rw [hk]))
    have hqb : ((connTake s x c q).conns b).queue = (s.conns b).queue := by
      rw [connTake_conns, if_neg (fun hbx => hxb hbx.symm)]
    first
      | exact hcongr hdead (by simp) hnr hqb (by simp) (by simp) (by simp) (by simp) (by simp) (fun i _ => by simp)
      | exact hcongr hdead (by simp) hnr (by simp only [setConn_conns]; rw [if_neg (fun hbx => hxb hbx.symm)]; exact hqb)
          (by simp) (by simp) (by simp) (by simp) (by simp) (fun i _ => by simp)
      | (refine hcongr hdead (by simp) ?_ (by simpa using hqb) (by simp) (by simp) (by simp) (by simp) (by simp) (fun i _ => by simp)
         intro y hy
         unfold endConn at hy
         simp only [List.mem_append, List.mem_map, Prod.mk.injEq] at hy
         rcases hy with hy | ⟨p, hp, hpr, _⟩
         · exact hnr y hy
         · exact hnr2 p.1 (by rw [← hpr]; exact hp))
  | readEnd x it hl hx hit =>
    have hxb : x ≠ b := by
      rintro rfl
      apply ha hl
      rcases hit with rfl | rfl | ⟨v, t, rfl, h1 | ⟨inb, _, _, h1⟩⟩
      · rfl
      · rfl
      · exact ⟨rfl, .inr h1⟩
      · rw [hm] at h1; exact absurd h1 (by simp)
    refine hcongr hdead (by simp) ?_ (by simp) (by simp) (by simp) (by simp) (by simp) (by simp) (fun i _ => by simp)
    intro y hy
    unfold endConn at hy
    simp only [List.mem_append, List.mem_map, Prod.mk.injEq] at hy
    rcases hy with hy | ⟨p, hp, hpr, _⟩
    · exact h.noReply y hy
    · exact hxb (hother x p.1 p.2 hp hpr)
  | readSkip => exact h
  | readConnected x v t inb r' res hl hx hv hres =>
    obtain ⟨k, hk, hf, _⟩ := tryResolve_some hres
    have hconn : inb = .connected := by
      have := ((rep hr).waiting x k r' (mem_find hf)).1
      subst this
      cases inb <;> simp_all [Inbound.tryKey]
    have hxb : x ≠ b := by
      rintro rfl
      exact ha hl ⟨rfl, .inl (by rw [hv, hconn])⟩
    refine hcongr hdead rfl ?_ (by simp only [setConn_conns]; rw [if_neg (fun hbx => hxb hbx.symm)]) rfl rfl rfl rfl (Nat.le_refl _)
      (fun i _ => ⟨rfl, rfl⟩)
    intro y hy
    simp only [List.mem_append, List.mem_singleton, Prod.mk.injEq] at hy
    rcases hy with hy | ⟨hy, _⟩
    · exact h.noReply y hy
    · exact hxb (hother x k r' (mem_find hf) hy.symm)
  | readForward x v t inb hl hx hv hres hm' =>
    refine hcongr hdead rfl h.noReply ?_ rfl rfl rfl rfl (Nat.le_refl _) (fun i _ => ⟨rfl, rfl⟩)
    simp only [setConn_conns]; split
    · rename_i hbx; subst hbx; rfl
    · rfl
  | newClient name hl =>
    refine hcongr hdead rfl h.noReply rfl rfl rfl rfl rfl (by simp) (fun i hi => ?_)
    have : i ≠ s.nClients := by omega
    simp [setClient_clients, this]
  | clientNext j e q hj hp hq =>
    exact hcongr hdead rfl h.noReply rfl rfl rfl rfl rfl (Nat.le_refl _) (hcl j _ rfl (by simp [hq]))
  | refuse j k cmd hj hk he => simp [engineEnd, hm] at he
  | freeQueue j hj hp he => simp [engineEnd, hm] at he
  | sendRegFail j | sendReg j | recvReply j | recvReplyFail j | cancelReg j | request j | oneway j | submit j | dropClient j =>
    exact hcongr hdead rfl h.noReply rfl rfl rfl rfl rfl (Nat.le_refl _) (hcl j _ rfl rfl)
  | dropManager => exact hcongr hdead rfl h.noReply rfl rfl rfl rfl rfl (Nat.le_refl _) (fun i _ => ⟨rfl, rfl⟩)

/-- The claim is false: while the engine waits for the answer to one client's `Connect` that was written to `b`'s socket, an
error answer changes nothing, and then - whatever anyone does, until the broker sends `CONNECTED` after all or the connection
ends - no command of any client is taken or passed on, no request of any client completes, and no client receives anything. -/
theorem C36_refuted {cfg : Cfg} {s : State} (h : Reachable cfg s) {r : Nat} {b : BrokerAddress} (hm : s.mode = .awaitConnect r b)
    (hw : (s.conns b).queue = []) (hn : ∀ x, (r, x) ∉ s.replyDone) {v : MessageCommand} {ans : Option Tok}
    (hl : (s.conns b).alive = true) (hb : b ∈ s.addrs) (hv : commandType v.command = 14) :
    step cfg s (.connRead b (.command v ans)) = some s ∧
    ∀ as s', exec cfg s as = some s' → (∀ a, a ∈ as → ¬ EndsConnect b a) →
      s'.mode = .awaitConnect r b ∧ s'.outcomes = s.outcomes ∧ s'.sent = s.sent ∧
      ∀ i, i < s.nClients → (s'.clients i).handled = (s.clients i).handled ∧
        (s'.clients i).taken ++ (s'.clients i).inbox = (s.clients i).taken ++ (s.clients i).inbox := by
  refine ⟨C35_refuted hl hb (.inl hv), fun as s' he ha => ?_⟩
  have hbl : Blocked r b s s := ⟨hm, hn, .inl hw, rfl, rfl, rfl, rfl, Nat.le_refl _, fun _ _ => rfl, fun _ _ => rfl⟩
  have key : ∀ (as : List Act) (x : State), Reachable cfg x → Blocked r b s x → exec cfg x as = some s' →
      (∀ a, a ∈ as → ¬ EndsConnect b a) → Blocked r b s s' := by
    intro as
    induction as with
    | nil => intro x _ hx he _; simp only [exec, Option.some.injEq] at he; exact he ▸ hx
    | cons a as ih =>
      intro x hr hx he ha
      simp only [exec] at he
      cases hs : step cfg x a with
      | none => rw [hs] at he; exact absurd he (by simp)
      | some y =>
        rw [hs] at he
        exact ih y (hr.step hs) (hx.step hr hs (fun _ => ha a (by simp))) he (fun a' h' => ha a' (by simp [h']))
  have := key as s h hbl he ha
  exact ⟨this.mode, this.outcomes, this.sent, fun i hi => ⟨this.handled i hi, this.got i hi⟩⟩

/-- A run in which it happens: client 0's connect is refused while client 1 waits for the receipt of a send; the receipt is
read, and has no effect. -/
theorem C36_refuted_run : ∃ s, Reachable cfg0 s ∧ s.mode = .awaitConnect 0 b0 ∧ (s.conns b0).queue = [] ∧
    (∀ x, (0, x) ∉ s.replyDone) ∧ (s.conns b0).alive = true ∧ b0 ∈ s.addrs ∧ (s.conns b0).outbox.length = 1 ∧
    Outstanding s 0 := by
  obtain ⟨s, hr, hs⟩ := reachable_obs
    (as := boot ++ join 0 ++ join 1 ++ ask 1 (.sendMessage [1]) ++ ask 0 .connect ++ [.connCmd b0 .ok, .connCmd b0 .ok,
      .connRead b0 (.command (errorC 0) (some 1)), .connRead b0 (.command (receiptC 1 0) (some 0))])
    (f := fun s => (s.mode, (s.conns b0).queue.length, s.replyDone.length, (s.conns b0).alive, s.addrs, (s.conns b0).outbox.length,
      s.outcomes.length, s.issued.length)) (x := (.awaitConnect 0 b0, 0, 0, true, [b0], 1, 0, 2)) rfl
  simp only [Prod.mk.injEq, List.length_eq_zero_iff] at hs
  obtain ⟨h1, h2, h3, h4, h5, h6, h7, h8⟩ := hs
  exact ⟨s, ⟨_, hr⟩, h1, h2, by simp [h3], h4, by simp [h5], h6, by omega, by simp [h7]⟩

/-! ## C41/C83 -/

/-- A client whose command is queued can be served whenever the engine is between two events, and stays so until it is. -/
theorem C83_stays_servable {cfg : Cfg} {s : State} (h : Reachable cfg s) {i : Nat} (hm : s.mode = .idle) (hv : i ∈ s.vec)
    (ha : s.addrs ≠ []) {cmd : ClientCmd} {q : List ClientCmd} (hq : (s.clients i).queue = cmd :: q) (auth : Outcome Bytes)
    (net : Net) :
    (∃ s', step cfg s (.engOut i auth net) = some s' ∧ (s'.clients i).queue = q ∧ (s'.clients i).handled = (s.clients i).handled ++ [cmd]) ∧
    ∀ a s', step cfg s a = some s' → (∀ auth net, a ≠ .engOut i auth net) → s'.mode ≠ .stopped →
      (∃ q', (s'.clients i).queue = cmd :: q ++ q') ∧ i ∈ s'.vec := by
  refine ⟨?_, fun a s' hs hna hst => ?_⟩
  · refine ⟨finish (handleOutbound cfg (takeCmd s i cmd q) i cmd auth net), ?_, ?_⟩
    · simp only [step, engOut, hm, hv, ha, ne_eq, not_false_eq_true, and_self, if_true, hq]
    have ht : ((takeCmd s i cmd q).clients i).queue = q ∧
        ((takeCmd s i cmd q).clients i).handled = (s.clients i).handled ++ [cmd] := by
      rw [takeCmd_clients, if_pos rfl]; exact ⟨rfl, rfl⟩
    have hend := handleOutbound_end cfg (takeCmd s i cmd q) i cmd auth net
    generalize finish (handleOutbound cfg (takeCmd s i cmd q) i cmd auth net) = z at hend
    cases hend with
    | failed => simpa using ht
    | lost c c2 b s3 hcc h2 hb hp => simpa [hp.clients_queue, hp.clients_handled] using ht
    | sent => simpa [pushed] using ht
    | connecting c c2 b s3 k hcc h2 hb hp hj ha hl => simpa [pushed, hp.clients_queue, hp.clients_handled] using ht
  · have hsame : ∀ (j : Nat) (c : ClientSt), c.queue = (s.clients j).queue →
        ∃ q', ((s.setClient j c).clients i).queue = cmd :: q ++ q' := by
      intro j c hc
      refine ⟨[], ?_⟩
      rw [setClient_clients]; split
      · rename_i hij; subst hij; rw [hc, hq]; simp
      · rw [hq]; simp
    have hid : ∃ q', (s.clients i).queue = cmd :: q ++ q' := ⟨[], by simp [hq]⟩
    cases step_cases hs with
    | startOk net hm' | startFail net hm' => rw [hm] at hm'; exact absurd hm' (by simp)
    | connectOk r b x e hm' | connectLost r b x hm' => rw [hm] at hm'; exact absurd hm' (by simp)
    | inLost | regClosedStop | noConn | outGone => exact absurd rfl hst
    | regFail => exact absurd rfl hst
    | out j auth' net' cmd' q'' s'' hm' hv' ha' hq' he =>
      have hij : i ≠ j := fun hij => hna auth' net' (by rw [hij])
      have ht : ((takeCmd s j cmd' q'').clients i).queue = cmd :: q := by
        rw [takeCmd_clients, if_neg hij, hq]
      cases he with
      | failed => exact ⟨⟨[], by simpa using ht⟩, by simpa using hv⟩
      | lost c c2 b s3 hcc h2 hb hp => exact absurd rfl hst
      | sent => exact ⟨⟨[], by simpa [pushed] using ht⟩, by simpa [pushed] using hv⟩
      | connecting c c2 b s3 k hcc h2 hb hp hj ha hl =>
        exact ⟨⟨[], by simpa [pushed, hp.clients_queue] using ht⟩, by simpa [pushed, hp.vec] using hv⟩
    | inb b e q'' s'' hm' ha' hv' hq' he =>
      cases he with
      | pingFailed => exact absurd rfl hst
      | ping => exact ⟨by simpa [pushed] using hid, by simpa [pushed] using hv⟩
      | other => exact ⟨by simpa using hid, by simpa using hv⟩
    | newClient name hl =>
      have : i ≠ s.nClients := Nat.ne_of_lt ((wf h).vecLt i hv)
      exact ⟨⟨[], by simp [setClient_clients, this, hq]⟩, hv⟩
    | submit j k c hj hk he =>
      refine ⟨?_, hv⟩
      by_cases hij : i = j
      · subst hij; exact ⟨[c], by simp [setClient_clients, hq]⟩
      · exact ⟨[], by simp [setClient_clients, hij, hq]⟩
    | freeQueue j hj hp he => simp [engineEnd, hm] at he
    | reg j => exact ⟨hsame j _ rfl, by simp [hv]⟩
    | sendRegFail j | sendReg j | recvReply j | recvReplyFail j | cancelReg j | request j | oneway j | refuse j
      | clientNext j | dropClient j => exact ⟨hsame j _ rfl, hv⟩
    | _ => exact ⟨by simpa using hid, by simpa using hv⟩

/-- Everything is fine with both clients, client 0 has nothing in progress, and the first command of client 1 is `cmd`. -/
structure Busy (cmd : ClientCmd) (s : State) : Prop where
  mode : s.mode = .idle
  n : s.nClients = 2
  vec : s.vec = [0, 1]
  addrs : s.addrs = [b0]
  alive : (s.conns b0).alive = true
  ready : (s.clients 0).phase = .ready
  ready1 : (s.clients 1).phase = .ready
  starting : (s.clients 0).starting = []
  queue0 : (s.clients 0).queue = []
  broker : (s.clients 0).broker = b0
  id : (s.clients 0).core.clientId = 0
  queue1 : (s.clients 1).queue.head? = some cmd

/-- One call of client 0, served by the engine; all steps in `select_all` order; client 1 still waits. -/
theorem busy_again {cmd : ClientCmd} {s : State} (h : Busy cmd s) :
    ∃ s1 s2 s3, step cfg0 s (.beginCall 0 (.flow 1)) = some s1 ∧ step cfg0 s1 (.submit 0 0) = some s2 ∧
      FirstReady s2 (.engOut 0 (.ok []) net0) ∧ step cfg0 s2 (.engOut 0 (.ok []) net0) = some s3 ∧ Busy cmd s3 := by
  let c : ClientCmd := ⟨.flow ⟨(s.clients 0).core.clientId, 1⟩, none⟩
  let s1 := s.setClient 0 { s.clients 0 with starting := [c] }
  let s2 := s1.setClient 0 { s1.clients 0 with starting := [], queue := [c], submitted := (s.clients 0).submitted ++ [c] }
  let s3 := takeCmd s2 0 c []
  have h1 : step cfg0 s (.beginCall 0 (.flow 1)) = some s1 := by
    simp [step, beginCall, h.n, h.ready, Call.expectsResponse, Client.issue, h.starting, s1, c]
  have h2 : step cfg0 s1 (.submit 0 0) = some s2 := by
    simp [step, Sys.submit, s1, h.n, engineEnd, h.mode, setClient_clients, h.queue0, s2]
  have hb3 : ∀ k, (s3.clients k).broker = (s.clients k).broker ∧ (s3.clients k).core = (s.clients k).core ∧
      (s3.clients k).phase = (s.clients k).phase := by
    intro k
    simp only [s3, takeCmd_clients, s2, s1, setClient_clients]
    split <;> simp_all
  have h3 : step cfg0 s2 (.engOut 0 (.ok []) net0) = some (pushed s3 b0 ⟨c.out, none, some (0, c)⟩) := by
    have hq : (s2.clients 0).queue = c :: [] := by simp [s2, setClient_clients]
    have hm2 : s2.mode = .idle ∧ 0 ∈ s2.vec ∧ s2.addrs ≠ [] := by simp [s2, s1, h.mode, h.vec, h.addrs]
    simp only [step, engOut]
    rw [if_pos hm2, hq]
    have hv3 : s3.vec = [0, 1] := by simp [s3, s2, s1, h.vec]
    have ha3 : s3.addrs = [b0] := by simp [s3, s2, s1, h.addrs]
    have hl3 : (s3.conns b0).alive = true := by simp [s3, s2, s1, h.alive]
    have : handleOutbound cfg0 s3 0 c (.ok []) net0 = (pushed s3 b0 ⟨c.out, none, some (0, c)⟩, .ok ()) := by
      simp only [handleOutbound, c, forward, hv3, List.find?_cons, decide_true, sendToConnection]
      rw [(hb3 0).1, h.broker]
      simp [pushConn, ha3, hl3, pushed]
    show some (finish (handleOutbound cfg0 s3 0 c (.ok []) net0)) = _
    rw [this]; rfl
  refine ⟨s1, s2, _, h1, h2, ⟨[], [1], by simp [s2, s1, h.vec], by simp⟩, h3, ?_⟩
  refine ⟨by simp [pushed, s3, s2, s1, h.mode], by simp [pushed, s3, s2, s1, h.n], by simp [pushed, s3, s2, s1, h.vec],
    by simp [pushed, s3, s2, s1, h.addrs], ?_, ?_, ?_, ?_, ?_, ?_, ?_, ?_⟩
  · simp [pushed, setConn_conns, s3, s2, s1, h.alive]
  · show (s3.clients 0).phase = _; rw [(hb3 0).2.2, h.ready]
  · show (s3.clients 1).phase = _; rw [(hb3 1).2.2, h.ready1]
  · show (s3.clients 0).starting = _; simp [s3, takeCmd_clients, s2, setClient_clients]
  · show (s3.clients 0).queue = _; simp [s3, takeCmd_clients]
  · show (s3.clients 0).broker = _; rw [(hb3 0).1, h.broker]
  · show (s3.clients 0).core.clientId = _; rw [(hb3 0).2.1, h.id]
  · show (s3.clients 1).queue.head? = _; simp [s3, takeCmd_clients, s2, s1, setClient_clients, h.queue1]

/-- The claim is false: there is an infinite execution in which client 0 makes one `flow` call after another, the engine
serves each of them at once - always looking at the clients in the order `select_all` does - and client 1's command, queued
from the beginning, is never taken. -/
theorem C41_refuted : ∃ (σ : Nat → State) (acts : Nat → Act) (cmd : ClientCmd), Reachable cfg0 (σ 0) ∧
    (∀ n, step cfg0 (σ n) (acts n) = some (σ (n + 1)) ∧ FirstReady (σ n) (acts n)) ∧
    (∀ n, acts (3 * n + 2) = .engOut 0 (.ok []) net0) ∧
    ∀ n, ((σ n).vec = [0, 1] ∧ (σ n).nClients = 2) ∧ (σ n).mode = .idle ∧ (((σ n).clients 1).queue).head? = some cmd := by
  obtain ⟨s, hr, hs⟩ := reachable_obs
    (as := boot ++ join 0 ++ join 1 ++ [.beginCall 1 (.flow 7), .submit 1 0])
    (f := fun s => ((s.mode, s.nClients, s.vec, s.addrs, (s.conns b0).alive, (s.clients 0).phase, (s.clients 1).phase),
      ((s.clients 0).starting, (s.clients 0).queue, (s.clients 0).broker, (s.clients 0).core.clientId, (s.clients 1).queue.head?)))
    (x := ((.idle, 2, [0, 1], [b0], true, .ready, .ready), ([], [], b0, 0, some ⟨.flow ⟨1, 7⟩, none⟩))) rfl
  simp only [Prod.mk.injEq] at hs
  obtain ⟨⟨a1, a2, a3, a4, a5, a6, a7⟩, a8, a9, a10, a11, a12⟩ := hs
  let cmd : ClientCmd := ⟨.flow ⟨1, 7⟩, none⟩
  have hB : Busy cmd s := ⟨a1, a2, a3, a4, a5, a6, a7, a8, a9, a10, a11, a12⟩
  have hstep : ∀ x : { s : State // Busy cmd s }, ∃ y : State × State × { s : State // Busy cmd s },
      step cfg0 x.1 (.beginCall 0 (.flow 1)) = some y.1 ∧ step cfg0 y.1 (.submit 0 0) = some y.2.1 ∧
      FirstReady y.2.1 (.engOut 0 (.ok []) net0) ∧ step cfg0 y.2.1 (.engOut 0 (.ok []) net0) = some y.2.2.1 ∧
      (((y.1.vec = [0, 1] ∧ y.1.nClients = 2) ∧ y.1.mode = .idle ∧ (y.1.clients 1).queue.head? = some cmd) ∧
       ((y.2.1.vec = [0, 1] ∧ y.2.1.nClients = 2) ∧ y.2.1.mode = .idle ∧ (y.2.1.clients 1).queue.head? = some cmd)) := by
    intro x
    obtain ⟨s1, s2, s3, h1, h2, h3, h4, h5⟩ := busy_again x.2
    have k1 : s1.vec = x.1.vec ∧ s1.nClients = x.1.nClients ∧ s1.mode = x.1.mode ∧ (s1.clients 1).queue = (x.1.clients 1).queue := by
      cases step_cases h1 with
      | request => simp [setClient_clients]
      | oneway => simp [setClient_clients]
    have k2 : s2.vec = s1.vec ∧ s2.nClients = s1.nClients ∧ s2.mode = s1.mode ∧ (s2.clients 1).queue = (s1.clients 1).queue := by
      cases step_cases h2 with
      | submit => simp [setClient_clients]
      | refuse => simp [setClient_clients]
    refine ⟨(s1, s2, ⟨s3, h5⟩), h1, h2, h3, h4, ?_⟩
    rw [k2.1, k2.2.1, k2.2.2.1, k2.2.2.2, k1.1, k1.2.1, k1.2.2.1, k1.2.2.2, x.2.vec, x.2.n, x.2.mode, x.2.queue1]
    simp
  obtain ⟨f, hf⟩ := Classical.axiomOfChoice hstep
  let it : Nat → { s : State // Busy cmd s } := fun n => Nat.rec ⟨s, hB⟩ (fun _ x => (f x).2.2) n
  have hit : ∀ n, it (n + 1) = (f (it n)).2.2 := fun _ => rfl
  let σ : Nat → State := fun n => if n % 3 = 0 then (it (n / 3)).1 else if n % 3 = 1 then (f (it (n / 3))).1 else (f (it (n / 3))).2.1
  let acts : Nat → Act := fun n => if n % 3 = 0 then .beginCall 0 (.flow 1) else if n % 3 = 1 then .submit 0 0
    else .engOut 0 (.ok []) net0
  have hσ0 : ∀ k, σ (3 * k) = (it k).1 := by
    intro k
    have h1 : 3 * k % 3 = 0 := by omega
    have h2 : 3 * k / 3 = k := by omega
    simp only [σ, h1, if_true, h2]
  have hσ1 : ∀ k, σ (3 * k + 1) = (f (it k)).1 := by
    intro k
    have h1 : (3 * k + 1) % 3 = 1 := by omega
    have h2 : (3 * k + 1) / 3 = k := by omega
    simp [σ, h1, h2]
  have hσ2 : ∀ k, σ (3 * k + 2) = (f (it k)).2.1 := by
    intro k
    have h1 : (3 * k + 2) % 3 = 2 := by omega
    have h2 : (3 * k + 2) / 3 = k := by omega
    simp [σ, h1, h2]
  have ha0 : ∀ k, acts (3 * k) = .beginCall 0 (.flow 1) := by
    intro k
    have h1 : 3 * k % 3 = 0 := by omega
    simp [acts, h1]
  have ha1 : ∀ k, acts (3 * k + 1) = .submit 0 0 := by
    intro k
    have h1 : (3 * k + 1) % 3 = 1 := by omega
    simp [acts, h1]
  have ha2 : ∀ k, acts (3 * k + 2) = .engOut 0 (.ok []) net0 := by
    intro k
    have h1 : (3 * k + 2) % 3 = 2 := by omega
    simp [acts, h1]
  have hcase : ∀ n : Nat, ∃ k, n = 3 * k ∨ n = 3 * k + 1 ∨ n = 3 * k + 2 := fun n => ⟨n / 3, by omega⟩
  refine ⟨σ, acts, cmd, ?_, fun n => ?_, ha2, fun n => ?_⟩
  · have : σ 0 = s := hσ0 0
    rw [this]; exact ⟨_, hr⟩
  · obtain ⟨k, rfl | rfl | rfl⟩ := hcase n
    · rw [hσ0, hσ1, ha0]; exact ⟨(hf (it k)).1, trivial⟩
    · rw [hσ1, show 3 * k + 1 + 1 = 3 * k + 2 from rfl, hσ2, ha1]; exact ⟨(hf (it k)).2.1, trivial⟩
    · rw [hσ2, show 3 * k + 2 + 1 = 3 * (k + 1) by omega, hσ0, ha2, hit]
      exact ⟨(hf (it k)).2.2.2.1, (hf (it k)).2.2.1⟩
  · obtain ⟨k, rfl | rfl | rfl⟩ := hcase n
    · rw [hσ0]
      exact ⟨⟨(it k).2.vec, (it k).2.n⟩, (it k).2.mode, (it k).2.queue1⟩
    · rw [hσ1]; exact (hf (it k)).2.2.2.2.1
    · rw [hσ2]; exact (hf (it k)).2.2.2.2.2

/-! ## C42/C84 -/

theorem openConnection_base (net : Net) {b b' : BrokerAddress} (h : b.baseUrl = b'.baseUrl) :
    openConnection net b = openConnection net b' := by
  unfold openConnection BrokerAddress.isTls
  rw [h]

/-- Handling what a connection delivers never panics. -/
theorem C84_inbound (s : State) (b : BrokerAddress) (e : Event) : (handleInbound s b e).2 ≠ .panic := by
  unfold handleInbound
  split
  · unfold pushConn; split
    · simp
    · split <;> simp
  · simp

theorem find_vec {cfg : Cfg} {s : State} (h : Reachable cfg s) {i : Nat} (hi : i ∈ s.vec) (id : UInt64)
    (hid : (s.clients i).core.clientId = id) :
    s.vec.find? (fun j => decide ((s.clients j).core.clientId = id)) ≠ none := by
  intro hn
  have := List.find?_eq_none.mp hn i hi
  simp [hid] at this

/-- Handling a client's command panics only if the auth plugin panics, or if a connection has to be opened and doing so for the
configured broker URL panics (a TLS URL whose host is not a valid server name, C63). -/
theorem C84_outbound {cfg : Cfg} {s : State} (h : Reachable cfg s) {i : Nat} {cmd : ClientCmd} {q : List ClientCmd} {auth : Outcome Bytes}
    {net : Net} (hi : i ∈ s.vec) (hq : (s.clients i).queue = cmd :: q)
    (hp : (handleOutbound cfg (takeCmd s i cmd q) i cmd auth net).2 = .panic) :
    auth = .panic ∨ openConnection net cfg.config.brokerAddress = .panic := by
  have hlt := (wf h).vecLt i hi
  have hmade : MadeBy i cmd := made h i hlt cmd
    (List.mem_append_right _ (((Sys.cmd h).submitted i hlt).subset (List.mem_append_right _ (by rw [hq]; simp))))
  have hpush : ∀ (x : State) b c, (pushConn x b c).2 ≠ .panic := by
    intro x b c; unfold pushConn; split
    · simp
    · split <;> simp
  have hsend : ∀ (x : State) b o og, (sendToConnection x b o og).2 ≠ .panic := by
    intro x b o og
    unfold sendToConnection
    split
    · split
      · simp
      · exact hpush _ _ _
    · exact hpush _ _ _
  have hfwd : ∀ (x : State) o, x.vec = s.vec → (∀ j, (x.clients j).core.clientId = (s.clients j).core.clientId) →
      (forward x i cmd o).2 ≠ .panic := by
    intro x o hv hc
    unfold forward
    have hfun : (fun j => decide ((x.clients j).core.clientId = (x.clients i).core.clientId)) =
        fun j => decide ((s.clients j).core.clientId = (s.clients i).core.clientId) := by funext j; rw [hc, hc]
    rw [hv, hfun]
    cases hf : s.vec.find? (fun j => decide ((s.clients j).core.clientId = (s.clients i).core.clientId)) with
    | none => exact absurd hf (find_vec h hi _ rfl)
    | some j => exact hsend _ _ _ _
  have htk : ∀ j, ((takeCmd s i cmd q).clients j).core.clientId = (s.clients j).core.clientId := by
    intro j; rw [takeCmd_clients]; split
    · rename_i hij; subst hij; rfl
    · rfl
  by_cases hc : ∃ c, cmd.out = .connect c
  · obtain ⟨c, hc⟩ := hc
    simp only [handleOutbound, hc] at hp
    have hbase : ∀ b, connectAddress cfg c.brokerAddress = some b → b.baseUrl = cfg.config.brokerAddress.baseUrl := by
      obtain ⟨core, call, _, ho, _⟩ := hmade
      rw [hc] at ho
      intro b hb
      cases call <;> simp only [Client.issue, Outbound.connect.injEq, reduceCtorEq] at ho
      · subst ho; simp only [connectAddress, Option.some.injEq] at hb; rw [← hb]
      · subst ho
        simp only [connectAddress, ne_eq, not_true_eq_false, if_false, Option.some.injEq] at hb
        rw [← hb]; rfl
    cases h2 : connectFor cfg c auth with
    | err e => rw [h2] at hp; simp at hp
    | panic =>
      left
      unfold connectFor at h2
      cases hm : cfg.authMethod with
      | none => simp [hm] at h2
      | some m => rw [hm] at h2; cases auth <;> simp_all
    | ok c2 =>
      have hca : c2.brokerAddress = connectAddress cfg c.brokerAddress := by
        unfold connectFor at h2
        cases hm : cfg.authMethod with
        | none => simp only [hm, Outcome.ok.injEq] at h2; rw [← h2]
        | some m =>
          rw [hm] at h2
          cases auth <;> simp only [Outcome.ok.injEq, reduceCtorEq] at h2
          rw [← h2]
      rw [h2] at hp
      simp only at hp
      cases hb : c2.brokerAddress with
      | none =>
        rw [hca] at hb
        unfold connectAddress at hb
        split at hb <;> simp at hb
      | some b =>
        rw [hb] at hp
        simp only at hp
        rcases newConnection_cases (takeCmd s i cmd q) net b with ⟨r, hr, hne⟩ | ⟨hm, hr⟩ | ⟨hm, hr⟩
        · right
          rw [hr] at hp
          have hrp : r = .panic := by
            cases r with
            | ok u => exact absurd rfl hne
            | err e => simp at hp
            | panic => rfl
          unfold newConnection at hr
          split at hr
          · simp only [Prod.mk.injEq] at hr; rw [hrp] at hr; simp at hr
          · rw [← openConnection_base net (hbase b (by rw [← hca]; exact hb))]
            cases ho : openConnection net b with
            | ok t => rw [ho] at hr; simp only [Prod.mk.injEq] at hr; rw [hrp] at hr; simp at hr
            | err e => rw [ho] at hr; simp only [Prod.mk.injEq] at hr; rw [hrp] at hr; simp at hr
            | panic => rfl
        · rw [hr] at hp
          refine absurd hp (hfwd _ _ ?_ ?_)
          · split <;> simp [moveClient]
          · intro j
            split
            · simp only [moveClient]; split <;> exact htk j
            · exact htk j
        · rw [hr] at hp
          refine absurd hp (hfwd _ _ ?_ ?_)
          · split <;> simp [moveClient, dialed]
          · intro j
            split
            · have : ∀ (x : State) id bb, ((moveClient x id bb).clients j).core = (x.clients j).core := by
                intro x id bb; simp only [moveClient]; split <;> rfl
              rw [this]; exact htk j
            · exact htk j
  · have hn : ∀ c, cmd.out ≠ .connect c := fun c h => hc ⟨c, h⟩
    have hh : handleOutbound cfg (takeCmd s i cmd q) i cmd auth net = forward (takeCmd s i cmd q) i cmd cmd.out := by
      unfold handleOutbound
      cases ho : cmd.out <;> first | rfl | exact absurd ho (hn _)
    rw [hh] at hp
    exact absurd hp (hfwd _ _ (by simp) htk)

/-- And if the first connection could be opened, then - the URL and the rules for server names being fixed - opening later ones
does not panic either. -/
theorem C84_after_start {net net' : Net} {a : BrokerAddress} {t : Transport} (h : openConnection net a = .ok t)
    (hu : net'.parseUrl = net.parseUrl) (hn : net'.serverName = net.serverName) : openConnection net' a ≠ .panic := by
  unfold openConnection at h ⊢
  rw [hu, hn]
  cases h1 : net.parseUrl a.baseUrl with
  | none => simp [h1, Outcome.okOr] at h
  | some url =>
    cases h2 : url.1 with
    | none => simp [h1, h2, Outcome.okOr] at h
    | some host =>
      cases h3 : url.2 with
      | none => simp [h1, h2, h3, Outcome.okOr] at h
      | some port =>
        simp only [h1, h2, h3, Outcome.okOr, Outcome.bind_ok] at h ⊢
        by_cases hd : net'.dial host port = true
        · by_cases ht : a.isTls = true
          · by_cases hs : net.serverName host = true
            · by_cases hh : net'.handshake host = true <;> simp [hd, ht, hs, hh]
            · by_cases hd' : net.dial host port = true <;> simp [hd', ht, hs] at h
          · simp [hd, ht]
        · simp [hd]

/-- The full claim is false: with a TLS URL whose host is not a valid server name the engine panics when it starts. -/
theorem C42_refuted : ∃ (cfg : Cfg) (net : Net), (newConnection (init cfg) net cfg.config.brokerAddress).2 = .panic ∧
    (step cfg (init cfg) (.engStart net)).map (·.mode) = some .stopped := by
  refine ⟨⟨⟨"pulsar+ssl://[::1]", 6651⟩, none⟩,
    ⟨fun _ => some (some "[::1]", some 6651), fun _ _ => true, fun h => h != "[::1]", fun _ => true⟩, ?_, ?_⟩ <;> rfl

/-! ## C43/C85 -/

/-- At most one client is being created. -/
def OneAtATime (s : State) : Prop :=
  ∀ i j, i < s.nClients → j < s.nClients → (s.clients i).phase = .waiting → (s.clients j).phase = .waiting → i = j

/-- If clients are created one at a time (and no creation is cancelled), then a client whose creation has returned is registered
with the engine. -/
theorem C85_one_at_a_time {cfg : Cfg} {as : List Act} {s : State} (hp : Path cfg OneAtATime (init cfg) as s)
    (hc : ∀ i, Act.cancelReg i ∉ as) {i : Nat} (hi : i < s.nClients) (hr : (s.clients i).phase = .ready) : i ∈ s.vec := by
  suffices h : OneByOne s from h.ready i hi hr
  clear hi hr
  generalize hinit : init cfg = s0 at hp
  induction hp with
  | nil _ =>
    subst hinit
    exact ⟨fun i hi => absurd hi (Nat.not_lt_zero i), fun _ => ⟨rfl, fun _ => rfl⟩, fun i hi => absurd hi (Nat.not_lt_zero i)⟩
  | snoc _ hs hP ih =>
    exact (ih (fun j hj => hc j (List.mem_append_left _ hj))).step hs (fun j hj => hc j (by rw [hj]; simp)) hP

/-- Whatever the interleaving, a client whose creation has returned is registered or its registration is queued with the
engine; once registered it stays registered. -/
theorem C85_queued {cfg : Cfg} {s : State} (h : Reachable cfg s) {i : Nat} (hi : i < s.nClients)
    (hr : (s.clients i).phase = .ready) : i ∈ s.vec ∨ i ∈ s.regQueue := known h i hi (.inr hr)

/-- If the engine is gone, creation fails (C31) - unless it takes a reply that was meant for another creation. -/
theorem C85_gone {cfg : Cfg} {s : State} (hm : s.mode = .stopped) {i : Nat} (hr : s.replies = 0) {a : Act} {s' : State} (ha : a = .sendReg i ∨ a = .recvReply i)
    (hs : step cfg s a = some s') : (s'.clients i).phase = .gone := by
  rcases ha with rfl | rfl
  · cases step_cases hs with
    | sendRegFail => simp [setClient_clients]
    | sendReg _ _ _ _ hm' => exact absurd hm hm'
  · cases step_cases hs with
    | recvReply _ _ _ _ h => omega
    | recvReplyFail => simp [setClient_clients]

/-- The full claim is false: with two creations at the same time, one can take the reply to the other and return although the
engine does not know its client. -/
theorem C43_refuted : ∃ s, Reachable cfg0 s ∧ (s.clients 1).phase = .ready ∧ 1 ∉ s.vec := by
  obtain ⟨s, hr, hs⟩ := reachable_obs
    (as := boot ++ [.newClient "a", .newClient "b", .sendReg 0, .sendReg 1, .engReg, .recvReply 1])
    (f := fun s => ((s.clients 1).phase, s.vec)) (x := (.ready, [0])) rfl
  simp only [Prod.mk.injEq] at hs
  exact ⟨s, ⟨_, hr⟩, hs.1, by rw [hs.2]; decide⟩

/-- The hypotheses of C85_queued are met, and those of C85_one_at_a_time at the end of a path. -/
example : (go (boot ++ join 0 ++ join 1)).map (fun s => ((s.clients 1).phase, s.vec)) = some (.ready, [0, 1]) := by rfl

/-- A path as in C85_one_at_a_time. -/
example : ∃ s, Path cfg0 OneAtATime (init cfg0) [.newClient "a", .sendReg 0] s ∧ (s.clients 0).phase = .waiting := by
  have h0 : OneAtATime (init cfg0) := fun i j hi => absurd hi (Nat.not_lt_zero i)
  refine ⟨_, .snoc (as := [.newClient "a"]) (.snoc (as := []) (.nil h0) rfl ?_) rfl ?_, rfl⟩
  · intro i j hi hj
    have : i = 0 := Nat.lt_one_iff.mp hi
    have : j = 0 := Nat.lt_one_iff.mp hj
    omega
  · intro i j hi hj
    have : i = 0 := Nat.lt_one_iff.mp hi
    have : j = 0 := Nat.lt_one_iff.mp hj
    omega

end Neutron.Props
