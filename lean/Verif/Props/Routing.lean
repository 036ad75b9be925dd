import Verif.Proof.SysMade
import Verif.Spec.Traces

/-!
# Commands on their way to the brokers: C27, C28, C29, C30, C37, C44, C68
-/

namespace Neutron.Props

open Neutron Neutron.Sys Neutron.Trace

/-! ## C27 -/

theorem ofClient_sent (l : List (BrokerAddress × ConnCmd)) (b : BrokerAddress) (i : Nat) :
    ofClient i (sentTo l b) = ((passedOn l i).filter fun p => decide (p.1 = b)).map (·.2) := by
  induction l with
  | nil => rfl
  | cons p l ih =>
    have e1 : sentTo (p :: l) b = (if p.1 = b then [p.2] else []) ++ sentTo l b := by
      unfold sentTo; rw [List.filterMap_cons]; split <;> simp_all
    have e2 : passedOn (p :: l) i = passedOn [p] i ++ passedOn l i := passedOn_append [p] l i
    have e3 : ∀ a c, ofClient i (a ++ c) = ofClient i a ++ ofClient i c := fun a c => List.filterMap_append
    rw [e1, e2, e3, List.filter_append, List.map_append, ih]
    congr 1
    cases ho : p.2.origin with
    | none => by_cases hb : p.1 = b <;> simp [ofClient, passedOn, ho, hb]
    | some x =>
      obtain ⟨j, c⟩ := x
      by_cases hb : p.1 = b <;> by_cases hj : j = i <;> simp [ofClient, passedOn, ho, hb, hj]

/-- While the engine runs and no write to a socket has failed, for every client there is one list of destinations such that
the commands the client has handed over are, in order, those passed on (each to its destination) followed by those still in the
client's channel; and what was written for this client to each socket, followed by what still waits at that connection, is
exactly the part of the list for that connection.  Nothing is lost, duplicated or reordered. -/
theorem C27_in_order {cfg : Cfg} {as : List Act} {s : State} (h : Run cfg as s) (hm : s.mode ≠ .stopped)
    (hn : s.nClients ≤ 2 ^ 64) (hw : NoWriteFailure as) {i : Nat} (hi : i < s.nClients) :
    ∃ route : List (BrokerAddress × ClientCmd),
      route.map (·.2) ++ (s.clients i).queue = (s.clients i).submitted ∧
      ∀ b, ofClient i (s.conns b).written ++ ofClient i (s.conns b).queue =
        (route.filter fun p => decide (p.1 = b)).map (·.2) := by
  have hr : Reachable cfg s := ⟨_, h⟩
  have hc := cmd hr
  refine ⟨passedOn s.sent i, ?_, fun b => ?_⟩
  · rw [(hc.routedEq hn hm i hi).1, routeAll_map_snd]
    exact hc.submittedEq i hi (.inr hm)
  · rw [← ofClient_sent, ← (conn hr).accepted b, ((conn hr).ok b).fifo, run_written h hw]
    exact List.filterMap_append.symm

/-- The same for a client that was never sent through a proxy: everything goes to the configured broker. -/
theorem C27_one_broker {cfg : Cfg} {as : List Act} {s : State} (h : Run cfg as s) (hm : s.mode ≠ .stopped)
    (hn : s.nClients ≤ 2 ^ 64) (hw : NoWriteFailure as) {i : Nat} (hi : i < s.nClients)
    (hp : ∀ cmd c, cmd ∈ (s.clients i).submitted → cmd.out = .connect c → c.brokerAddress = none) :
    ofClient i (s.conns cfg.config.brokerAddress).written ++ ofClient i (s.conns cfg.config.brokerAddress).queue ++
      (s.clients i).queue = (s.clients i).submitted := by
  have hr : Reachable cfg s := ⟨_, h⟩
  have hc := cmd hr
  have h1 : ofClient i (s.conns cfg.config.brokerAddress).written ++ ofClient i (s.conns cfg.config.brokerAddress).queue =
      ((passedOn s.sent i).filter fun p => decide (p.1 = cfg.config.brokerAddress)).map (·.2) := by
    rw [← ofClient_sent, ← (conn hr).accepted, ((conn hr).ok _).fifo, run_written h hw]
    exact List.filterMap_append.symm
  have key : ∀ l : List ClientCmd, (∀ cmd c, cmd ∈ l → cmd.out = .connect c → c.brokerAddress = none) →
      routeAll cfg cfg.config.brokerAddress l = l.map fun c => (cfg.config.brokerAddress, c) := by
    intro l
    induction l with
    | nil => intro _; rfl
    | cons x l ih =>
      intro hx
      have hh : hop cfg cfg.config.brokerAddress x.out = cfg.config.brokerAddress := by
        unfold hop
        split
        · rename_i c hc
          rw [hx x c (by simp) hc]
          simp [connectAddress]
        · rfl
      simp only [routeAll, hh, List.map_cons, ih fun cmd c hm => hx cmd c (List.mem_cons_of_mem _ hm)]
  rw [h1, (hc.routedEq hn hm i hi).1, ← hc.submittedEq i hi (.inr hm)]
  rw [key _ fun cmd c hm => hp cmd c (by rw [← hc.submittedEq i hi (.inr ‹_›)]; exact List.mem_append_left _ hm)]
  congr 1
  generalize (s.clients i).handled = l
  clear h1 hp
  induction l with
  | nil => rfl
  | cons x l ih => simpa using ih

/-- Even with failing writes, and after the engine stopped: what is written for a client to a socket is a part of what it
handed over, in the same order, nothing twice. -/
theorem C27_never_reordered {cfg : Cfg} {s : State} (h : Reachable cfg s) (hn : s.nClients ≤ 2 ^ 64) {i : Nat}
    (hi : i < s.nClients) (b : BrokerAddress) :
    (ofClient i (s.conns b).written).Sublist (s.clients i).submitted := by
  have hc := cmd h
  have h1 : (ofClient i (s.conns b).written).Sublist (ofClient i (s.conns b).accepted) := by
    refine (List.Sublist.filterMap _ ((conn h).ok b).written).trans ?_
    refine List.Sublist.filterMap _ ?_
    rw [((conn h).ok b).fifo]; exact List.sublist_append_left ..
  refine h1.trans ?_
  rw [(conn h).accepted, ofClient_sent]
  refine (List.Sublist.map _ List.filter_sublist).trans ?_
  refine ((hc.routed hn i hi).sublist.map _).trans ?_
  rw [routeAll_map_snd]
  exact ((List.prefix_append ..).trans (hc.submitted i hi)).sublist

/-- What is written for a command is the command itself; for a connect, the connect with address and credentials filled in. -/
theorem C27_content {cfg : Cfg} {s : State} (h : Reachable cfg s) {b : BrokerAddress} {c : ConnCmd} {i : Nat} {cm : ClientCmd}
    (hc : c ∈ (s.conns b).written) (ho : c.origin = some (i, cm)) :
    cm ∈ (s.clients i).submitted ∧
    match cm.out with
    | .connect k => ∃ auth k2, connectFor cfg k auth = .ok k2 ∧ c.out = .connect k2
    | out => c.out = out := by
  have h1 : c ∈ (s.conns b).accepted := by
    rw [((conn h).ok b).fifo]; exact List.mem_append_left _ (((conn h).ok b).written.subset hc)
  rw [(conn h).accepted] at h1
  unfold sentTo at h1
  rw [List.mem_filterMap] at h1
  obtain ⟨p, hp, hpc⟩ := h1
  split at hpc
  · rename_i hb
    simp only [Option.some.injEq] at hpc
    have := (cmd h).sentOk p.1 p.2 hp
    rw [hpc, ho] at this
    obtain ⟨h2, h3, h4⟩ := this
    exact ⟨((cmd h).submitted i h2).subset (List.mem_append_left _ h3), h4⟩
  · exact absurd hpc (by simp)

/-- What a client hands over is exactly what it submits, in that order: a submit adds its command, nothing else adds any. -/
theorem C27_submitted {cfg : Cfg} {s s' : State} {a : Act} (hs : step cfg s a = some s') {i : Nat} (hi : i < s.nClients) :
    (s'.clients i).submitted = (s.clients i).submitted ∨
    ∃ k cm, a = .submit i k ∧ (s.clients i).starting[k]? = some cm ∧
      (s'.clients i).submitted = (s.clients i).submitted ++ [cm] := by
  have hi' : i < s'.nClients := by
    cases step_cases hs with
    | startOk net hm s2 h2 => rcases h2 with ⟨rfl, hb⟩ | ⟨hb, rfl⟩ <;> simpa using hi
    | out j auth net cmd q s'' hm hv ha hq he =>
      cases he with
      | lost c c2 b s3 hcc h2 hb hp => simpa [hp.nClients] using hi
      | connecting c c2 b s3 k hcc h2 hb hp hj ha hl => simpa [hp.nClients] using hi
      | _ => simpa using hi
    | inb b e q s'' hm ha hv hq he => cases he <;> simpa using hi
    | newClient => simp only; omega
    | _ => simpa using hi
  rcases client_step hs hi' with ⟨_, hc⟩ | ⟨rfl, _⟩
  · cases hc with
    | same _ _ hb => exact .inl hb
    | began _ _ _ _ hb => exact .inl hb
    | submitted k cm ha hk _ _ hb => exact .inr ⟨k, cm, ha, hk, hb⟩
    | refused _ _ _ _ _ _ hb => exact .inl hb
  · exact absurd hi (Nat.lt_irrefl _)

/-- Two clients, three commands, one written, one waiting at the connection, one still with its client. (The hypotheses of C27_in_order,
C27_one_broker, C27_never_reordered, C27_content and C27_submitted are met.) -/
example : (go (boot ++ join 0 ++ join 1 ++ ask 0 (.lookupTopic "t") ++ ask 0 (.flow 5) ++ [.connCmd b0 .ok] ++
      [.beginCall 0 (.flow 6), .submit 0 0])).map
    (fun s => ((ofClient 0 (s.conns b0).written).length, (ofClient 0 (s.conns b0).queue).length, (s.clients 0).queue.length,
      (s.clients 0).submitted.length)) = some (1, 1, 1, 3) := by rfl

/-! ## C28 -/

theorem accepted_origin {cfg : Cfg} {s : State} (h : Reachable cfg s) {b : BrokerAddress} {c : ConnCmd}
    (hc : (b, c) ∈ s.sent) : c.origin.isNone = true ↔ c.out = .pong := by
  have := (cmd h).sentOk b c hc
  cases ho : c.origin with
  | none => rw [ho] at this; simp [this.1]
  | some x =>
    obtain ⟨i, cm⟩ := x
    rw [ho] at this
    obtain ⟨h1, h2, h3⟩ := this
    have hnp := (made_handled h h1 h2).not_pong
    unfold Passes at h3
    constructor
    · intro hx; simp at hx
    · intro hp
      rw [hp] at h3
      exfalso
      split at h3
      · obtain ⟨_, _, _, hh⟩ := h3; exact absurd hh (by simp)
      · exact hnp h3.symm

theorem pongs_sent {cfg : Cfg} {s : State} (h : Reachable cfg s) (b : BrokerAddress) :
    pongCount (s.conns b).accepted = pongsTo s.sent b := by
  rw [(conn h).accepted]
  have hmem : ∀ p, p ∈ s.sent → (p.2.origin.isNone = true ↔ p.2.out = .pong) := fun p hp => accepted_origin h (b := p.1) hp
  unfold pongsTo pongCount sentTo
  generalize s.sent = l at hmem ⊢
  induction l with
  | nil => rfl
  | cons p l ih =>
    have ih := ih fun p hp => hmem p (List.mem_cons_of_mem _ hp)
    have hp := hmem p (by simp)
    by_cases hb : p.1 = b
    · rw [List.filterMap_cons, if_pos hb]
      simp only
      rw [List.countP_cons, ih]
      by_cases hpo : p.2.out = .pong
      · simp [hb, hp.mpr hpo, hpo]
      · have : p.2.origin.isNone = false := by
          cases hx : p.2.origin.isNone with
          | false => rfl
          | true => exact absurd (hp.mp hx) hpo
        rw [List.filter_cons_of_neg (by simp [this])]
        cases hout : p.2.out <;> simp_all
    · rw [List.filterMap_cons, if_neg hb]
      simp only
      rw [ih, List.filter_cons_of_neg (by simp [hb])]

theorem pings_handled {cfg : Cfg} {s : State} (h : Reachable cfg s) (b : BrokerAddress) :
    pingsFrom s.dispatches b = pingCount (s.conns b).dispatched := by
  have h1 : pingCount (handledOf s.dispatches b) = pingCount (s.conns b).dispatched := by
    rw [(evt h).conn]
    unfold pingCount
    rw [List.countP_map]
    congr 1
    funext e
    simp only [Function.comp, adjustEvent]
    cases e.inb <;> rfl
  rw [← h1]
  have hrec := (evt h).recs
  have hvia : ∀ d, d ∈ s.dispatches → d.viaConnect = true → d.event.inb = .connected := fun d hd hv =>
    (rep h).connected _ _ ((rep h).via d hd hv)
  unfold pingsFrom handledOf pingCount
  generalize s.dispatches = l at hrec hvia ⊢
  induction l with
  | nil => rfl
  | cons d l ih =>
    have ih := ih (fun p hp => hrec p (List.mem_cons_of_mem _ hp)) (fun p hp => hvia p (List.mem_cons_of_mem _ hp))
    have hd := hrec d (by simp)
    have hv := hvia d (by simp)
    have hping : d.dest = .pong ↔ d.event.inb = .ping := by
      unfold RecOk at hd
      cases hds : d.dest with
      | pong => rw [hds] at hd; simp [hd]
      | waiter t => rw [hds] at hd; constructor
                    · simp
                    · intro hx; rw [hx] at hd; simp [Inbound.tryKey] at hd
      | clients is => rw [hds] at hd; constructor
                      · simp
                      · intro hx; exact absurd hx hd.1
    by_cases hb : d.broker = b
    · cases hvc : d.viaConnect with
      | true =>
        have hne : d.dest ≠ .pong := fun hx => by rw [hping, hv hvc] at hx; simp at hx
        rw [List.filterMap_cons, if_neg (by simp [hvc]), List.filter_cons_of_neg (by simp [hne])]
        exact ih
      | false =>
        rw [List.filterMap_cons, if_pos ⟨hb, hvc⟩]
        simp only
        rw [List.countP_cons, ← ih]
        by_cases hp : d.event.inb = .ping
        · rw [List.filter_cons_of_pos (by simp [hb, hping.mpr hp])]; simp [hp]
        · have hnp : d.dest ≠ .pong := fun x => hp (hping.mp x)
          rw [List.filter_cons_of_neg (by simp [hnp])]
          cases hi : d.event.inb <;> simp_all
    · rw [List.filterMap_cons, if_neg (fun x => hb x.1), List.filter_cons_of_neg (by simp [hb])]
      exact ih

/-- While the engine runs, on every connection: the pongs queued for it so far are as many as the pings the engine has taken
from it, and pings read but not yet taken are still waiting: none is skipped, none answered twice, and no pong has another
cause. -/
theorem C28_as_many_pongs_as_pings {cfg : Cfg} {s : State} (h : Reachable cfg s) (hm : s.mode ≠ .stopped) (b : BrokerAddress) :
    pongCount (s.conns b).accepted + pingCount (s.conns b).outbox = pingCount (s.conns b).reads := by
  rw [pongs_sent h, (cmd h).pongsEq hm, pings_handled h, ((conn h).ok b).events]
  unfold pingCount
  rw [List.countP_append]

/-- Also after the engine stopped there are never more pongs than pings. -/
theorem C28_no_other_pongs {cfg : Cfg} {s : State} (h : Reachable cfg s) (b : BrokerAddress) :
    pongCount (s.conns b).accepted ≤ pingCount (s.conns b).reads := by
  have h1 := (cmd h).pongs b
  rw [pongs_sent h]
  rw [pings_handled h] at h1
  refine Nat.le_trans h1 ?_
  rw [((conn h).ok b).events]
  unfold pingCount
  rw [List.countP_append]
  exact Nat.le_add_right ..

/-- Handling one ping from a live connection: one pong is queued on that connection, nothing on any other, no client gets
anything and no request completes. -/
theorem C28_one_ping {cfg : Cfg} {s s' : State} {b : BrokerAddress} {e : Event} {q : List Event}
    (hq : (s.conns b).outbox = e :: q) (he : e.inb = .ping) (hl : (s.conns b).alive = true)
    (hs : step cfg s (.engIn b) = some s') :
    (s'.conns b).queue = (s.conns b).queue ++ [⟨.pong, none, none⟩] ∧ (s'.conns b).outbox = q ∧
    (∀ b', b' ≠ b → s'.conns b' = s.conns b') ∧ s'.clients = s.clients ∧ s'.outcomes = s.outcomes ∧ s'.mode = s.mode := by
  have hst := hs
  simp only [step, engIn, hq] at hs
  split at hs
  · rename_i hc
    simp only [handleInbound, he, Option.some.injEq] at hs
    subst hs
    have hta : ((takeEvent s b e q).conns b).alive = true := by unfold takeEvent; simp [setConn_conns, hl]
    have hp : pushConn { takeEvent s b e q with dispatches := (takeEvent s b e q).dispatches ++ [⟨b, e, false, .pong⟩] } b
        ⟨.pong, none, none⟩ = (pushed { takeEvent s b e q with dispatches := (takeEvent s b e q).dispatches ++ [⟨b, e, false, .pong⟩] }
          b ⟨.pong, none, none⟩, .ok ()) := by
      unfold pushConn
      rw [if_neg (by simp [hc.2.1]), if_neg (by simp [hl])]
      rfl
    rw [hp, finish_ok]
    refine ⟨?_, ?_, fun b' hb' => ?_, by simp, by simp, by simp⟩
    · simp [pushed, setConn_conns, takeEvent]
    · simp [pushed, setConn_conns, takeEvent]
    · simp [pushed, setConn_conns, takeEvent, hb']
  · exact absurd hs (by simp)

/-- Two pings and a message; two pongs. (The hypotheses of C28_as_many_pongs_as_pings, C28_no_other_pongs and C28_one_ping are met.) -/
example : (go (boot ++ join 0 ++ say b0 pingCommand none ++ say b0 (messageC 0 [1]) none ++ say b0 pingCommand none)).map
    (fun s => (pongCount (s.conns b0).accepted, pingCount (s.conns b0).reads, (s.clients 0).inbox.length)) = some (2, 2, 1) := by rfl

/-! ## C29 -/

/-- Ids of different clients differ (fewer than 2^64 clients). -/
theorem C29_unique_ids {cfg : Cfg} {s : State} (h : Reachable cfg s) (hn : s.nClients ≤ 2 ^ 64) {i j : Nat}
    (hi : i < s.nClients) (hj : j < s.nClients) (hij : i ≠ j) :
    (s.clients i).core.clientId ≠ (s.clients j).core.clientId := by
  rw [(wf h).ids i hi, (wf h).ids j hj]
  intro he
  have := congrArg UInt64.toNat he
  rw [UInt64.toNat_ofNat_of_lt' (by simp [UInt64.size]; omega), UInt64.toNat_ofNat_of_lt' (by simp [UInt64.size]; omega)] at this
  exact hij this

/-- Creating a client gives it the next id; a client's id never changes. -/
theorem C29_stable {cfg : Cfg} {s s' : State} {a : Act} (hs : step cfg s a = some s') {i : Nat} (hi : i < s'.nClients) :
    (i < s.nClients ∧ (s'.clients i).core.clientId = (s.clients i).core.clientId) ∨
    (i = s.nClients ∧ (∃ name, a = .newClient name) ∧ (s'.clients i).core.clientId = UInt64.ofNat i) := by
  rcases client_step hs hi with ⟨h1, hc⟩ | ⟨h1, _, name, h2, h3⟩
  · refine .inl ⟨h1, ?_⟩
    cases hc with
    | same hc => rw [hc]
    | began call _ hc => rw [hc, issue_clientId]
    | submitted _ _ _ _ hc => rw [hc]
    | refused _ _ _ _ hc => rw [hc]
  · exact .inr ⟨h1, ⟨name, h2⟩, by rw [h3]⟩

/-- Clients created concurrently (before either is registered). (The hypotheses of C29_unique_ids and C29_stable are met.) -/
example : (go (boot ++ [.newClient "a", .newClient "b", .sendReg 1, .sendReg 0, .engReg, .engReg, .recvReply 0, .recvReply 1])).map
    (fun s => (s.vec, (s.clients 0).core.clientId, (s.clients 1).core.clientId)) = some ([1, 0], 0, 1) := by rfl

/-! ## C30 -/

/-- Every connect ever queued on a connection carries the configured plugin's method name and data; without a plugin, none. -/
theorem C30_credentials {cfg : Cfg} {s : State} (h : Reachable cfg s) {b : BrokerAddress} {c : ConnCmd} {k : Connect}
    (hc : c ∈ (s.conns b).accepted) (ho : c.out = .connect k) :
    k.authMethodName = cfg.authMethod ∧ (k.authData.isSome ↔ cfg.authMethod.isSome) := by
  rw [(conn h).accepted] at hc
  unfold sentTo at hc
  rw [List.mem_filterMap] at hc
  obtain ⟨p, hp, hpc⟩ := hc
  split at hpc
  · rename_i hb
    simp only [Option.some.injEq] at hpc
    have := (cmd h).sentOk p.1 p.2 hp
    rw [hpc] at this
    cases hor : c.origin with
    | none => rw [hor, ho] at this; exact absurd this.1 (by simp)
    | some x =>
      obtain ⟨i, cm⟩ := x
      rw [hor] at this
      obtain ⟨h2, h3, h4⟩ := this
      obtain ⟨core, call, _, hout, _⟩ := made_handled h h2 h3
      unfold Passes at h4
      have hnone : ∀ k', cm.out = .connect k' → k'.authData = none ∧ k'.authMethodName = none := by
        intro k' hk; rw [hout] at hk
        cases call <;> simp [Client.issue] at hk <;> subst hk <;> exact ⟨rfl, rfl⟩
      split at h4
      · rename_i k0 hk0
        obtain ⟨auth, k2, h5, h6⟩ := h4
        rw [ho] at h6
        simp only [Outbound.connect.injEq] at h6
        subst h6
        unfold connectFor at h5
        obtain ⟨hn1, hn2⟩ := hnone k0 hk0
        cases hm : cfg.authMethod with
        | none => rw [hm] at h5; simp only [Outcome.ok.injEq] at h5; subst h5; simp [hn1, hn2]
        | some m =>
          rw [hm] at h5
          cases auth with
          | ok d => simp only [Outcome.ok.injEq] at h5; subst h5; simp
          | err e => exact absurd h5 (by simp)
          | panic => exact absurd h5 (by simp)
      · rename_i hnc
        rw [ho] at h4
        exact absurd h4.symm (hnc k)
  · exact absurd hpc (by simp)

/-- The data is what the plugin answered for this connect: a connect is only ever queued by the engine handling a client's
connect, and with a plugin the data queued is the plugin's answer in that very step; if the plugin fails, nothing is queued on
any connection and the engine stops. -/
theorem C30_fresh_answer {cfg : Cfg} {s s' : State} {i : Nat} {auth : Outcome Bytes} {net : Net} {m : String} {cm : ClientCmd}
    {q : List ClientCmd} {k : Connect} (hm : cfg.authMethod = some m) (hq : (s.clients i).queue = cm :: q)
    (hk : cm.out = .connect k) (hs : step cfg s (.engOut i auth net) = some s') :
    (s'.mode = .stopped ∧ s'.sent = s.sent) ∨
    ∃ d b c k2, auth = .ok d ∧ s'.sent = s.sent ++ [(b, c)] ∧ c.out = .connect k2 ∧ k2.authData = some d ∧
      k2.authMethodName = some m := by
  cases step_cases hs with
  | outGone _ _ _ _ _ _ hq' => rw [hq] at hq'; exact absurd hq' (by simp)
  | out _ _ _ cmd q' _ _ _ _ hq' he =>
    rw [hq] at hq'
    simp only [List.cons.injEq] at hq'
    obtain ⟨rfl, rfl⟩ := hq'
    cases he with
    | failed => exact .inl ⟨by simp, by simp⟩
    | lost c c2 b s3 hcc h2 hb hp => exact .inl ⟨by simp, by simp [hp.sent]⟩
    | sent j hn => exact absurd hk (hn k)
    | connecting c c2 b s3 j hcc h2 hb hp hj ha hl =>
      refine .inr ?_
      unfold connectFor at h2
      rw [hm] at h2
      cases auth with
      | ok d =>
        simp only [Outcome.ok.injEq] at h2
        subst h2
        refine ⟨d, (s3.clients j).broker, ⟨.connect ⟨some d, some m, connectAddress cfg c.brokerAddress⟩, some s3.nextReply,
          some (i, cm)⟩, ⟨some d, some m, connectAddress cfg c.brokerAddress⟩, rfl, ?_, rfl, rfl, rfl⟩
        simp [pushed, hp.sent]
      | err e => exact absurd h2 (by simp)
      | panic => exact absurd h2 (by simp)

/-- Only the engine handling a client's connect queues a connect. -/
theorem C30_only_source {cfg : Cfg} {s s' : State} {a : Act} (h : Reachable cfg s) (hs : step cfg s a = some s')
    {b : BrokerAddress} {c : ConnCmd} {k : Connect} (hc : s'.sent = s.sent ++ [(b, c)]) (ho : c.out = .connect k) :
    ∃ i auth net cm q k0, a = .engOut i auth net ∧ (s.clients i).queue = cm :: q ∧ cm.out = .connect k0 ∧ c.origin = some (i, cm) := by
  have hne : s.sent ≠ s.sent ++ [(b, c)] := by
    intro hx; have := congrArg List.length hx; simp at this
  cases step_cases hs with
  | startOk net hm s2 h2 =>
    rcases h2 with ⟨rfl, hb⟩ | ⟨hb, rfl⟩ <;> exact absurd (by simpa using hc) hne
  | out i auth net cm q s'' hm hv ha hq he =>
    cases he with
    | failed => exact absurd (by simpa using hc) hne
    | lost c c2 b s3 hcc h2 hb hp => exact absurd (by simpa [hp.sent] using hc) hne
    | sent j hn =>
      simp [pushed] at hc
      rw [← hc.2] at ho
      exact absurd ho (hn k)
    | connecting k0 c2 b' s3 j hcc h2 hb hp hj ha hl =>
      simp [pushed, hp.sent] at hc
      rw [← hc.2]
      exact ⟨i, auth, net, cm, q, k0, rfl, hq, hcc, rfl⟩
  | inb b' e q s'' hm ha hv hq he =>
    cases he with
    | pingFailed => exact absurd (by simpa using hc) hne
    | ping =>
      simp [pushed] at hc
      rw [← hc.2] at ho
      exact absurd ho (by simp)
    | other => exact absurd (by simpa using hc) hne
  | _ => exact absurd (by simpa using hc) hne

/-- With a plugin, a client's connect is queued with the plugin's answer. (The hypotheses of C30_credentials, C30_fresh_answer and
C30_only_source are met.) -/
example : ((exec cfgA (init cfgA) (boot ++ join 0 ++ [.beginCall 0 .connect, .submit 0 0, .engOut 0 (.ok [1, 2]) net0])).map
    (fun s => (s.conns b0).accepted.map fun c => match c.out with
      | .connect k => (k.authMethodName, k.authData)
      | _ => (none, none))) = some [(some "token", some [1, 2])] := by rfl

/-! ## C37 -/

/-- The address of the connection to broker `p` through the proxy at the configured address. -/
def proxied (cfg : Cfg) (p : String) : BrokerAddress := .proxy cfg.config.brokerAddress.baseUrl p

/-- Handling a connect through the proxy to broker `p`: either the engine stops (authentication or dialling failed, or the
connection is lost), or afterwards there is a connection to exactly that broker, it was opened unless it was there, the connect
is queued on it, naming `p`, and the client is now on it. -/
theorem C37_connect {cfg : Cfg} {s s' : State} (h : Reachable cfg s) (hn : s.nClients ≤ 2 ^ 64) {i : Nat} {auth : Outcome Bytes}
    {net : Net} {cm : ClientCmd} {q : List ClientCmd} {p : String} {core : Client} (hq : (s.clients i).queue = cm :: q)
    (hk : cm.out = (core.issue (.connectToProxy p)).2) (hs : step cfg s (.engOut i auth net) = some s') :
    s'.mode = .stopped ∨
    (proxied cfg p ∈ s'.addrs ∧
     s'.dials = (if proxied cfg p ∈ s.addrs then s.dials else s.dials ++ [proxied cfg p]) ∧
     (s'.clients i).broker = proxied cfg p ∧
     ∃ c k2, (s'.conns (proxied cfg p)).accepted = (s.conns (proxied cfg p)).accepted ++ [c] ∧ c.out = .connect k2 ∧
       k2.brokerAddress = some (proxied cfg p) ∧ c.origin = some (i, cm)) := by
  have hw := wf h
  cases step_cases hs with
  | outGone _ _ _ _ _ _ hq' => exact .inl (by simp)
  | out _ _ _ cmd q' _ hmi hv _ hq' he =>
    rw [hq] at hq'
    simp only [List.cons.injEq] at hq'
    obtain ⟨rfl, rfl⟩ := hq'
    cases he with
    | failed => exact .inl (by simp)
    | lost => exact .inl (by simp)
    | sent j hnn => exact absurd hk (by simpa [Client.issue] using hnn _)
    | connecting c c2 b s3 j hcc h2 hb hp hj ha hl =>
      refine .inr ?_
      rw [hk] at hcc
      simp only [Client.issue, Outbound.connect.injEq] at hcc
      subst hcc
      have hba := connectFor_address h2
      rw [hb] at hba
      simp only [connectAddress, ne_eq, not_true_eq_false, if_false, Option.some.injEq] at hba
      have hbp : b = proxied cfg p := hba
      subst hbp
      have hne : proxied cfg p ≠ cfg.config.brokerAddress := by simp [proxied, PulsarConfig.brokerAddress]
      have hi := hw.vecLt i hv
      have hw1 : WF (takeCmd s i cm q) := by
        apply hw.congr <;> simp
      have hw3 := hw1.prep hp
      have hc1 : Conn (takeCmd s i cm q) := (conn h).congr (by simp) (by simp) (by simp)
      have hbi := hp.broker hw1 (by simpa using hn) (by simpa using hi) (by simpa using hv) (k := i) (by simpa using hi)
      have hji : j = i := find_self hw3 (by simpa [hp.nClients] using hn) (by simpa [hp.nClients] using hi) hj
      subst hji
      rw [if_pos ⟨rfl, hne⟩] at hbi
      have had : proxied cfg p ∈ s3.addrs ∧
          s3.dials = (if proxied cfg p ∈ s.addrs then s.dials else s.dials ++ [proxied cfg p]) := by
        cases hp with
        | intro s2 hd hb2 =>
          rw [if_pos hne]
          rcases hd with rfl | ⟨hnb, rfl⟩
          · simp only [moveClient_addrs, moveClient_dials]
            exact ⟨hb2, by rw [if_pos (by simpa using hb2)]; simp⟩
          · simp only [moveClient_addrs, moveClient_dials]
            exact ⟨hb2, by rw [if_neg (by simpa using hnb)]; simp [dialed]⟩
      refine ⟨by simpa using had.1, by simpa using had.2, by simpa using hbi, ?_⟩
      rw [hbi]
      refine ⟨⟨.connect c2, some s3.nextReply, some (j, cm)⟩, c2, ?_, rfl, hb, rfl⟩
      simp [pushed, setConn_conns, hp.conns hc1]

/-- The proxy's name for the target in that connect is the target's URL without scheme (see C62). -/
theorem C37_names_target (cfg : Cfg) (p : String) :
    (proxied cfg p).getProxy = some (String.ofList (trimStart "pulsar://".toList p.toList)) ∧
    (proxied cfg p).baseUrl = cfg.config.brokerAddress.baseUrl := ⟨rfl, rfl⟩

/-- After that every command of the client goes over that connection until it connects through a proxy again: in the list of
what the engine passed on for this client, everything after a proxied connect and before the next one is for that broker. -/
theorem C37_later_commands {cfg : Cfg} {s : State} (h : Reachable cfg s) (hn : s.nClients ≤ 2 ^ 64) {i : Nat}
    (hi : i < s.nClients) {p : String} {core : Client} {cm : ClientCmd} {l l1 l2 : List ClientCmd}
    (hsub : (s.clients i).submitted = l1 ++ [cm] ++ l2) (hk : cm.out = (core.issue (.connectToProxy p)).2)
    (hl : l <+: l2) (hno : ∀ x c, x ∈ l → x.out = .connect c → c.brokerAddress = none)
    (hhand : l1.length + 1 + l.length ≤ (passedOn s.sent i).length) :
    ∃ before after, passedOn s.sent i = before ++ [(proxied cfg p, cm)] ++ l.map (fun x => (proxied cfg p, x)) ++ after ∧
      before.map (·.2) = l1 := by
  have hc := cmd h
  have hroute : ∀ (cur : BrokerAddress) (a b : List ClientCmd),
      routeAll cfg cur (a ++ b) = routeAll cfg cur a ++ routeAll cfg (lastHop cfg cur a) b := by
    intro cur a
    induction a generalizing cur with
    | nil => intro b; rfl
    | cons x a ih => intro b; simp only [List.cons_append, routeAll, lastHop, ih]
  have hstay : ∀ (l : List ClientCmd), (∀ x c, x ∈ l → x.out = .connect c → c.brokerAddress = none) → ∀ cur,
      routeAll cfg cur l = l.map fun x => (cur, x) := by
    intro l
    induction l with
    | nil => intro _ _; rfl
    | cons x l ih =>
      intro hx cur
      have hh : hop cfg cur x.out = cur := by
        unfold hop
        split
        · rename_i c hc
          rw [hx x c (by simp) hc]
          simp [connectAddress]
        · rfl
      simp only [routeAll, hh, List.map_cons, ih fun x c hm => hx x c (List.mem_cons_of_mem _ hm)]
  have hhop : ∀ cur, hop cfg cur cm.out = proxied cfg p := by
    intro cur
    rw [hk]
    simp [Client.issue, hop, connectAddress, proxied, PulsarConfig.brokerAddress]
  obtain ⟨l3, rfl⟩ := hl
  -- everything passed on is a prefix of the route of what was submitted
  have hpre : passedOn s.sent i <+: routeAll cfg cfg.config.brokerAddress (l1 ++ [cm] ++ (l ++ l3)) := by
    refine (hc.routed hn i hi).trans ?_
    obtain ⟨r, hr⟩ := (List.prefix_append ..).trans (hc.submitted i hi)
    rw [← hsub, ← hr, hroute]
    exact List.prefix_append ..
  have e : routeAll cfg cfg.config.brokerAddress (l1 ++ [cm] ++ (l ++ l3)) =
      (routeAll cfg cfg.config.brokerAddress l1 ++ [(proxied cfg p, cm)] ++ l.map (fun x => (proxied cfg p, x))) ++
        routeAll cfg (proxied cfg p) l3 := by
    rw [hroute, hroute, hroute]
    have e1 : lastHop cfg cfg.config.brokerAddress (l1 ++ [cm]) = proxied cfg p := by rw [lastHop_append, hhop]
    have e2 : lastHop cfg (proxied cfg p) l = proxied cfg p := by
      clear hhand hsub hpre
      induction l with
      | nil => rfl
      | cons x l ih =>
        have hh : hop cfg (proxied cfg p) x.out = proxied cfg p := by
          unfold hop
          split
          · rename_i c hc
            rw [hno x c (by simp) hc]
            simp [connectAddress]
          · rfl
        simp only [lastHop, hh]
        exact ih fun x c hm => hno x c (List.mem_cons_of_mem _ hm)
    rw [e1, e2, hstay l hno]
    simp only [routeAll, hhop, List.append_assoc]
  rw [e] at hpre
  have hlen : (routeAll cfg cfg.config.brokerAddress l1).length = l1.length := by
    have := congrArg List.length (routeAll_map_snd cfg cfg.config.brokerAddress l1)
    simpa using this
  have h3 := List.prefix_of_prefix_length_le (List.prefix_append _ _) hpre (by
    simp only [List.length_append, List.length_map, List.length_singleton, hlen]; omega)
  obtain ⟨after, ha⟩ := h3
  exact ⟨_, after, ha.symm, routeAll_map_snd ..⟩

/-- After a proxied connect a lookup and a subscribe go to the new connection. (The hypotheses of C37_connect, C37_names_target and
C37_later_commands are met.) -/
example : (go (boot ++ join 0 ++ ask 0 (.connectToProxy "pulsar://z:1") ++
      [.connCmd b1 .ok, .connRead b1 (.command connectedC none), .engConnectDone] ++ ask 0 (.lookupTopic "t"))).map
    (fun s => (s.addrs, (passedOn s.sent 0).map (·.1), (s.clients 0).broker)) = some ([b0, b1], [b1, b1], b1) := by rfl

/-! ## C44 -/

/-- The sends of a client (single messages and batches alike) carry the sequence ids 0, 1, 2, … in the order issued; its
lookups, subscriptions, producer registrations and acks the request ids 0, 1, 2, …. -/
theorem C44_consecutive {cfg : Cfg} {s : State} (h : Reachable cfg s) {i : Nat} (hi : i < s.nClients) :
    idsOf sequenceIdOf s.issued i = countUp (idsOf sequenceIdOf s.issued i).length ∧
    idsOf requestIdOf s.issued i = countUp (idsOf requestIdOf s.issued i).length :=
  ⟨(counts h i hi).1, (counts h i hi).2.2.1⟩

theorem countUp_nodup {n : Nat} (hn : n ≤ 2 ^ 64) : (countUp n).Nodup := by
  unfold countUp
  rw [List.nodup_iff_pairwise_ne, List.pairwise_map]
  refine List.Pairwise.imp_of_mem ?_ List.nodup_range
  intro a b ha hb hab he
  simp only [List.mem_range] at ha hb
  have := congrArg UInt64.toNat he
  rw [UInt64.toNat_ofNat_of_lt' (by simp [UInt64.size]; omega), UInt64.toNat_ofNat_of_lt' (by simp [UInt64.size]; omega)] at this
  exact hab this

/-- So they never repeat (within 2^64 of them). -/
theorem C44_unique {cfg : Cfg} {s : State} (h : Reachable cfg s) {i : Nat} (hi : i < s.nClients) :
    ((idsOf sequenceIdOf s.issued i).length ≤ 2 ^ 64 → (idsOf sequenceIdOf s.issued i).Nodup) ∧
    ((idsOf requestIdOf s.issued i).length ≤ 2 ^ 64 → (idsOf requestIdOf s.issued i).Nodup) := by
  refine ⟨fun hn => ?_, fun hn => ?_⟩
  · rw [(counts h i hi).1]; exact countUp_nodup hn
  · rw [(counts h i hi).2.2.1]; exact countUp_nodup hn

/-- Two producers interleaved, single messages and a batch, a lookup in between. (The hypotheses of C44_consecutive and C44_unique are met.)
-/
example : (go (boot ++ join 0 ++ join 1 ++ [.beginCall 0 (.sendMessage [1]), .beginCall 1 (.sendMessage [2]),
      .beginCall 0 (.lookupTopic "t"), .beginCall 0 (.sendBatch [[1], [2]]), .beginCall 0 (.sendMessage [3])])).map
    (fun s => (idsOf sequenceIdOf s.issued 0, idsOf sequenceIdOf s.issued 1, idsOf requestIdOf s.issued 0)) =
    some ([0, 1, 2], [0], [0]) := by rfl

/-! ## C68 -/

/-- At most one connection per address, each dialled exactly once. -/
theorem C68_one_connection {cfg : Cfg} {s : State} (h : Reachable cfg s) : s.dials = s.addrs ∧ s.addrs.Nodup :=
  ⟨(wf h).dials, (wf h).addrs⟩

/-- A connection is opened only when the engine starts, to the configured broker, or for a client's connect, to the address
that connect names, and only if there is none yet. -/
theorem C68_opened_only {cfg : Cfg} {s s' : State} {a : Act} (hs : step cfg s a = some s') :
    s'.addrs = s.addrs ∨
    ∃ b, b ∉ s.addrs ∧ s'.addrs = s.addrs ++ [b] ∧
      ((∃ net, a = .engStart net ∧ b = .direct (cfg.config.endpointUrl ++ ":" ++ toString cfg.config.endpointPort.toNat)) ∨
       ∃ i auth net cm q k, a = .engOut i auth net ∧ (s.clients i).queue = cm :: q ∧ cm.out = .connect k ∧
         connectAddress cfg k.brokerAddress = some b) := by
  cases step_cases hs with
  | startOk net hm s2 h2 =>
    rcases h2 with ⟨rfl, hb⟩ | ⟨hb, rfl⟩
    · exact .inl (by simp)
    · exact .inr ⟨_, hb, by simp [dialed], .inl ⟨net, rfl, rfl⟩⟩
  | out i auth net cm q s'' hm hv ha hq he =>
    have key : ∀ {c c2 : Connect} {b : BrokerAddress} {s3 : State}, cm.out = .connect c → connectFor cfg c auth = .ok c2 →
        c2.brokerAddress = some b → Prep cfg (takeCmd s i cm q) i c c2 b s3 →
        s3.addrs = s.addrs ∨ (b ∉ s.addrs ∧ s3.addrs = s.addrs ++ [b] ∧ connectAddress cfg c.brokerAddress = some b) := by
      intro c c2 b s3 hcc h2 hb hp
      have hba := connectFor_address h2
      rw [hb] at hba
      cases hp with
      | intro s2 hd hb2 =>
        have : ∀ x : State, (if b ≠ cfg.config.brokerAddress then moveClient x (x.clients i).core.clientId b else x).addrs = x.addrs := by
          intro x; split <;> simp
        rw [this]
        rcases hd with rfl | ⟨hnb, rfl⟩
        · exact .inl (by simp)
        · exact .inr ⟨by simpa using hnb, by simp [dialed], hba.symm⟩
    cases he with
    | failed => exact .inl (by simp)
    | sent => exact .inl (by simp)
    | lost c c2 b s3 hcc h2 hb hp =>
      rcases key hcc h2 hb hp with h1 | ⟨h1, h3, h4⟩
      · exact .inl (by simpa using h1)
      · exact .inr ⟨b, h1, by simpa using h3, .inr ⟨i, auth, net, cm, q, c, rfl, hq, hcc, h4⟩⟩
    | connecting c c2 b s3 j hcc h2 hb hp hj ha hl =>
      rcases key hcc h2 hb hp with h1 | ⟨h1, h3, h4⟩
      · exact .inl (by simpa using h1)
      · exact .inr ⟨b, h1, by simpa using h3, .inr ⟨i, auth, net, cm, q, c, rfl, hq, hcc, h4⟩⟩
  | inb b e q s'' hm ha hv hq he => cases he <;> exact .inl (by simp)
  | _ => exact .inl (by simp)

/-- Clients of one address share the connection: whatever the engine passes on for any client on address `b` is queued on the
one connection of `b`. -/
theorem C68_shared {cfg : Cfg} {s : State} (h : Reachable cfg s) (b : BrokerAddress) :
    (s.conns b).accepted = s.sent.filterMap (fun p => if p.1 = b then some p.2 else none) := (conn h).accepted b

/-- Three clients, two of them through the same proxied broker: two connections in all. (The hypotheses of C68_one_connection, C68_opened_only
and C68_shared are met.) -/
example : (go (boot ++ join 0 ++ join 1 ++ join 2 ++ ask 0 (.connectToProxy "pulsar://z:1") ++
      [.connCmd b1 .ok, .connRead b1 (.command connectedC none), .engConnectDone] ++ ask 1 (.connectToProxy "pulsar://z:1"))).map
    (fun s => (s.dials, (s.conns b1).accepted.length)) = some ([b0, b1], 2) := by rfl

end Neutron.Props
