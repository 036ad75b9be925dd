import Verif.Proof.SysConn

/-!
# Events: from the socket to the clients
-/

namespace Neutron.Sys

open Neutron

/-- The event as the engine hands it on. -/
def adjustEvent (b : BrokerAddress) (e : Event) : Event := { e with inb := adjust b e.inb }

/-- The events of connection `b` the engine has handled (other than answers to its own `Connect`s), in order. -/
def handledOf (l : List Dispatch) (b : BrokerAddress) : List Event :=
  l.filterMap fun d => if d.broker = b ∧ d.viaConnect = false then some d.event else none

/-- The events handed to client `i`, in order. -/
def deliveredTo (l : List Dispatch) (i : Nat) : List Event :=
  l.filterMap fun d => match d.dest with
    | .clients is => if i ∈ is then some d.event else none
    | _ => none

/-- The requests completed by events, in order. -/
def completedBy (l : List Dispatch) : List (Tok × Event) :=
  l.filterMap fun d => match d.dest with
    | .waiter t => some (t, d.event)
    | _ => none

/-- The successful outcomes, in order. -/
def successes (l : List (Tok × TokResult)) : List (Tok × Event) :=
  l.filterMap fun p => match p.2 with
    | .resolved e => some (p.1, e)
    | .cancelled => none

theorem successes_append (l l' : List (Tok × TokResult)) : successes (l ++ l') = successes l ++ successes l' :=
  List.filterMap_append

theorem successes_cancelled (o : List Tok) : successes (o.map fun t => (t, .cancelled)) = [] := by
  induction o with
  | nil => rfl
  | cons a o ih => simpa [successes] using ih

theorem completedBy_append (l l' : List Dispatch) : completedBy (l ++ l') = completedBy l ++ completedBy l' :=
  List.filterMap_append

theorem deliveredTo_append (l l' : List Dispatch) (i : Nat) : deliveredTo (l ++ l') i = deliveredTo l i ++ deliveredTo l' i :=
  List.filterMap_append

theorem handledOf_append (l l' : List Dispatch) (b : BrokerAddress) : handledOf (l ++ l') b = handledOf l b ++ handledOf l' b :=
  List.filterMap_append

/-- The recipients of an event: registered clients with the right id. -/
def RecOk (s : State) (d : Dispatch) : Prop :=
  match d.dest with
  | .pong => d.event.inb = .ping
  | .waiter _ => d.event.inb.tryKey.isSome
  | .clients is => d.event.inb ≠ .ping ∧ (∀ i, i ∈ is → i ∈ s.vec) ∧
      ∀ id, d.event.inb.tryConsumerOrProducerId = some id → ∀ i, i ∈ is → UInt64.ofNat i = id

/-- Where events went. -/
structure Evt (s : State) : Prop where
  conn : ∀ b, handledOf s.dispatches b = (s.conns b).dispatched.map (adjustEvent b)
  done : successes s.outcomes = completedBy s.dispatches
  recs : ∀ d, d ∈ s.dispatches → RecOk s d
  prefixed : ∀ i, i < s.nClients → (s.clients i).taken ++ (s.clients i).inbox <+: deliveredTo s.dispatches i
  exact : ∀ i, i < s.nClients → (s.clients i).phase ≠ .gone →
    (s.clients i).taken ++ (s.clients i).inbox = deliveredTo s.dispatches i

theorem Evt.init (cfg : Cfg) : Evt (init cfg) := by
  refine ⟨?_, ?_, ?_, ?_, ?_⟩ <;> simp [Sys.init, handledOf, freshConn, successes, completedBy]

theorem RecOk.mono {s s' : State} {d : Dispatch} (h : RecOk s d) (hv : ∀ i, i ∈ s.vec → i ∈ s'.vec) : RecOk s' d := by
  unfold RecOk at h ⊢
  cases hd : d.dest with
  | pong => simpa [hd] using h
  | waiter t => simpa [hd] using h
  | clients is =>
    simp only [hd] at h ⊢
    exact ⟨h.1, fun i hi => hv i (h.2.1 i hi), h.2.2⟩

theorem Evt.congr {s s' : State} (h : Evt s) (hd : s'.dispatches = s.dispatches)
    (hc : ∀ b, (s'.conns b).dispatched = (s.conns b).dispatched)
    (ho : successes s'.outcomes = successes s.outcomes) (hv : ∀ i, i ∈ s.vec → i ∈ s'.vec) (hn : s'.nClients = s.nClients)
    (hi : ∀ k, k < s.nClients → (s'.clients k).taken ++ (s'.clients k).inbox = (s.clients k).taken ++ (s.clients k).inbox)
    (hp : ∀ k, k < s.nClients → (s'.clients k).phase ≠ .gone → (s.clients k).phase ≠ .gone) : Evt s' := by
  refine ⟨?_, ?_, ?_, ?_, ?_⟩
  · intro b; rw [hd, hc]; exact h.conn b
  · rw [ho, hd]; exact h.done
  · intro d hm; rw [hd] at hm; exact (h.recs d hm).mono hv
  · intro i hlt; rw [hn] at hlt; rw [hi i hlt, hd]; exact h.prefixed i hlt
  · intro i hlt hg; rw [hn] at hlt; rw [hi i hlt, hd]; exact h.exact i hlt (hp i hlt hg)

theorem Evt.stop {s : State} (h : Evt s) : Evt (stop s) := by
  refine h.congr rfl (fun _ => rfl) ?_ (fun _ hi => hi) rfl (fun _ _ => rfl) (fun _ _ hp => hp)
  rw [stop_outcomes, successes_append]
  have : (s.resolver.map fun p => (p.2, TokResult.cancelled)) = (s.resolver.map (·.2)).map fun t => (t, .cancelled) := by
    rw [List.map_map]; rfl
  rw [this, successes_cancelled, List.append_nil]

/-- What `managerSend` needs from before, as the event may already be counted as taken from its connection. -/
theorem Evt.managerSend {s s0 : State} (h : Evt s0) (hw : WF s) (e : Event) (b : BrokerAddress) (v : Bool)
    (hping : e.inb ≠ .ping)
    (hd : s.dispatches = s0.dispatches) (ho : s.outcomes = s0.outcomes) (hv : s.vec = s0.vec) (hn : s.nClients = s0.nClients)
    (hcl : s.clients = s0.clients)
    (hc : ∀ x, (s.conns x).dispatched.map (adjustEvent x) = (s0.conns x).dispatched.map (adjustEvent x) ++
      if x = b ∧ v = false then [e] else []) : Evt (managerSend s e b v) := by
  obtain ⟨dest, hdd⟩ := managerSend_dispatches s e b v
  have hconn : ∀ x, handledOf (Sys.managerSend s e b v).dispatches x =
      ((Sys.managerSend s e b v).conns x).dispatched.map (adjustEvent x) := by
    intro x
    rw [hdd, handledOf_append, managerSend_conns, hc x, hd, h.conn x]
    congr 1
    by_cases hx : x = b ∧ v = false
    · simp [handledOf, hx.1, hx.2]
    · rw [if_neg hx]
      have : ¬ (b = x ∧ v = false) := fun hh => hx ⟨hh.1.symm, hh.2⟩
      simp [handledOf, this]
  have hrec : ∀ d, d ∈ s.dispatches → RecOk (Sys.managerSend s e b v) d := by
    intro d hm; rw [hd] at hm
    exact (h.recs d hm).mono (by simp [hv])
  revert hconn hrec
  unfold Sys.managerSend
  split
  · rename_i t r hr
    intro hconn hrec
    obtain ⟨k, hk, hf, rfl⟩ := tryResolve_some hr
    refine ⟨hconn, ?_, ?_, ?_, ?_⟩
    · simp only [successes_append, completedBy_append, ho, hd, h.done]; rfl
    · intro d hm
      simp only [List.mem_append, List.mem_singleton] at hm
      rcases hm with hm | rfl
      · exact hrec d hm
      · simp [RecOk, hk]
    · intro i hi
      simp only [hn] at hi
      simp only [hcl, deliveredTo_append, hd]
      exact (h.prefixed i hi).trans (List.prefix_append ..)
    · intro i hi hg
      simp only [hn] at hi
      simp only [hcl] at hg
      simp only [hcl, deliveredTo_append, hd, h.exact i hi hg]
      simp [deliveredTo]
  · intro hconn hrec
    refine ⟨hconn, ?_, ?_, ?_, ?_⟩
    · simp only [completedBy_append, ho, hd, h.done]; simp [completedBy]
    · intro d hm
      simp only [List.mem_append, List.mem_singleton] at hm
      rcases hm with hm | rfl
      · exact hrec d hm
      · refine ⟨hping, ?_, ?_⟩
        · intro i hi
          simp only [recipients, List.mem_filter] at hi; exact hi.1
        · intro id hid i hi
          simp only at hid
          simp only [recipients, List.mem_filter, hid, Bool.and_eq_true, decide_eq_true_eq] at hi
          rw [← hw.ids i (hw.vecLt i hi.1)]; exact hi.2.2
    · intro i hi
      simp only [hn] at hi
      have hp := h.prefixed i hi
      have hx := h.exact i hi
      rw [← hcl] at hp hx
      simp only [deliveredTo_append, hd]
      by_cases hg : (s.clients i).phase = .gone
      · have : ¬ (i ∈ recipients s e b ∧ (s.clients i).phase ≠ .gone) := fun hh => hh.2 hg
        simp only [if_neg this]
        exact hp.trans (List.prefix_append ..)
      · by_cases hi : i ∈ recipients s e b
        · rw [if_pos ⟨hi, hg⟩]
          simp only [← List.append_assoc, hx hg]
          simp [deliveredTo, hi]
        · have : ¬ (i ∈ recipients s e b ∧ (s.clients i).phase ≠ .gone) := fun hh => hi hh.1
          simp only [if_neg this]
          exact hp.trans (List.prefix_append ..)
    · intro i hi hg
      simp only [hn] at hi
      have hx := h.exact i hi
      rw [← hcl] at hx
      have hg' : (s.clients i).phase ≠ .gone := by
        intro hh; apply hg; simp only; split <;> exact hh
      simp only [deliveredTo_append, hd]
      by_cases hi : i ∈ recipients s e b
      · rw [if_pos ⟨hi, hg'⟩]
        simp only [← List.append_assoc, hx hg']
        simp [deliveredTo, hi]
      · have : ¬ (i ∈ recipients s e b ∧ (s.clients i).phase ≠ .gone) := fun hh => hi hh.1
        simp only [if_neg this, hx hg']
        simp [deliveredTo, hi]

theorem adjust_ne_ping {b : BrokerAddress} {i : Inbound} (h : i ≠ .ping) : adjust b i ≠ .ping := by
  cases i <;> simp_all [adjust]

theorem successes_takeCmd (s : State) (i : Nat) (cmd : ClientCmd) (q : List ClientCmd) :
    successes (takeCmd s i cmd q).outcomes = successes s.outcomes := by
  rw [takeCmd_outcomes, successes_append]
  cases cmd.tok with
  | none => simp [successes]
  | some t => simp only [successes_cancelled, List.append_nil]

theorem Prep.dispatched {cfg : Cfg} {s s3 : State} {i : Nat} {c c2 : Connect} {b : BrokerAddress}
    (hp : Prep cfg s i c c2 b s3) (h : Conn s) (x : BrokerAddress) : (s3.conns x).dispatched = (s.conns x).dispatched := by
  rw [hp.conns h]

theorem Evt.step {cfg : Cfg} {s s' : State} {a : Act} (hw : WF s) (hcn : Conn s) (hrp : Rep s) (h : Evt s)
    (hs : step cfg s a = some s') : Evt s' := by
  have hst := step_cases hs
  clear hs
  cases hst with
  | startOk net hm s2 h2 =>
    rcases h2 with ⟨rfl, hb⟩ | ⟨hb, rfl⟩
    · apply h.congr <;> simp
    · refine h.congr rfl (fun x => ?_) rfl (fun _ hi => hi) rfl (fun _ _ => rfl) (fun _ _ hp => hp)
      show ((dialed s _).conns x).dispatched = _
      rw [dialed_conns_eq hcn hb]
  | startFail | outGone | inLost | regClosedStop | noConn | connectLost => exact h.stop
  | out i auth net cmd q s' hm hv ha hq he =>
    have hc1 : Conn (takeCmd s i cmd q) := by apply hcn.congr <;> simp
    have h1 : Evt (takeCmd s i cmd q) := by
      apply h.congr <;> simp [successes_takeCmd]
    cases he with
    | failed => exact h1.stop
    | lost c c2 b s3 hcc h2 hb hp =>
      apply Evt.stop
      exact h1.congr hp.dispatches (hp.dispatched hc1) (by rw [hp.outcomes]) (by rw [hp.vec]; exact fun _ h => h) hp.nClients
        (fun k _ => by rw [hp.clients_taken, hp.clients_inbox]) (fun k _ => by rw [hp.clients_phase]; exact fun h => h)
    | sent j hn hj ha hl => apply h1.congr <;> simp
    | connecting c c2 b s3 j hcc h2 hb hp hj ha hl =>
      have h3 := h1.congr hp.dispatches (hp.dispatched hc1) (by rw [hp.outcomes]) (by rw [hp.vec]; exact fun _ h => h) hp.nClients
        (fun k _ => by rw [hp.clients_taken, hp.clients_inbox]) (fun k _ => by rw [hp.clients_phase]; exact fun h => h)
      apply h3.congr <;> simp
  | inb b e q s' hm ha hv hq he =>
    have hw1 : WF (takeEvent s b e q) := by apply hw.congr <;> simp
    have hdisp : ∀ x, ((takeEvent s b e q).conns x).dispatched.map (adjustEvent x) =
        (s.conns x).dispatched.map (adjustEvent x) ++ if x = b then [adjustEvent b e] else [] := by
      intro x
      simp only [takeEvent, setConn_conns]
      by_cases hx : x = b
      · subst hx; simp
      · simp [hx]
    have hpong : e.inb = .ping → Evt { takeEvent s b e q with dispatches := (takeEvent s b e q).dispatches ++ [⟨b, e, false, .pong⟩] } := by
      intro hping
      have hadj : adjustEvent b e = e := by simp [adjustEvent, hping, adjust]; rw [← hping]
      refine ⟨?_, ?_, ?_, ?_, ?_⟩
      · intro x
        simp only [takeEvent_dispatches, handledOf_append, h.conn x]
        rw [hdisp x, hadj]
        congr 1
        by_cases hx : x = b
        · simp [handledOf, hx]
        · simp [handledOf, hx, Ne.symm hx]
      · simp only [takeEvent_outcomes, takeEvent_dispatches, completedBy_append, h.done]; simp [completedBy]
      · intro d hd
        simp only [takeEvent_dispatches, List.mem_append, List.mem_singleton] at hd
        rcases hd with hd | rfl
        · exact (h.recs d hd).mono (by simp)
        · exact hping
      · intro k hk
        simp only [takeEvent_dispatches, takeEvent_clients, deliveredTo_append]
        exact (h.prefixed k hk).trans (List.prefix_append ..)
      · intro k hk hg
        simp only [takeEvent_dispatches, takeEvent_clients, deliveredTo_append]
        rw [h.exact k hk hg]; simp [deliveredTo]
    cases he with
    | pingFailed hping => exact (hpong hping).stop
    | ping hping _ _ => apply (hpong hping).congr <;> simp
    | other hne =>
      refine Evt.managerSend h hw1 _ b false (adjust_ne_ping hne) rfl rfl rfl rfl rfl ?_
      intro x
      rw [hdisp x]
      by_cases hx : x = b <;> simp [hx, adjustEvent]
  | connectOk r b x e hm hf =>
    have hw1 : WF { s with mode := .idle } := by apply hw.congr <;> simp
    have hcon : e.inb = .connected := by
      obtain ⟨b', c', h2, h3, h4⟩ := hrp.done x e (List.mem_of_find?_eq_some hf)
      exact hrp.connected _ _ h4
    exact Evt.managerSend h hw1 e b true (by simp [hcon]) rfl rfl rfl rfl rfl (by simp)
  | reg i q hm hc hq hl =>
    apply h.congr <;> first | rfl | (simp; done) | (simp only [List.mem_append]; exact fun i hi => .inl hi) |
      (intro k _; simp only [setClient_clients]; split <;> simp_all)
  | regFail i q hm hc hq hl =>
    apply Evt.stop
    apply h.congr <;> first | rfl | (simp; done) | (simp only [List.mem_append]; exact fun i hi => .inl hi) |
      (intro k _; simp only [setClient_clients]; split <;> simp_all)
  | regClosed hm hq hl hv ha => exact h
  | cmdEnd b w hl ha hq hm => apply h.congr <;> simp
  | cmdOk b c q hl ha hq =>
    apply h.congr <;> first | (simp; done) | (intro x; simp only [setConn_conns]; split <;> simp_all)
  | cmdFail b c q hl ha hq => apply h.congr <;> simp
  | cmdPanic b c q hl ha hq => apply h.congr <;> simp
  | readEnd b x hl ha hx => apply h.congr <;> simp
  | readSkip b x hl ha hx => exact h
  | readConnected b v t inb r res hl ha hv hr =>
    apply h.congr <;> first | (simp; done) | (intro x; simp only [setConn_conns]; split <;> simp_all)
  | readForward b v t inb hl ha hv hr hm =>
    apply h.congr <;> first | (simp; done) | (intro x; simp only [setConn_conns]; split <;> simp_all)
  | newClient name hl =>
    have hnone : deliveredTo s.dispatches s.nClients = [] := by
      unfold deliveredTo
      rw [List.filterMap_eq_nil_iff]
      intro d hd
      have := h.recs d hd
      unfold RecOk at this
      cases hdd : d.dest with
      | pong => rfl
      | waiter t => rfl
      | clients is =>
        simp only [hdd] at this ⊢
        rw [if_neg]
        intro hin
        have := hw.vecLt _ (this.2.1 _ hin)
        omega
    refine ⟨h.conn, h.done, fun d hd => (h.recs d hd).mono (by simp), ?_, ?_⟩
    · intro k hk
      simp only [setClient_clients, setClient_dispatches]
      split
      · simp
      · simp only at hk; exact h.prefixed k (by omega)
    · intro k hk
      simp only [setClient_clients, setClient_dispatches]
      split
      · rename_i hkn; subst hkn; intro _; simp [hnone]
      · simp only at hk; exact h.exact k (by omega)
  | sendRegFail i hl hi hp hm | sendReg i hl hi hp hm | recvReply i hl hi hp hr | recvReplyFail i hl hi hp hr hm
  | cancelReg i hi hp | clientNext i e q hi hp hq | dropClient i hi hp hst | request i call hi hp hr | oneway i call hi hp hr
  | submit i k cmd hi hk he =>
    apply h.congr <;> first | rfl | (simp; done) | (intro k _; simp only [setClient_clients]; split <;> simp_all)
  | refuse i k cmd hi hk he =>
    apply h.congr <;> first | rfl | (simp [successes_append, successes_cancelled]; done) |
      (intro k _; simp only [setClient_clients]; split <;> simp_all)
  | freeQueue i hi hp he =>
    apply h.congr <;> first | rfl | (simp only [successes_append, successes_cancelled]; simp; done) | (simp; done) |
      (intro k _; simp only [setClient_clients]; split <;> simp_all)
  | dropManager hl _ => apply h.congr <;> simp

theorem evt {cfg : Cfg} {s : State} (h : Reachable cfg s) : Evt s :=
  h.induct (Evt.init cfg) fun _ _ _ hr hp hs => Evt.step (wf hr) (conn hr) (rep hr) hp hs

end Neutron.Sys
