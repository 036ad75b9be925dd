import Verif.Proof.WorldCalls
import Verif.Spec.Alike

/-!
# Events that are no messages make no difference in a client's channel
-/

namespace Neutron.Sys

open Neutron App

/-- A client without the events that are no messages. -/
def scrubClient (c : ClientSt) : ClientSt := { c with inbox := messageEvents c.inbox, taken := messageEvents c.taken }

/-- A connection without the record of what the engine took. -/
def scrubConn (c : ConnSt) : ConnSt := { c with dispatched := [] }

/-- The instance without what nobody looks at. -/
def scrub (s : State) : State :=
  { s with clients := fun i => scrubClient (s.clients i), conns := fun b => scrubConn (s.conns b), dispatches := [] }

@[simp] theorem scrub_mode (s : State) : (scrub s).mode = s.mode := rfl
@[simp] theorem scrub_managerAlive (s : State) : (scrub s).managerAlive = s.managerAlive := rfl
@[simp] theorem scrub_nClients (s : State) : (scrub s).nClients = s.nClients := rfl
@[simp] theorem scrub_clients (s : State) (i : Nat) : (scrub s).clients i = scrubClient (s.clients i) := rfl
@[simp] theorem scrub_regQueue (s : State) : (scrub s).regQueue = s.regQueue := rfl
@[simp] theorem scrub_replies (s : State) : (scrub s).replies = s.replies := rfl
@[simp] theorem scrub_vec (s : State) : (scrub s).vec = s.vec := rfl
@[simp] theorem scrub_addrs (s : State) : (scrub s).addrs = s.addrs := rfl
@[simp] theorem scrub_conns (s : State) (b : BrokerAddress) : (scrub s).conns b = scrubConn (s.conns b) := rfl
@[simp] theorem scrub_resolver (s : State) : (scrub s).resolver = s.resolver := rfl
@[simp] theorem scrub_nextReply (s : State) : (scrub s).nextReply = s.nextReply := rfl
@[simp] theorem scrub_replyDone (s : State) : (scrub s).replyDone = s.replyDone := rfl
@[simp] theorem scrub_issued (s : State) : (scrub s).issued = s.issued := rfl
@[simp] theorem scrub_outcomes (s : State) : (scrub s).outcomes = s.outcomes := rfl
@[simp] theorem scrub_refused (s : State) : (scrub s).refused = s.refused := rfl
@[simp] theorem scrub_dials (s : State) : (scrub s).dials = s.dials := rfl
@[simp] theorem scrub_dispatches (s : State) : (scrub s).dispatches = [] := rfl
@[simp] theorem scrub_sent (s : State) : (scrub s).sent = s.sent := rfl

@[simp] theorem sc_core (c : ClientSt) : (scrubClient c).core = c.core := rfl
@[simp] theorem sc_phase (c : ClientSt) : (scrubClient c).phase = c.phase := rfl
@[simp] theorem sc_broker (c : ClientSt) : (scrubClient c).broker = c.broker := rfl
@[simp] theorem sc_starting (c : ClientSt) : (scrubClient c).starting = c.starting := rfl
@[simp] theorem sc_queue (c : ClientSt) : (scrubClient c).queue = c.queue := rfl
@[simp] theorem sc_inbox (c : ClientSt) : (scrubClient c).inbox = messageEvents c.inbox := rfl
@[simp] theorem sc_submitted (c : ClientSt) : (scrubClient c).submitted = c.submitted := rfl
@[simp] theorem sc_handled (c : ClientSt) : (scrubClient c).handled = c.handled := rfl
@[simp] theorem sc_taken (c : ClientSt) : (scrubClient c).taken = messageEvents c.taken := rfl
@[simp] theorem sn_alive (c : ConnSt) : (scrubConn c).alive = c.alive := rfl
@[simp] theorem sn_queue (c : ConnSt) : (scrubConn c).queue = c.queue := rfl
@[simp] theorem sn_resolver (c : ConnSt) : (scrubConn c).resolver = c.resolver := rfl
@[simp] theorem sn_outbox (c : ConnSt) : (scrubConn c).outbox = c.outbox := rfl
@[simp] theorem sn_accepted (c : ConnSt) : (scrubConn c).accepted = c.accepted := rfl
@[simp] theorem sn_processed (c : ConnSt) : (scrubConn c).processed = c.processed := rfl
@[simp] theorem sn_written (c : ConnSt) : (scrubConn c).written = c.written := rfl
@[simp] theorem sn_reads (c : ConnSt) : (scrubConn c).reads = c.reads := rfl
@[simp] theorem sn_connected (c : ConnSt) : (scrubConn c).connected = c.connected := rfl

@[simp] theorem messageEvents_idem (es : List Event) : messageEvents (messageEvents es) = messageEvents es := by
  simp [messageEvents]

theorem messageEvents_append (es fs : List Event) : messageEvents (es ++ fs) = messageEvents es ++ messageEvents fs := by
  simp [messageEvents]

@[simp] theorem scrubClient_idem (c : ClientSt) : scrubClient (scrubClient c) = scrubClient c := by
  simp [scrubClient]

@[simp] theorem scrubConn_idem (c : ConnSt) : scrubConn (scrubConn c) = scrubConn c := rfl

@[simp] theorem scrub_idem (s : State) : scrub (scrub s) = scrub s := by
  simp [scrub]

@[simp] theorem scrub_engineEnd (s : State) (i : Nat) : engineEnd (scrub s) i = engineEnd s i := rfl

/-- Two instances that differ only in what nobody looks at. -/
def Like (s u : State) : Prop := scrub s = scrub u

/-- Doing it on the scrubbed instance is doing it and scrubbing. -/
def Commutes (f : State → Option State) : Prop := ∀ s, (f s).map scrub = (f (scrub s)).map scrub

/-- The same for what cannot fail. -/
def Commutes1 (f : State → State) : Prop := ∀ s, scrub (f s) = scrub (f (scrub s))

theorem scrub_setClient (s : State) (i : Nat) (c : ClientSt) : scrub (s.setClient i c) = (scrub s).setClient i (scrubClient c) := by
  simp only [scrub, State.setClient, State.mk.injEq, true_and, and_true]
  exact funext fun j => by split <;> rfl

theorem scrub_setConn (s : State) (b : BrokerAddress) (c : ConnSt) : scrub (s.setConn b c) = (scrub s).setConn b (scrubConn c) := by
  simp only [scrub, State.setConn, State.mk.injEq, true_and, and_true]
  exact funext fun j => by split <;> rfl


theorem scrub_stop (s : State) : scrub (stop s) = stop (scrub s) := rfl

theorem map_ite {c : Prop} [Decidable c] {α β : Type} (f : α → β) (a b : Option α) :
    (if c then a else b).map f = if c then a.map f else b.map f := by split <;> rfl

/-- Equal but for what nobody looks at. -/
macro "scr" : tactic => `(tactic| (
  try simp only [Option.map_some, Option.some.injEq]
  simp [scrub, State.setClient, State.setConn, stop]
  try (funext j; (repeat' split) <;> simp_all [scrubClient, scrubConn, messageEvents_append])))

theorem commutes_engRegClosed : Commutes engRegClosed := by
  intro s
  unfold engRegClosed
  simp only [map_ite]
  refine if_congr Iff.rfl (if_congr Iff.rfl (by scr) (if_congr Iff.rfl (by scr) rfl)) rfl

theorem commutes_engNoConn : Commutes engNoConn := by
  intro s
  unfold engNoConn
  simp only [map_ite]
  refine if_congr Iff.rfl (by scr) rfl

theorem commutes_engReg (cfg : Cfg) : Commutes (engReg cfg) := by
  intro s
  unfold engReg
  simp only [map_ite]
  refine if_congr Iff.rfl ?_ rfl
  rw [scrub_regQueue]
  cases s.regQueue with
  | nil => rfl
  | cons i q =>
    simp only [map_ite]
    refine if_congr Iff.rfl (by scr) (by scr)

theorem commutes_newClient (cfg : Cfg) (name : String) : Commutes (newClient cfg · name) := by
  intro s
  simp only [newClient, map_ite]
  refine if_congr Iff.rfl (by scr) rfl

theorem commutes_sendReg (i : Nat) : Commutes (sendReg · i) := by
  intro s
  simp only [sendReg, map_ite]
  refine if_congr Iff.rfl (if_congr Iff.rfl (by scr) (by scr)) rfl

theorem commutes_recvReply (i : Nat) : Commutes (recvReply · i) := by
  intro s
  simp only [recvReply, map_ite]
  refine if_congr Iff.rfl (if_congr Iff.rfl (by scr) (if_congr Iff.rfl (by scr) rfl)) rfl

theorem commutes_cancelReg (i : Nat) : Commutes (cancelReg · i) := by
  intro s
  simp only [cancelReg, map_ite]
  refine if_congr Iff.rfl (by scr) rfl

theorem commutes_beginCall (i : Nat) (call : Call) : Commutes (beginCall · i call) := by
  intro s
  simp only [beginCall, map_ite]
  refine if_congr Iff.rfl (if_congr Iff.rfl (by scr) (by scr)) rfl

theorem commutes_submit (i k : Nat) : Commutes (submit · i k) := by
  intro s
  simp only [submit, map_ite]
  refine if_congr Iff.rfl ?_ rfl
  rw [scrub_clients, sc_starting]
  cases (s.clients i).starting[k]? with
  | none => rfl
  | some cmd =>
    simp only [map_ite]
    refine if_congr Iff.rfl (by scr) (by scr)

theorem commutes_dropClient (i : Nat) : Commutes (dropClient · i) := by
  intro s
  simp only [dropClient, map_ite]
  refine if_congr Iff.rfl (by scr) rfl

theorem commutes_freeQueue (i : Nat) : Commutes (freeQueue · i) := by
  intro s
  simp only [freeQueue, map_ite]
  refine if_congr Iff.rfl (by scr) rfl

theorem commutes_dropManager : Commutes dropManager := by
  intro s
  simp only [dropManager, map_ite]
  refine if_congr Iff.rfl (by scr) rfl

/-! ## The engine's handlers -/

/-- The pair without what nobody looks at. -/
def scrub2 (r : State × Outcome Unit) : State × Outcome Unit := (scrub r.1, r.2)

theorem scrub_finish (r : State × Outcome Unit) : scrub (finish r) = scrub (finish (scrub2 r)) := by
  obtain ⟨s, o⟩ := r
  cases o <;> simp [finish, scrub2, scrub_stop]

theorem finish_congr {r r' : State × Outcome Unit} (h : scrub2 r = scrub2 r') : scrub (finish r) = scrub (finish r') := by
  rw [scrub_finish, h, ← scrub_finish]

theorem scrub2_ite {c : Prop} [Decidable c] (a b : State × Outcome Unit) :
    scrub2 (if c then a else b) = if c then scrub2 a else scrub2 b := by split <;> rfl

/-- Handling in an instance that differs only in what nobody looks at. -/
def Commutes2 (f : State → State × Outcome Unit) : Prop := ∀ s u, Like s u → scrub2 (f s) = scrub2 (f u)

theorem Like.trans {a b c : State} (h : Like a b) (h' : Like b c) : Like a c := Eq.trans h h'
theorem Like.symm {a b : State} (h : Like a b) : Like b a := Eq.symm h
theorem like_scrub (s : State) : Like s (scrub s) := (scrub_idem s).symm

theorem commutes2 {f : State → State × Outcome Unit} (h : ∀ s, scrub2 (f s) = scrub2 (f (scrub s))) : Commutes2 f := by
  intro s u hl
  rw [h s, h u, show scrub s = scrub u from hl]

theorem commutes2_pushConn (b : BrokerAddress) (c : ConnCmd) : Commutes2 (pushConn · b c) := by
  refine commutes2 fun s => ?_
  simp only [pushConn, scrub2_ite]
  refine if_congr Iff.rfl ?_ (if_congr Iff.rfl ?_ ?_) <;> simp only [scrub2, Prod.mk.injEq, and_true] <;> scr

theorem commutes2_sendToConnection (b : BrokerAddress) (out : Outbound) (o : Nat × ClientCmd) : Commutes2 (sendToConnection · b out o) := by
  refine commutes2 fun s => ?_
  cases out with
  | connect c =>
    simp only [sendToConnection, scrub_nextReply]
    have h := commutes2_pushConn b ⟨.connect c, some s.nextReply, some o⟩ s (scrub s) (like_scrub s)
    dsimp only at h
    revert h
    generalize pushConn s b ⟨.connect c, some s.nextReply, some o⟩ = r
    generalize pushConn (scrub s) b ⟨.connect c, some s.nextReply, some o⟩ = r'
    obtain ⟨x, ox⟩ := r
    obtain ⟨y, oy⟩ := r'
    intro h
    simp only [scrub2, Prod.mk.injEq] at h
    obtain ⟨h1, rfl⟩ := h
    cases ox with
    | ok _ =>
      simp only [scrub2, Prod.mk.injEq, and_true]
      simp only [scrub, State.mk.injEq] at h1 ⊢
      simp_all
    | err _ => simpa [scrub2] using h1
    | panic => simpa [scrub2] using h1
  | _ => exact commutes2_pushConn b _ s (scrub s) (like_scrub s)

theorem commutes2_newConnection (net : Net) (b : BrokerAddress) : Commutes2 (newConnection · net b) := by
  refine commutes2 fun s => ?_
  simp only [newConnection, scrub2_ite]
  refine if_congr Iff.rfl ?_ ?_
  · simp [scrub2]
  · cases openConnection net b with
    | ok _ => simp only [scrub2, Prod.mk.injEq, and_true]; scr
    | err _ => simp [scrub2]
    | panic => simp [scrub2]

theorem scrub_upd {P Q : Nat → Prop} [DecidablePred P] [DecidablePred Q] (hPQ : ∀ i, P i ↔ Q i) {f g c : Nat → ClientSt}
    (hf : ∀ i, scrubClient (f i) = scrubClient (g i)) :
    (fun i => scrubClient (if P i then f i else c i)) = fun i => scrubClient (if Q i then g i else scrubClient (c i)) := by
  funext i
  by_cases hp : P i
  · rw [if_pos hp, if_pos ((hPQ i).mp hp)]; exact hf i
  · rw [if_neg hp, if_neg (fun h => hp ((hPQ i).mpr h))]; simp

theorem like_moveClient (id : UInt64) (b : BrokerAddress) {s u : State} (h : Like s u) : Like (moveClient s id b) (moveClient u id b) := by
  have key : ∀ s, scrub (moveClient s id b) = scrub (moveClient (scrub s) id b) := by
    intro s
    simp only [moveClient, scrub, State.mk.injEq, true_and, and_true]
    exact ⟨scrub_upd (fun _ => Iff.rfl) (fun _ => by simp [scrubClient]), funext fun b => rfl⟩
  unfold Like
  rw [key s, key u, show scrub s = scrub u from h]

theorem Like.clients {s u : State} (h : Like s u) (i : Nat) : scrubClient (s.clients i) = scrubClient (u.clients i) :=
  congrFun (congrArg State.clients h) i

theorem Like.core {s u : State} (h : Like s u) (i : Nat) : (s.clients i).core = (u.clients i).core :=
  have := congrArg ClientSt.core (h.clients i); this

theorem Like.broker {s u : State} (h : Like s u) (i : Nat) : (s.clients i).broker = (u.clients i).broker :=
  have := congrArg ClientSt.broker (h.clients i); this

theorem Like.vec {s u : State} (h : Like s u) : s.vec = u.vec :=
  have := congrArg State.vec (show scrub s = scrub u from h); this

theorem commutes2_forward (i : Nat) (cmd : ClientCmd) (out : Outbound) : Commutes2 (forward · i cmd out) := by
  intro s u h
  simp only [forward, h.core, h.vec]
  cases u.vec.find? fun j => decide ((u.clients j).core.clientId = (u.clients i).core.clientId) with
  | none => exact Prod.ext h rfl
  | some j =>
    simp only [h.broker]
    exact commutes2_sendToConnection _ _ _ s u h

theorem commutes2_handleOutbound (cfg : Cfg) (i : Nat) (cmd : ClientCmd) (auth : Outcome Bytes) (net : Net) :
    Commutes2 (handleOutbound cfg · i cmd auth net) := by
  intro s u h
  obtain ⟨out, tok⟩ := cmd
  cases out with
  | connect c =>
    simp only [handleOutbound]
    cases connectFor cfg c auth with
    | err _ => exact Prod.ext h rfl
    | panic => exact Prod.ext h rfl
    | ok c2 =>
      simp only []
      cases c2.brokerAddress with
      | none => exact Prod.ext h rfl
      | some b =>
        simp only []
        have hn := commutes2_newConnection net b s u h
        dsimp only at hn
        revert hn
        generalize newConnection s net b = r
        generalize newConnection u net b = r'
        obtain ⟨x, ox⟩ := r
        obtain ⟨y, oy⟩ := r'
        intro hn
        simp only [scrub2, Prod.mk.injEq] at hn
        obtain ⟨h1, rfl⟩ := hn
        have h1 : Like x y := h1
        cases ox with
        | ok _ =>
          simp only []
          refine commutes2_forward _ _ _ _ _ ?_
          split
          · rw [h1.core]; exact like_moveClient _ _ h1
          · exact h1
        | err _ => exact Prod.ext h1 rfl
        | panic => exact Prod.ext h1 rfl
  | _ => exact commutes2_forward _ _ _ _ _ h

theorem commutes_managerSend (e : Event) (b : BrokerAddress) (v : Bool) (s : State) :
    scrub (managerSend s e b v) = scrub (managerSend (scrub s) e b v) := by
  unfold managerSend
  rw [scrub_resolver]
  cases s.resolver.tryResolve e.inb with
  | some p => scr
  | none =>
    simp only []
    have hr : recipients (scrub s) e b = recipients s e b := rfl
    rw [hr]
    simp only [scrub, State.mk.injEq, true_and, and_true]
    exact ⟨scrub_upd (fun _ => Iff.rfl) (fun _ => by simp [scrubClient, messageEvents_append]), funext fun b => rfl⟩

theorem like_managerSend (e : Event) (b : BrokerAddress) (v : Bool) {s u : State} (h : Like s u) :
    Like (managerSend s e b v) (managerSend u e b v) := by
  unfold Like
  rw [commutes_managerSend, commutes_managerSend e b v u, show scrub s = scrub u from h]

/-! ## All actions but taking an event -/

theorem commutes_of_like {f : State → Option State} (h : Commutes f) {s u : State} (hl : Like s u) {s' : State} (hs : f s = some s') :
    ∃ u', f u = some u' ∧ Like s' u' := by
  have h1 := h s
  rw [show scrub s = scrub u from hl, ← h u, hs] at h1
  cases hu : f u with
  | none => rw [hu] at h1; cases h1
  | some u' =>
    rw [hu] at h1
    exact ⟨u', rfl, Option.some.inj h1⟩

theorem commutes_engStart (cfg : Cfg) (net : Net) : Commutes (engStart cfg · net) := by
  intro s
  simp only [engStart, scrub_mode]
  cases s.mode with
  | starting =>
    simp only []
    have hn := commutes2_newConnection net cfg.config.brokerAddress s (scrub s) (like_scrub s)
    dsimp only at hn
    revert hn
    generalize newConnection s net cfg.config.brokerAddress = r
    generalize newConnection (scrub s) net cfg.config.brokerAddress = r'
    obtain ⟨x, ox⟩ := r
    obtain ⟨y, oy⟩ := r'
    intro hn
    simp only [scrub2, Prod.mk.injEq] at hn
    obtain ⟨h1, rfl⟩ := hn
    cases ox with
    | ok _ =>
      simp only [Option.map_some, Option.some.injEq]
      simp only [scrub, State.mk.injEq] at h1 ⊢
      simp_all
    | err _ => simp only [Option.map_some, Option.some.injEq, scrub_stop, h1]
    | panic => simp only [Option.map_some, Option.some.injEq, scrub_stop, h1]
  | _ => rfl

theorem commutes_takeCmd (i : Nat) (cmd : ClientCmd) (q : List ClientCmd) (s : State) : Like (takeCmd s i cmd q) (takeCmd (scrub s) i cmd q) := by
  unfold Like takeCmd
  cases cmd.tok with
  | none => simp only []; scr
  | some t => simp only []; scr

theorem commutes_engOut (cfg : Cfg) (i : Nat) (auth : Outcome Bytes) (net : Net) : Commutes (engOut cfg · i auth net) := by
  intro s
  simp only [engOut, map_ite]
  refine if_congr Iff.rfl ?_ rfl
  rw [scrub_clients, sc_queue]
  cases (s.clients i).queue with
  | nil =>
    simp only [map_ite]
    exact if_congr Iff.rfl (by simp [scrub_stop]) rfl
  | cons cmd q =>
    simp only [Option.map_some, Option.some.injEq]
    exact finish_congr (commutes2_handleOutbound cfg i cmd auth net _ _ (commutes_takeCmd i cmd q s))

theorem commutes_takeEvent (b : BrokerAddress) (e : Event) (q : List Event) (s : State) : Like (takeEvent s b e q) (takeEvent (scrub s) b e q) := by
  unfold Like takeEvent
  scr

theorem commutes2_handleInbound (b : BrokerAddress) (e : Event) : Commutes2 (handleInbound · b e) := by
  intro s u h
  obtain ⟨i, a⟩ := e
  cases i with
  | ping => exact commutes2_pushConn _ _ _ _ (by unfold Like at h ⊢; simp only [scrub, State.mk.injEq] at h ⊢; simp_all)
  | _ => exact Prod.ext (like_managerSend _ _ _ h) rfl

theorem commutes_engIn (b : BrokerAddress) : Commutes (engIn · b) := by
  intro s
  simp only [engIn, map_ite]
  refine if_congr Iff.rfl ?_ rfl
  rw [scrub_conns, sn_outbox]
  cases (s.conns b).outbox with
  | nil =>
    simp only [map_ite]
    exact if_congr Iff.rfl rfl (by simp [scrub_stop])
  | cons e q =>
    simp only [Option.map_some, Option.some.injEq]
    exact finish_congr (commutes2_handleInbound b e _ _ (commutes_takeEvent b e q s))

theorem commutes_engConnectDone : Commutes engConnectDone := by
  intro s
  simp only [engConnectDone, scrub_mode]
  cases hm : s.mode with
  | awaitConnect r b =>
    simp only [scrub_replyDone]
    cases s.replyDone.find? fun p => p.1 == r with
    | none => rfl
    | some p =>
      obtain ⟨k, o⟩ := p
      cases o with
      | cancelled => simp [scrub_stop]
      | resolved e =>
        simp only [Option.map_some, Option.some.injEq]
        exact like_managerSend e b true (s := { s with mode := .idle }) (u := { scrub s with mode := .idle }) (by unfold Like; scr)
  | _ => rfl

theorem scrub_endConn (b : BrokerAddress) (s : State) : scrub (endConn s b) = scrub (endConn (scrub s) b) := by
  unfold endConn
  scr

theorem commutes_connTake (b : BrokerAddress) (c : ConnCmd) (q : List ConnCmd) (s : State) : Like (connTake s b c q) (connTake (scrub s) b c q) := by
  unfold Like connTake
  cases c.reply with
  | none => simp only []; scr
  | some t => simp only []; scr

theorem commutes_connCmd (b : BrokerAddress) (w : Write) : Commutes (connCmd · b w) := by
  intro s
  simp only [connCmd, map_ite]
  refine if_congr Iff.rfl ?_ rfl
  rw [scrub_conns, sn_queue]
  cases (s.conns b).queue with
  | nil =>
    simp only [map_ite, Option.map_some]
    exact if_congr Iff.rfl (by split; exact congrArg some (scrub_endConn b s); simp) rfl
  | cons c q =>
    have ht := commutes_connTake b c q s
    simp only []
    revert ht
    generalize connTake s b c q = x
    generalize connTake (scrub s) b c q = y
    intro ht
    cases w with
    | failed => exact congrArg some ht
    | panicked =>
      simp only [Option.map_some, Option.some.injEq]
      rw [scrub_endConn, scrub_endConn b y, show scrub x = scrub y from ht]
    | ok =>
      simp only [Option.map_some, Option.some.injEq]
      have hc : scrubConn (x.conns b) = scrubConn (y.conns b) := congrFun (congrArg State.conns ht) b
      rw [scrub_setConn, scrub_setConn, show scrub x = scrub y from ht]
      congr 1
      simp only [scrubConn, ConnSt.mk.injEq] at hc ⊢
      simp_all

theorem commutes_connRead (b : BrokerAddress) (x : Item) : Commutes (connRead · b x) := by
  intro s
  simp only [connRead, map_ite]
  refine if_congr Iff.rfl ?_ rfl
  cases x with
  | closed => simp only [Option.map_some, Option.some.injEq]; exact scrub_endConn b s
  | error => simp
  | panicked => simp only [Option.map_some, Option.some.injEq]; exact scrub_endConn b s
  | command v answers =>
    simp only []
    cases Inbound.ofCommand v with
    | err _ => simp
    | panic => simp only [Option.map_some, Option.some.injEq]; exact scrub_endConn b s
    | ok inb =>
      simp only [scrub_conns, sn_resolver]
      cases (s.conns b).resolver.tryResolve inb with
      | some p => simp only []; scr
      | none =>
        simp only [map_ite]
        refine if_congr Iff.rfl ?_ (by scr)
        simp only [Option.map_some, Option.some.injEq]; exact scrub_endConn b s

/-- Every action but taking an event from a client's channel does the same in both instances. -/
theorem like_step {cfg : Cfg} {s u s' : State} (hl : Like s u) {a : Act} (ha : ∀ i, a ≠ .clientNext i) (hs : step cfg s a = some s') :
    ∃ u', step cfg u a = some u' ∧ Like s' u' := by
  cases a with
  | clientNext i => exact absurd rfl (ha i)
  | engStart net => exact commutes_of_like (commutes_engStart cfg net) hl hs
  | engOut i auth net => exact commutes_of_like (commutes_engOut cfg i auth net) hl hs
  | engIn b => exact commutes_of_like (commutes_engIn b) hl hs
  | engReg => exact commutes_of_like (commutes_engReg cfg) hl hs
  | engRegClosed => exact commutes_of_like commutes_engRegClosed hl hs
  | engNoConn => exact commutes_of_like commutes_engNoConn hl hs
  | engConnectDone => exact commutes_of_like commutes_engConnectDone hl hs
  | connCmd b w => exact commutes_of_like (commutes_connCmd b w) hl hs
  | connRead b x => exact commutes_of_like (commutes_connRead b x) hl hs
  | newClient name => exact commutes_of_like (commutes_newClient cfg name) hl hs
  | sendReg i => exact commutes_of_like (commutes_sendReg i) hl hs
  | recvReply i => exact commutes_of_like (commutes_recvReply i) hl hs
  | cancelReg i => exact commutes_of_like (commutes_cancelReg i) hl hs
  | beginCall i call => exact commutes_of_like (commutes_beginCall i call) hl hs
  | submit i k => exact commutes_of_like (commutes_submit i k) hl hs
  | dropClient i => exact commutes_of_like (commutes_dropClient i) hl hs
  | freeQueue i => exact commutes_of_like (commutes_freeQueue i) hl hs
  | dropManager => exact commutes_of_like commutes_dropManager hl hs

end Neutron.Sys
