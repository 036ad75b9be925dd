import Verif.Proof.SysBase

/-!
# Projections of the primitive state changes (which field each leaves alone)
-/

namespace Neutron.Sys

open Neutron

@[simp] theorem setClient_mode (s : State) (i : Nat) (c : ClientSt) : (s.setClient i c).mode = s.mode := rfl
@[simp] theorem setClient_managerAlive (s : State) (i : Nat) (c : ClientSt) : (s.setClient i c).managerAlive = s.managerAlive := rfl
@[simp] theorem setClient_nClients (s : State) (i : Nat) (c : ClientSt) : (s.setClient i c).nClients = s.nClients := rfl
@[simp] theorem setClient_regQueue (s : State) (i : Nat) (c : ClientSt) : (s.setClient i c).regQueue = s.regQueue := rfl
@[simp] theorem setClient_replies (s : State) (i : Nat) (c : ClientSt) : (s.setClient i c).replies = s.replies := rfl
@[simp] theorem setClient_vec (s : State) (i : Nat) (c : ClientSt) : (s.setClient i c).vec = s.vec := rfl
@[simp] theorem setClient_addrs (s : State) (i : Nat) (c : ClientSt) : (s.setClient i c).addrs = s.addrs := rfl
@[simp] theorem setClient_conns (s : State) (i : Nat) (c : ClientSt) : (s.setClient i c).conns = s.conns := rfl
@[simp] theorem setClient_resolver (s : State) (i : Nat) (c : ClientSt) : (s.setClient i c).resolver = s.resolver := rfl
@[simp] theorem setClient_nextReply (s : State) (i : Nat) (c : ClientSt) : (s.setClient i c).nextReply = s.nextReply := rfl
@[simp] theorem setClient_replyDone (s : State) (i : Nat) (c : ClientSt) : (s.setClient i c).replyDone = s.replyDone := rfl
@[simp] theorem setClient_issued (s : State) (i : Nat) (c : ClientSt) : (s.setClient i c).issued = s.issued := rfl
@[simp] theorem setClient_outcomes (s : State) (i : Nat) (c : ClientSt) : (s.setClient i c).outcomes = s.outcomes := rfl
@[simp] theorem setClient_refused (s : State) (i : Nat) (c : ClientSt) : (s.setClient i c).refused = s.refused := rfl
@[simp] theorem setClient_dials (s : State) (i : Nat) (c : ClientSt) : (s.setClient i c).dials = s.dials := rfl
@[simp] theorem setClient_dispatches (s : State) (i : Nat) (c : ClientSt) : (s.setClient i c).dispatches = s.dispatches := rfl
@[simp] theorem setClient_sent (s : State) (i : Nat) (c : ClientSt) : (s.setClient i c).sent = s.sent := rfl

theorem setClient_clients (s : State) (i : Nat) (c : ClientSt) (j : Nat) :
    (s.setClient i c).clients j = if j = i then c else s.clients j := rfl

@[simp] theorem setConn_mode (s : State) (b : BrokerAddress) (c : ConnSt) : (s.setConn b c).mode = s.mode := rfl
@[simp] theorem setConn_managerAlive (s : State) (b : BrokerAddress) (c : ConnSt) : (s.setConn b c).managerAlive = s.managerAlive := rfl
@[simp] theorem setConn_nClients (s : State) (b : BrokerAddress) (c : ConnSt) : (s.setConn b c).nClients = s.nClients := rfl
@[simp] theorem setConn_clients (s : State) (b : BrokerAddress) (c : ConnSt) : (s.setConn b c).clients = s.clients := rfl
@[simp] theorem setConn_regQueue (s : State) (b : BrokerAddress) (c : ConnSt) : (s.setConn b c).regQueue = s.regQueue := rfl
@[simp] theorem setConn_replies (s : State) (b : BrokerAddress) (c : ConnSt) : (s.setConn b c).replies = s.replies := rfl
@[simp] theorem setConn_vec (s : State) (b : BrokerAddress) (c : ConnSt) : (s.setConn b c).vec = s.vec := rfl
@[simp] theorem setConn_addrs (s : State) (b : BrokerAddress) (c : ConnSt) : (s.setConn b c).addrs = s.addrs := rfl
@[simp] theorem setConn_resolver (s : State) (b : BrokerAddress) (c : ConnSt) : (s.setConn b c).resolver = s.resolver := rfl
@[simp] theorem setConn_nextReply (s : State) (b : BrokerAddress) (c : ConnSt) : (s.setConn b c).nextReply = s.nextReply := rfl
@[simp] theorem setConn_replyDone (s : State) (b : BrokerAddress) (c : ConnSt) : (s.setConn b c).replyDone = s.replyDone := rfl
@[simp] theorem setConn_issued (s : State) (b : BrokerAddress) (c : ConnSt) : (s.setConn b c).issued = s.issued := rfl
@[simp] theorem setConn_outcomes (s : State) (b : BrokerAddress) (c : ConnSt) : (s.setConn b c).outcomes = s.outcomes := rfl
@[simp] theorem setConn_refused (s : State) (b : BrokerAddress) (c : ConnSt) : (s.setConn b c).refused = s.refused := rfl
@[simp] theorem setConn_dials (s : State) (b : BrokerAddress) (c : ConnSt) : (s.setConn b c).dials = s.dials := rfl
@[simp] theorem setConn_dispatches (s : State) (b : BrokerAddress) (c : ConnSt) : (s.setConn b c).dispatches = s.dispatches := rfl
@[simp] theorem setConn_sent (s : State) (b : BrokerAddress) (c : ConnSt) : (s.setConn b c).sent = s.sent := rfl

theorem setConn_conns (s : State) (b : BrokerAddress) (c : ConnSt) (x : BrokerAddress) :
    (s.setConn b c).conns x = if x = b then c else s.conns x := rfl

@[simp] theorem stop_managerAlive (s : State) : (stop s).managerAlive = s.managerAlive := rfl
@[simp] theorem stop_nClients (s : State) : (stop s).nClients = s.nClients := rfl
@[simp] theorem stop_clients (s : State) : (stop s).clients = s.clients := rfl
@[simp] theorem stop_regQueue (s : State) : (stop s).regQueue = s.regQueue := rfl
@[simp] theorem stop_replies (s : State) : (stop s).replies = s.replies := rfl
@[simp] theorem stop_vec (s : State) : (stop s).vec = s.vec := rfl
@[simp] theorem stop_addrs (s : State) : (stop s).addrs = s.addrs := rfl
@[simp] theorem stop_conns (s : State) : (stop s).conns = s.conns := rfl
@[simp] theorem stop_nextReply (s : State) : (stop s).nextReply = s.nextReply := rfl
@[simp] theorem stop_replyDone (s : State) : (stop s).replyDone = s.replyDone := rfl
@[simp] theorem stop_issued (s : State) : (stop s).issued = s.issued := rfl
@[simp] theorem stop_refused (s : State) : (stop s).refused = s.refused := rfl
@[simp] theorem stop_dials (s : State) : (stop s).dials = s.dials := rfl
@[simp] theorem stop_dispatches (s : State) : (stop s).dispatches = s.dispatches := rfl
@[simp] theorem stop_sent (s : State) : (stop s).sent = s.sent := rfl

@[simp] theorem stop_mode (s : State) : (stop s).mode = .stopped := rfl
@[simp] theorem stop_resolver (s : State) : (stop s).resolver = [] := rfl
theorem stop_outcomes (s : State) : (stop s).outcomes = s.outcomes ++ s.resolver.map fun p => (p.2, .cancelled) := rfl

@[simp] theorem pushed_mode (s : State) (b : BrokerAddress) (c : ConnCmd) : (pushed s b c).mode = s.mode := rfl
@[simp] theorem pushed_managerAlive (s : State) (b : BrokerAddress) (c : ConnCmd) : (pushed s b c).managerAlive = s.managerAlive := rfl
@[simp] theorem pushed_nClients (s : State) (b : BrokerAddress) (c : ConnCmd) : (pushed s b c).nClients = s.nClients := rfl
@[simp] theorem pushed_clients (s : State) (b : BrokerAddress) (c : ConnCmd) : (pushed s b c).clients = s.clients := rfl
@[simp] theorem pushed_regQueue (s : State) (b : BrokerAddress) (c : ConnCmd) : (pushed s b c).regQueue = s.regQueue := rfl
@[simp] theorem pushed_replies (s : State) (b : BrokerAddress) (c : ConnCmd) : (pushed s b c).replies = s.replies := rfl
@[simp] theorem pushed_vec (s : State) (b : BrokerAddress) (c : ConnCmd) : (pushed s b c).vec = s.vec := rfl
@[simp] theorem pushed_addrs (s : State) (b : BrokerAddress) (c : ConnCmd) : (pushed s b c).addrs = s.addrs := rfl
@[simp] theorem pushed_resolver (s : State) (b : BrokerAddress) (c : ConnCmd) : (pushed s b c).resolver = s.resolver := rfl
@[simp] theorem pushed_nextReply (s : State) (b : BrokerAddress) (c : ConnCmd) : (pushed s b c).nextReply = s.nextReply := rfl
@[simp] theorem pushed_replyDone (s : State) (b : BrokerAddress) (c : ConnCmd) : (pushed s b c).replyDone = s.replyDone := rfl
@[simp] theorem pushed_issued (s : State) (b : BrokerAddress) (c : ConnCmd) : (pushed s b c).issued = s.issued := rfl
@[simp] theorem pushed_outcomes (s : State) (b : BrokerAddress) (c : ConnCmd) : (pushed s b c).outcomes = s.outcomes := rfl
@[simp] theorem pushed_refused (s : State) (b : BrokerAddress) (c : ConnCmd) : (pushed s b c).refused = s.refused := rfl
@[simp] theorem pushed_dials (s : State) (b : BrokerAddress) (c : ConnCmd) : (pushed s b c).dials = s.dials := rfl
@[simp] theorem pushed_dispatches (s : State) (b : BrokerAddress) (c : ConnCmd) : (pushed s b c).dispatches = s.dispatches := rfl

@[simp] theorem pushed_conns_alive (s : State) (b : BrokerAddress) (c : ConnCmd) (x : BrokerAddress) : ((pushed s b c).conns x).alive = (s.conns x).alive := by
  simp only [pushed, setConn_conns]; split <;> simp_all
@[simp] theorem pushed_conns_resolver (s : State) (b : BrokerAddress) (c : ConnCmd) (x : BrokerAddress) : ((pushed s b c).conns x).resolver = (s.conns x).resolver := by
  simp only [pushed, setConn_conns]; split <;> simp_all
@[simp] theorem pushed_conns_outbox (s : State) (b : BrokerAddress) (c : ConnCmd) (x : BrokerAddress) : ((pushed s b c).conns x).outbox = (s.conns x).outbox := by
  simp only [pushed, setConn_conns]; split <;> simp_all
@[simp] theorem pushed_conns_processed (s : State) (b : BrokerAddress) (c : ConnCmd) (x : BrokerAddress) : ((pushed s b c).conns x).processed = (s.conns x).processed := by
  simp only [pushed, setConn_conns]; split <;> simp_all
@[simp] theorem pushed_conns_written (s : State) (b : BrokerAddress) (c : ConnCmd) (x : BrokerAddress) : ((pushed s b c).conns x).written = (s.conns x).written := by
  simp only [pushed, setConn_conns]; split <;> simp_all
@[simp] theorem pushed_conns_reads (s : State) (b : BrokerAddress) (c : ConnCmd) (x : BrokerAddress) : ((pushed s b c).conns x).reads = (s.conns x).reads := by
  simp only [pushed, setConn_conns]; split <;> simp_all
@[simp] theorem pushed_conns_dispatched (s : State) (b : BrokerAddress) (c : ConnCmd) (x : BrokerAddress) : ((pushed s b c).conns x).dispatched = (s.conns x).dispatched := by
  simp only [pushed, setConn_conns]; split <;> simp_all
@[simp] theorem pushed_conns_connected (s : State) (b : BrokerAddress) (c : ConnCmd) (x : BrokerAddress) : ((pushed s b c).conns x).connected = (s.conns x).connected := by
  simp only [pushed, setConn_conns]; split <;> simp_all

@[simp] theorem dialed_mode (s : State) (b : BrokerAddress) : (dialed s b).mode = s.mode := rfl
@[simp] theorem dialed_managerAlive (s : State) (b : BrokerAddress) : (dialed s b).managerAlive = s.managerAlive := rfl
@[simp] theorem dialed_nClients (s : State) (b : BrokerAddress) : (dialed s b).nClients = s.nClients := rfl
@[simp] theorem dialed_clients (s : State) (b : BrokerAddress) : (dialed s b).clients = s.clients := rfl
@[simp] theorem dialed_regQueue (s : State) (b : BrokerAddress) : (dialed s b).regQueue = s.regQueue := rfl
@[simp] theorem dialed_replies (s : State) (b : BrokerAddress) : (dialed s b).replies = s.replies := rfl
@[simp] theorem dialed_vec (s : State) (b : BrokerAddress) : (dialed s b).vec = s.vec := rfl
@[simp] theorem dialed_resolver (s : State) (b : BrokerAddress) : (dialed s b).resolver = s.resolver := rfl
@[simp] theorem dialed_nextReply (s : State) (b : BrokerAddress) : (dialed s b).nextReply = s.nextReply := rfl
@[simp] theorem dialed_replyDone (s : State) (b : BrokerAddress) : (dialed s b).replyDone = s.replyDone := rfl
@[simp] theorem dialed_issued (s : State) (b : BrokerAddress) : (dialed s b).issued = s.issued := rfl
@[simp] theorem dialed_outcomes (s : State) (b : BrokerAddress) : (dialed s b).outcomes = s.outcomes := rfl
@[simp] theorem dialed_refused (s : State) (b : BrokerAddress) : (dialed s b).refused = s.refused := rfl
@[simp] theorem dialed_dispatches (s : State) (b : BrokerAddress) : (dialed s b).dispatches = s.dispatches := rfl
@[simp] theorem dialed_sent (s : State) (b : BrokerAddress) : (dialed s b).sent = s.sent := rfl

theorem dialed_conns (s : State) (b x : BrokerAddress) : (dialed s b).conns x = if x = b then freshConn else s.conns x := rfl

@[simp] theorem moveClient_mode (s : State) (id : UInt64) (b : BrokerAddress) : (moveClient s id b).mode = s.mode := rfl
@[simp] theorem moveClient_managerAlive (s : State) (id : UInt64) (b : BrokerAddress) : (moveClient s id b).managerAlive = s.managerAlive := rfl
@[simp] theorem moveClient_nClients (s : State) (id : UInt64) (b : BrokerAddress) : (moveClient s id b).nClients = s.nClients := rfl
@[simp] theorem moveClient_regQueue (s : State) (id : UInt64) (b : BrokerAddress) : (moveClient s id b).regQueue = s.regQueue := rfl
@[simp] theorem moveClient_replies (s : State) (id : UInt64) (b : BrokerAddress) : (moveClient s id b).replies = s.replies := rfl
@[simp] theorem moveClient_vec (s : State) (id : UInt64) (b : BrokerAddress) : (moveClient s id b).vec = s.vec := rfl
@[simp] theorem moveClient_addrs (s : State) (id : UInt64) (b : BrokerAddress) : (moveClient s id b).addrs = s.addrs := rfl
@[simp] theorem moveClient_conns (s : State) (id : UInt64) (b : BrokerAddress) : (moveClient s id b).conns = s.conns := rfl
@[simp] theorem moveClient_resolver (s : State) (id : UInt64) (b : BrokerAddress) : (moveClient s id b).resolver = s.resolver := rfl
@[simp] theorem moveClient_nextReply (s : State) (id : UInt64) (b : BrokerAddress) : (moveClient s id b).nextReply = s.nextReply := rfl
@[simp] theorem moveClient_replyDone (s : State) (id : UInt64) (b : BrokerAddress) : (moveClient s id b).replyDone = s.replyDone := rfl
@[simp] theorem moveClient_issued (s : State) (id : UInt64) (b : BrokerAddress) : (moveClient s id b).issued = s.issued := rfl
@[simp] theorem moveClient_outcomes (s : State) (id : UInt64) (b : BrokerAddress) : (moveClient s id b).outcomes = s.outcomes := rfl
@[simp] theorem moveClient_refused (s : State) (id : UInt64) (b : BrokerAddress) : (moveClient s id b).refused = s.refused := rfl
@[simp] theorem moveClient_dials (s : State) (id : UInt64) (b : BrokerAddress) : (moveClient s id b).dials = s.dials := rfl
@[simp] theorem moveClient_dispatches (s : State) (id : UInt64) (b : BrokerAddress) : (moveClient s id b).dispatches = s.dispatches := rfl
@[simp] theorem moveClient_sent (s : State) (id : UInt64) (b : BrokerAddress) : (moveClient s id b).sent = s.sent := rfl

@[simp] theorem moveClient_clients_core (s : State) (id : UInt64) (b : BrokerAddress) (k : Nat) : ((moveClient s id b).clients k).core = (s.clients k).core := by
  simp only [moveClient]; split <;> rfl
@[simp] theorem moveClient_clients_phase (s : State) (id : UInt64) (b : BrokerAddress) (k : Nat) : ((moveClient s id b).clients k).phase = (s.clients k).phase := by
  simp only [moveClient]; split <;> rfl
@[simp] theorem moveClient_clients_starting (s : State) (id : UInt64) (b : BrokerAddress) (k : Nat) : ((moveClient s id b).clients k).starting = (s.clients k).starting := by
  simp only [moveClient]; split <;> rfl
@[simp] theorem moveClient_clients_queue (s : State) (id : UInt64) (b : BrokerAddress) (k : Nat) : ((moveClient s id b).clients k).queue = (s.clients k).queue := by
  simp only [moveClient]; split <;> rfl
@[simp] theorem moveClient_clients_inbox (s : State) (id : UInt64) (b : BrokerAddress) (k : Nat) : ((moveClient s id b).clients k).inbox = (s.clients k).inbox := by
  simp only [moveClient]; split <;> rfl
@[simp] theorem moveClient_clients_submitted (s : State) (id : UInt64) (b : BrokerAddress) (k : Nat) : ((moveClient s id b).clients k).submitted = (s.clients k).submitted := by
  simp only [moveClient]; split <;> rfl
@[simp] theorem moveClient_clients_handled (s : State) (id : UInt64) (b : BrokerAddress) (k : Nat) : ((moveClient s id b).clients k).handled = (s.clients k).handled := by
  simp only [moveClient]; split <;> rfl
@[simp] theorem moveClient_clients_taken (s : State) (id : UInt64) (b : BrokerAddress) (k : Nat) : ((moveClient s id b).clients k).taken = (s.clients k).taken := by
  simp only [moveClient]; split <;> rfl

@[simp] theorem takeCmd_mode (s : State) (i : Nat) (cmd : ClientCmd) (q : List ClientCmd) : (takeCmd s i cmd q).mode = s.mode := by
  unfold takeCmd; cases cmd.tok <;> rfl
@[simp] theorem takeCmd_managerAlive (s : State) (i : Nat) (cmd : ClientCmd) (q : List ClientCmd) : (takeCmd s i cmd q).managerAlive = s.managerAlive := by
  unfold takeCmd; cases cmd.tok <;> rfl
@[simp] theorem takeCmd_nClients (s : State) (i : Nat) (cmd : ClientCmd) (q : List ClientCmd) : (takeCmd s i cmd q).nClients = s.nClients := by
  unfold takeCmd; cases cmd.tok <;> rfl
@[simp] theorem takeCmd_regQueue (s : State) (i : Nat) (cmd : ClientCmd) (q : List ClientCmd) : (takeCmd s i cmd q).regQueue = s.regQueue := by
  unfold takeCmd; cases cmd.tok <;> rfl
@[simp] theorem takeCmd_replies (s : State) (i : Nat) (cmd : ClientCmd) (q : List ClientCmd) : (takeCmd s i cmd q).replies = s.replies := by
  unfold takeCmd; cases cmd.tok <;> rfl
@[simp] theorem takeCmd_vec (s : State) (i : Nat) (cmd : ClientCmd) (q : List ClientCmd) : (takeCmd s i cmd q).vec = s.vec := by
  unfold takeCmd; cases cmd.tok <;> rfl
@[simp] theorem takeCmd_addrs (s : State) (i : Nat) (cmd : ClientCmd) (q : List ClientCmd) : (takeCmd s i cmd q).addrs = s.addrs := by
  unfold takeCmd; cases cmd.tok <;> rfl
@[simp] theorem takeCmd_conns (s : State) (i : Nat) (cmd : ClientCmd) (q : List ClientCmd) : (takeCmd s i cmd q).conns = s.conns := by
  unfold takeCmd; cases cmd.tok <;> rfl
@[simp] theorem takeCmd_nextReply (s : State) (i : Nat) (cmd : ClientCmd) (q : List ClientCmd) : (takeCmd s i cmd q).nextReply = s.nextReply := by
  unfold takeCmd; cases cmd.tok <;> rfl
@[simp] theorem takeCmd_replyDone (s : State) (i : Nat) (cmd : ClientCmd) (q : List ClientCmd) : (takeCmd s i cmd q).replyDone = s.replyDone := by
  unfold takeCmd; cases cmd.tok <;> rfl
@[simp] theorem takeCmd_issued (s : State) (i : Nat) (cmd : ClientCmd) (q : List ClientCmd) : (takeCmd s i cmd q).issued = s.issued := by
  unfold takeCmd; cases cmd.tok <;> rfl
@[simp] theorem takeCmd_refused (s : State) (i : Nat) (cmd : ClientCmd) (q : List ClientCmd) : (takeCmd s i cmd q).refused = s.refused := by
  unfold takeCmd; cases cmd.tok <;> rfl
@[simp] theorem takeCmd_dials (s : State) (i : Nat) (cmd : ClientCmd) (q : List ClientCmd) : (takeCmd s i cmd q).dials = s.dials := by
  unfold takeCmd; cases cmd.tok <;> rfl
@[simp] theorem takeCmd_dispatches (s : State) (i : Nat) (cmd : ClientCmd) (q : List ClientCmd) : (takeCmd s i cmd q).dispatches = s.dispatches := by
  unfold takeCmd; cases cmd.tok <;> rfl
@[simp] theorem takeCmd_sent (s : State) (i : Nat) (cmd : ClientCmd) (q : List ClientCmd) : (takeCmd s i cmd q).sent = s.sent := by
  unfold takeCmd; cases cmd.tok <;> rfl

theorem takeCmd_clients (s : State) (i : Nat) (cmd : ClientCmd) (q : List ClientCmd) (k : Nat) :
    (takeCmd s i cmd q).clients k = if k = i then { s.clients i with queue := q, handled := (s.clients i).handled ++ [cmd] }
      else s.clients k := by
  unfold takeCmd; cases cmd.tok <;> rfl

@[simp] theorem takeCmd_clients_core (s : State) (i : Nat) (cmd : ClientCmd) (q : List ClientCmd) (k : Nat) : ((takeCmd s i cmd q).clients k).core = (s.clients k).core := by
  rw [takeCmd_clients]; split <;> simp_all
@[simp] theorem takeCmd_clients_phase (s : State) (i : Nat) (cmd : ClientCmd) (q : List ClientCmd) (k : Nat) : ((takeCmd s i cmd q).clients k).phase = (s.clients k).phase := by
  rw [takeCmd_clients]; split <;> simp_all
@[simp] theorem takeCmd_clients_broker (s : State) (i : Nat) (cmd : ClientCmd) (q : List ClientCmd) (k : Nat) : ((takeCmd s i cmd q).clients k).broker = (s.clients k).broker := by
  rw [takeCmd_clients]; split <;> simp_all
@[simp] theorem takeCmd_clients_starting (s : State) (i : Nat) (cmd : ClientCmd) (q : List ClientCmd) (k : Nat) : ((takeCmd s i cmd q).clients k).starting = (s.clients k).starting := by
  rw [takeCmd_clients]; split <;> simp_all
@[simp] theorem takeCmd_clients_inbox (s : State) (i : Nat) (cmd : ClientCmd) (q : List ClientCmd) (k : Nat) : ((takeCmd s i cmd q).clients k).inbox = (s.clients k).inbox := by
  rw [takeCmd_clients]; split <;> simp_all
@[simp] theorem takeCmd_clients_submitted (s : State) (i : Nat) (cmd : ClientCmd) (q : List ClientCmd) (k : Nat) : ((takeCmd s i cmd q).clients k).submitted = (s.clients k).submitted := by
  rw [takeCmd_clients]; split <;> simp_all
@[simp] theorem takeCmd_clients_taken (s : State) (i : Nat) (cmd : ClientCmd) (q : List ClientCmd) (k : Nat) : ((takeCmd s i cmd q).clients k).taken = (s.clients k).taken := by
  rw [takeCmd_clients]; split <;> simp_all

@[simp] theorem takeEvent_mode (s : State) (b : BrokerAddress) (e : Event) (q : List Event) : (takeEvent s b e q).mode = s.mode := rfl
@[simp] theorem takeEvent_managerAlive (s : State) (b : BrokerAddress) (e : Event) (q : List Event) : (takeEvent s b e q).managerAlive = s.managerAlive := rfl
@[simp] theorem takeEvent_nClients (s : State) (b : BrokerAddress) (e : Event) (q : List Event) : (takeEvent s b e q).nClients = s.nClients := rfl
@[simp] theorem takeEvent_clients (s : State) (b : BrokerAddress) (e : Event) (q : List Event) : (takeEvent s b e q).clients = s.clients := rfl
@[simp] theorem takeEvent_regQueue (s : State) (b : BrokerAddress) (e : Event) (q : List Event) : (takeEvent s b e q).regQueue = s.regQueue := rfl
@[simp] theorem takeEvent_replies (s : State) (b : BrokerAddress) (e : Event) (q : List Event) : (takeEvent s b e q).replies = s.replies := rfl
@[simp] theorem takeEvent_vec (s : State) (b : BrokerAddress) (e : Event) (q : List Event) : (takeEvent s b e q).vec = s.vec := rfl
@[simp] theorem takeEvent_addrs (s : State) (b : BrokerAddress) (e : Event) (q : List Event) : (takeEvent s b e q).addrs = s.addrs := rfl
@[simp] theorem takeEvent_resolver (s : State) (b : BrokerAddress) (e : Event) (q : List Event) : (takeEvent s b e q).resolver = s.resolver := rfl
@[simp] theorem takeEvent_nextReply (s : State) (b : BrokerAddress) (e : Event) (q : List Event) : (takeEvent s b e q).nextReply = s.nextReply := rfl
@[simp] theorem takeEvent_replyDone (s : State) (b : BrokerAddress) (e : Event) (q : List Event) : (takeEvent s b e q).replyDone = s.replyDone := rfl
@[simp] theorem takeEvent_issued (s : State) (b : BrokerAddress) (e : Event) (q : List Event) : (takeEvent s b e q).issued = s.issued := rfl
@[simp] theorem takeEvent_outcomes (s : State) (b : BrokerAddress) (e : Event) (q : List Event) : (takeEvent s b e q).outcomes = s.outcomes := rfl
@[simp] theorem takeEvent_refused (s : State) (b : BrokerAddress) (e : Event) (q : List Event) : (takeEvent s b e q).refused = s.refused := rfl
@[simp] theorem takeEvent_dials (s : State) (b : BrokerAddress) (e : Event) (q : List Event) : (takeEvent s b e q).dials = s.dials := rfl
@[simp] theorem takeEvent_dispatches (s : State) (b : BrokerAddress) (e : Event) (q : List Event) : (takeEvent s b e q).dispatches = s.dispatches := rfl
@[simp] theorem takeEvent_sent (s : State) (b : BrokerAddress) (e : Event) (q : List Event) : (takeEvent s b e q).sent = s.sent := rfl

@[simp] theorem takeEvent_conns_alive (s : State) (b : BrokerAddress) (e : Event) (q : List Event) (x : BrokerAddress) : ((takeEvent s b e q).conns x).alive = (s.conns x).alive := by
  simp only [takeEvent, setConn_conns]; split <;> simp_all
@[simp] theorem takeEvent_conns_queue (s : State) (b : BrokerAddress) (e : Event) (q : List Event) (x : BrokerAddress) : ((takeEvent s b e q).conns x).queue = (s.conns x).queue := by
  simp only [takeEvent, setConn_conns]; split <;> simp_all
@[simp] theorem takeEvent_conns_resolver (s : State) (b : BrokerAddress) (e : Event) (q : List Event) (x : BrokerAddress) : ((takeEvent s b e q).conns x).resolver = (s.conns x).resolver := by
  simp only [takeEvent, setConn_conns]; split <;> simp_all
@[simp] theorem takeEvent_conns_accepted (s : State) (b : BrokerAddress) (e : Event) (q : List Event) (x : BrokerAddress) : ((takeEvent s b e q).conns x).accepted = (s.conns x).accepted := by
  simp only [takeEvent, setConn_conns]; split <;> simp_all
@[simp] theorem takeEvent_conns_processed (s : State) (b : BrokerAddress) (e : Event) (q : List Event) (x : BrokerAddress) : ((takeEvent s b e q).conns x).processed = (s.conns x).processed := by
  simp only [takeEvent, setConn_conns]; split <;> simp_all
@[simp] theorem takeEvent_conns_written (s : State) (b : BrokerAddress) (e : Event) (q : List Event) (x : BrokerAddress) : ((takeEvent s b e q).conns x).written = (s.conns x).written := by
  simp only [takeEvent, setConn_conns]; split <;> simp_all
@[simp] theorem takeEvent_conns_reads (s : State) (b : BrokerAddress) (e : Event) (q : List Event) (x : BrokerAddress) : ((takeEvent s b e q).conns x).reads = (s.conns x).reads := by
  simp only [takeEvent, setConn_conns]; split <;> simp_all
@[simp] theorem takeEvent_conns_connected (s : State) (b : BrokerAddress) (e : Event) (q : List Event) (x : BrokerAddress) : ((takeEvent s b e q).conns x).connected = (s.conns x).connected := by
  simp only [takeEvent, setConn_conns]; split <;> simp_all

@[simp] theorem managerSend_mode (s : State) (e : Event) (b : BrokerAddress) (v : Bool) : (managerSend s e b v).mode = s.mode := by
  unfold managerSend; split <;> rfl
@[simp] theorem managerSend_managerAlive (s : State) (e : Event) (b : BrokerAddress) (v : Bool) : (managerSend s e b v).managerAlive = s.managerAlive := by
  unfold managerSend; split <;> rfl
@[simp] theorem managerSend_nClients (s : State) (e : Event) (b : BrokerAddress) (v : Bool) : (managerSend s e b v).nClients = s.nClients := by
  unfold managerSend; split <;> rfl
@[simp] theorem managerSend_regQueue (s : State) (e : Event) (b : BrokerAddress) (v : Bool) : (managerSend s e b v).regQueue = s.regQueue := by
  unfold managerSend; split <;> rfl
@[simp] theorem managerSend_replies (s : State) (e : Event) (b : BrokerAddress) (v : Bool) : (managerSend s e b v).replies = s.replies := by
  unfold managerSend; split <;> rfl
@[simp] theorem managerSend_vec (s : State) (e : Event) (b : BrokerAddress) (v : Bool) : (managerSend s e b v).vec = s.vec := by
  unfold managerSend; split <;> rfl
@[simp] theorem managerSend_addrs (s : State) (e : Event) (b : BrokerAddress) (v : Bool) : (managerSend s e b v).addrs = s.addrs := by
  unfold managerSend; split <;> rfl
@[simp] theorem managerSend_conns (s : State) (e : Event) (b : BrokerAddress) (v : Bool) : (managerSend s e b v).conns = s.conns := by
  unfold managerSend; split <;> rfl
@[simp] theorem managerSend_nextReply (s : State) (e : Event) (b : BrokerAddress) (v : Bool) : (managerSend s e b v).nextReply = s.nextReply := by
  unfold managerSend; split <;> rfl
@[simp] theorem managerSend_replyDone (s : State) (e : Event) (b : BrokerAddress) (v : Bool) : (managerSend s e b v).replyDone = s.replyDone := by
  unfold managerSend; split <;> rfl
@[simp] theorem managerSend_issued (s : State) (e : Event) (b : BrokerAddress) (v : Bool) : (managerSend s e b v).issued = s.issued := by
  unfold managerSend; split <;> rfl
@[simp] theorem managerSend_refused (s : State) (e : Event) (b : BrokerAddress) (v : Bool) : (managerSend s e b v).refused = s.refused := by
  unfold managerSend; split <;> rfl
@[simp] theorem managerSend_dials (s : State) (e : Event) (b : BrokerAddress) (v : Bool) : (managerSend s e b v).dials = s.dials := by
  unfold managerSend; split <;> rfl
@[simp] theorem managerSend_sent (s : State) (e : Event) (b : BrokerAddress) (v : Bool) : (managerSend s e b v).sent = s.sent := by
  unfold managerSend; split <;> rfl

@[simp] theorem managerSend_clients_core (s : State) (e : Event) (b : BrokerAddress) (v : Bool) (k : Nat) : ((managerSend s e b v).clients k).core = (s.clients k).core := by
  unfold managerSend; split
  · rfl
  · simp only; split <;> rfl
@[simp] theorem managerSend_clients_phase (s : State) (e : Event) (b : BrokerAddress) (v : Bool) (k : Nat) : ((managerSend s e b v).clients k).phase = (s.clients k).phase := by
  unfold managerSend; split
  · rfl
  · simp only; split <;> rfl
@[simp] theorem managerSend_clients_broker (s : State) (e : Event) (b : BrokerAddress) (v : Bool) (k : Nat) : ((managerSend s e b v).clients k).broker = (s.clients k).broker := by
  unfold managerSend; split
  · rfl
  · simp only; split <;> rfl
@[simp] theorem managerSend_clients_starting (s : State) (e : Event) (b : BrokerAddress) (v : Bool) (k : Nat) : ((managerSend s e b v).clients k).starting = (s.clients k).starting := by
  unfold managerSend; split
  · rfl
  · simp only; split <;> rfl
@[simp] theorem managerSend_clients_queue (s : State) (e : Event) (b : BrokerAddress) (v : Bool) (k : Nat) : ((managerSend s e b v).clients k).queue = (s.clients k).queue := by
  unfold managerSend; split
  · rfl
  · simp only; split <;> rfl
@[simp] theorem managerSend_clients_submitted (s : State) (e : Event) (b : BrokerAddress) (v : Bool) (k : Nat) : ((managerSend s e b v).clients k).submitted = (s.clients k).submitted := by
  unfold managerSend; split
  · rfl
  · simp only; split <;> rfl
@[simp] theorem managerSend_clients_handled (s : State) (e : Event) (b : BrokerAddress) (v : Bool) (k : Nat) : ((managerSend s e b v).clients k).handled = (s.clients k).handled := by
  unfold managerSend; split
  · rfl
  · simp only; split <;> rfl
@[simp] theorem managerSend_clients_taken (s : State) (e : Event) (b : BrokerAddress) (v : Bool) (k : Nat) : ((managerSend s e b v).clients k).taken = (s.clients k).taken := by
  unfold managerSend; split
  · rfl
  · simp only; split <;> rfl

@[simp] theorem endConn_mode (s : State) (b : BrokerAddress) : (endConn s b).mode = s.mode := rfl
@[simp] theorem endConn_managerAlive (s : State) (b : BrokerAddress) : (endConn s b).managerAlive = s.managerAlive := rfl
@[simp] theorem endConn_nClients (s : State) (b : BrokerAddress) : (endConn s b).nClients = s.nClients := rfl
@[simp] theorem endConn_clients (s : State) (b : BrokerAddress) : (endConn s b).clients = s.clients := rfl
@[simp] theorem endConn_regQueue (s : State) (b : BrokerAddress) : (endConn s b).regQueue = s.regQueue := rfl
@[simp] theorem endConn_replies (s : State) (b : BrokerAddress) : (endConn s b).replies = s.replies := rfl
@[simp] theorem endConn_vec (s : State) (b : BrokerAddress) : (endConn s b).vec = s.vec := rfl
@[simp] theorem endConn_addrs (s : State) (b : BrokerAddress) : (endConn s b).addrs = s.addrs := rfl
@[simp] theorem endConn_resolver (s : State) (b : BrokerAddress) : (endConn s b).resolver = s.resolver := rfl
@[simp] theorem endConn_nextReply (s : State) (b : BrokerAddress) : (endConn s b).nextReply = s.nextReply := rfl
@[simp] theorem endConn_issued (s : State) (b : BrokerAddress) : (endConn s b).issued = s.issued := rfl
@[simp] theorem endConn_outcomes (s : State) (b : BrokerAddress) : (endConn s b).outcomes = s.outcomes := rfl
@[simp] theorem endConn_refused (s : State) (b : BrokerAddress) : (endConn s b).refused = s.refused := rfl
@[simp] theorem endConn_dials (s : State) (b : BrokerAddress) : (endConn s b).dials = s.dials := rfl
@[simp] theorem endConn_dispatches (s : State) (b : BrokerAddress) : (endConn s b).dispatches = s.dispatches := rfl
@[simp] theorem endConn_sent (s : State) (b : BrokerAddress) : (endConn s b).sent = s.sent := rfl

@[simp] theorem endConn_conns_queue (s : State) (b : BrokerAddress) (x : BrokerAddress) : ((endConn s b).conns x).queue = (s.conns x).queue := by
  simp only [endConn, setConn_conns]; split <;> simp_all
@[simp] theorem endConn_conns_outbox (s : State) (b : BrokerAddress) (x : BrokerAddress) : ((endConn s b).conns x).outbox = (s.conns x).outbox := by
  simp only [endConn, setConn_conns]; split <;> simp_all
@[simp] theorem endConn_conns_accepted (s : State) (b : BrokerAddress) (x : BrokerAddress) : ((endConn s b).conns x).accepted = (s.conns x).accepted := by
  simp only [endConn, setConn_conns]; split <;> simp_all
@[simp] theorem endConn_conns_processed (s : State) (b : BrokerAddress) (x : BrokerAddress) : ((endConn s b).conns x).processed = (s.conns x).processed := by
  simp only [endConn, setConn_conns]; split <;> simp_all
@[simp] theorem endConn_conns_written (s : State) (b : BrokerAddress) (x : BrokerAddress) : ((endConn s b).conns x).written = (s.conns x).written := by
  simp only [endConn, setConn_conns]; split <;> simp_all
@[simp] theorem endConn_conns_reads (s : State) (b : BrokerAddress) (x : BrokerAddress) : ((endConn s b).conns x).reads = (s.conns x).reads := by
  simp only [endConn, setConn_conns]; split <;> simp_all
@[simp] theorem endConn_conns_dispatched (s : State) (b : BrokerAddress) (x : BrokerAddress) : ((endConn s b).conns x).dispatched = (s.conns x).dispatched := by
  simp only [endConn, setConn_conns]; split <;> simp_all
@[simp] theorem endConn_conns_connected (s : State) (b : BrokerAddress) (x : BrokerAddress) : ((endConn s b).conns x).connected = (s.conns x).connected := by
  simp only [endConn, setConn_conns]; split <;> simp_all

@[simp] theorem connTake_mode (s : State) (b : BrokerAddress) (c : ConnCmd) (q : List ConnCmd) : (connTake s b c q).mode = s.mode := by
  unfold connTake; cases c.reply <;> rfl
@[simp] theorem connTake_managerAlive (s : State) (b : BrokerAddress) (c : ConnCmd) (q : List ConnCmd) : (connTake s b c q).managerAlive = s.managerAlive := by
  unfold connTake; cases c.reply <;> rfl
@[simp] theorem connTake_nClients (s : State) (b : BrokerAddress) (c : ConnCmd) (q : List ConnCmd) : (connTake s b c q).nClients = s.nClients := by
  unfold connTake; cases c.reply <;> rfl
@[simp] theorem connTake_clients (s : State) (b : BrokerAddress) (c : ConnCmd) (q : List ConnCmd) : (connTake s b c q).clients = s.clients := by
  unfold connTake; cases c.reply <;> rfl
@[simp] theorem connTake_regQueue (s : State) (b : BrokerAddress) (c : ConnCmd) (q : List ConnCmd) : (connTake s b c q).regQueue = s.regQueue := by
  unfold connTake; cases c.reply <;> rfl
@[simp] theorem connTake_replies (s : State) (b : BrokerAddress) (c : ConnCmd) (q : List ConnCmd) : (connTake s b c q).replies = s.replies := by
  unfold connTake; cases c.reply <;> rfl
@[simp] theorem connTake_vec (s : State) (b : BrokerAddress) (c : ConnCmd) (q : List ConnCmd) : (connTake s b c q).vec = s.vec := by
  unfold connTake; cases c.reply <;> rfl
@[simp] theorem connTake_addrs (s : State) (b : BrokerAddress) (c : ConnCmd) (q : List ConnCmd) : (connTake s b c q).addrs = s.addrs := by
  unfold connTake; cases c.reply <;> rfl
@[simp] theorem connTake_resolver (s : State) (b : BrokerAddress) (c : ConnCmd) (q : List ConnCmd) : (connTake s b c q).resolver = s.resolver := by
  unfold connTake; cases c.reply <;> rfl
@[simp] theorem connTake_nextReply (s : State) (b : BrokerAddress) (c : ConnCmd) (q : List ConnCmd) : (connTake s b c q).nextReply = s.nextReply := by
  unfold connTake; cases c.reply <;> rfl
@[simp] theorem connTake_issued (s : State) (b : BrokerAddress) (c : ConnCmd) (q : List ConnCmd) : (connTake s b c q).issued = s.issued := by
  unfold connTake; cases c.reply <;> rfl
@[simp] theorem connTake_outcomes (s : State) (b : BrokerAddress) (c : ConnCmd) (q : List ConnCmd) : (connTake s b c q).outcomes = s.outcomes := by
  unfold connTake; cases c.reply <;> rfl
@[simp] theorem connTake_refused (s : State) (b : BrokerAddress) (c : ConnCmd) (q : List ConnCmd) : (connTake s b c q).refused = s.refused := by
  unfold connTake; cases c.reply <;> rfl
@[simp] theorem connTake_dials (s : State) (b : BrokerAddress) (c : ConnCmd) (q : List ConnCmd) : (connTake s b c q).dials = s.dials := by
  unfold connTake; cases c.reply <;> rfl
@[simp] theorem connTake_dispatches (s : State) (b : BrokerAddress) (c : ConnCmd) (q : List ConnCmd) : (connTake s b c q).dispatches = s.dispatches := by
  unfold connTake; cases c.reply <;> rfl
@[simp] theorem connTake_sent (s : State) (b : BrokerAddress) (c : ConnCmd) (q : List ConnCmd) : (connTake s b c q).sent = s.sent := by
  unfold connTake; cases c.reply <;> rfl

theorem connTake_conns (s : State) (b : BrokerAddress) (c : ConnCmd) (q : List ConnCmd) (x : BrokerAddress) :
    (connTake s b c q).conns x = if x = b then { s.conns b with
      queue := q, processed := (s.conns b).processed ++ [c],
      resolver := match c.reply with
        | some r => ((s.conns b).resolver.put c.out r).1
        | none => (s.conns b).resolver } else s.conns x := by
  unfold connTake; cases c.reply <;> rfl

@[simp] theorem connTake_conns_alive (s : State) (b : BrokerAddress) (c : ConnCmd) (q : List ConnCmd) (x : BrokerAddress) : ((connTake s b c q).conns x).alive = (s.conns x).alive := by
  rw [connTake_conns]; split <;> simp_all
@[simp] theorem connTake_conns_outbox (s : State) (b : BrokerAddress) (c : ConnCmd) (q : List ConnCmd) (x : BrokerAddress) : ((connTake s b c q).conns x).outbox = (s.conns x).outbox := by
  rw [connTake_conns]; split <;> simp_all
@[simp] theorem connTake_conns_accepted (s : State) (b : BrokerAddress) (c : ConnCmd) (q : List ConnCmd) (x : BrokerAddress) : ((connTake s b c q).conns x).accepted = (s.conns x).accepted := by
  rw [connTake_conns]; split <;> simp_all
@[simp] theorem connTake_conns_written (s : State) (b : BrokerAddress) (c : ConnCmd) (q : List ConnCmd) (x : BrokerAddress) : ((connTake s b c q).conns x).written = (s.conns x).written := by
  rw [connTake_conns]; split <;> simp_all
@[simp] theorem connTake_conns_reads (s : State) (b : BrokerAddress) (c : ConnCmd) (q : List ConnCmd) (x : BrokerAddress) : ((connTake s b c q).conns x).reads = (s.conns x).reads := by
  rw [connTake_conns]; split <;> simp_all
@[simp] theorem connTake_conns_dispatched (s : State) (b : BrokerAddress) (c : ConnCmd) (q : List ConnCmd) (x : BrokerAddress) : ((connTake s b c q).conns x).dispatched = (s.conns x).dispatched := by
  rw [connTake_conns]; split <;> simp_all
@[simp] theorem connTake_conns_connected (s : State) (b : BrokerAddress) (c : ConnCmd) (q : List ConnCmd) (x : BrokerAddress) : ((connTake s b c q).conns x).connected = (s.conns x).connected := by
  rw [connTake_conns]; split <;> simp_all

theorem Prep.mode {cfg : Cfg} {s s3 : State} {i : Nat} {c c2 : Connect} {b : BrokerAddress} (h : Prep cfg s i c c2 b s3) :
    s3.mode = s.mode := by
  cases h with
  | intro s2 hd hb => rcases hd with rfl | ⟨_, rfl⟩ <;> split <;> rfl
theorem Prep.managerAlive {cfg : Cfg} {s s3 : State} {i : Nat} {c c2 : Connect} {b : BrokerAddress} (h : Prep cfg s i c c2 b s3) :
    s3.managerAlive = s.managerAlive := by
  cases h with
  | intro s2 hd hb => rcases hd with rfl | ⟨_, rfl⟩ <;> split <;> rfl
theorem Prep.nClients {cfg : Cfg} {s s3 : State} {i : Nat} {c c2 : Connect} {b : BrokerAddress} (h : Prep cfg s i c c2 b s3) :
    s3.nClients = s.nClients := by
  cases h with
  | intro s2 hd hb => rcases hd with rfl | ⟨_, rfl⟩ <;> split <;> rfl
theorem Prep.regQueue {cfg : Cfg} {s s3 : State} {i : Nat} {c c2 : Connect} {b : BrokerAddress} (h : Prep cfg s i c c2 b s3) :
    s3.regQueue = s.regQueue := by
  cases h with
  | intro s2 hd hb => rcases hd with rfl | ⟨_, rfl⟩ <;> split <;> rfl
theorem Prep.replies {cfg : Cfg} {s s3 : State} {i : Nat} {c c2 : Connect} {b : BrokerAddress} (h : Prep cfg s i c c2 b s3) :
    s3.replies = s.replies := by
  cases h with
  | intro s2 hd hb => rcases hd with rfl | ⟨_, rfl⟩ <;> split <;> rfl
theorem Prep.vec {cfg : Cfg} {s s3 : State} {i : Nat} {c c2 : Connect} {b : BrokerAddress} (h : Prep cfg s i c c2 b s3) :
    s3.vec = s.vec := by
  cases h with
  | intro s2 hd hb => rcases hd with rfl | ⟨_, rfl⟩ <;> split <;> rfl
theorem Prep.resolver {cfg : Cfg} {s s3 : State} {i : Nat} {c c2 : Connect} {b : BrokerAddress} (h : Prep cfg s i c c2 b s3) :
    s3.resolver = s.resolver := by
  cases h with
  | intro s2 hd hb => rcases hd with rfl | ⟨_, rfl⟩ <;> split <;> rfl
theorem Prep.nextReply {cfg : Cfg} {s s3 : State} {i : Nat} {c c2 : Connect} {b : BrokerAddress} (h : Prep cfg s i c c2 b s3) :
    s3.nextReply = s.nextReply := by
  cases h with
  | intro s2 hd hb => rcases hd with rfl | ⟨_, rfl⟩ <;> split <;> rfl
theorem Prep.replyDone {cfg : Cfg} {s s3 : State} {i : Nat} {c c2 : Connect} {b : BrokerAddress} (h : Prep cfg s i c c2 b s3) :
    s3.replyDone = s.replyDone := by
  cases h with
  | intro s2 hd hb => rcases hd with rfl | ⟨_, rfl⟩ <;> split <;> rfl
theorem Prep.issued {cfg : Cfg} {s s3 : State} {i : Nat} {c c2 : Connect} {b : BrokerAddress} (h : Prep cfg s i c c2 b s3) :
    s3.issued = s.issued := by
  cases h with
  | intro s2 hd hb => rcases hd with rfl | ⟨_, rfl⟩ <;> split <;> rfl
theorem Prep.outcomes {cfg : Cfg} {s s3 : State} {i : Nat} {c c2 : Connect} {b : BrokerAddress} (h : Prep cfg s i c c2 b s3) :
    s3.outcomes = s.outcomes := by
  cases h with
  | intro s2 hd hb => rcases hd with rfl | ⟨_, rfl⟩ <;> split <;> rfl
theorem Prep.refused {cfg : Cfg} {s s3 : State} {i : Nat} {c c2 : Connect} {b : BrokerAddress} (h : Prep cfg s i c c2 b s3) :
    s3.refused = s.refused := by
  cases h with
  | intro s2 hd hb => rcases hd with rfl | ⟨_, rfl⟩ <;> split <;> rfl
theorem Prep.dispatches {cfg : Cfg} {s s3 : State} {i : Nat} {c c2 : Connect} {b : BrokerAddress} (h : Prep cfg s i c c2 b s3) :
    s3.dispatches = s.dispatches := by
  cases h with
  | intro s2 hd hb => rcases hd with rfl | ⟨_, rfl⟩ <;> split <;> rfl
theorem Prep.sent {cfg : Cfg} {s s3 : State} {i : Nat} {c c2 : Connect} {b : BrokerAddress} (h : Prep cfg s i c c2 b s3) :
    s3.sent = s.sent := by
  cases h with
  | intro s2 hd hb => rcases hd with rfl | ⟨_, rfl⟩ <;> split <;> rfl
theorem Prep.clients_core {cfg : Cfg} {s s3 : State} {i : Nat} {c c2 : Connect} {b : BrokerAddress}
    (h : Prep cfg s i c c2 b s3) (k : Nat) : (s3.clients k).core = (s.clients k).core := by
  cases h with
  | intro s2 hd hb => rcases hd with rfl | ⟨_, rfl⟩ <;> split <;> simp
theorem Prep.clients_phase {cfg : Cfg} {s s3 : State} {i : Nat} {c c2 : Connect} {b : BrokerAddress}
    (h : Prep cfg s i c c2 b s3) (k : Nat) : (s3.clients k).phase = (s.clients k).phase := by
  cases h with
  | intro s2 hd hb => rcases hd with rfl | ⟨_, rfl⟩ <;> split <;> simp
theorem Prep.clients_starting {cfg : Cfg} {s s3 : State} {i : Nat} {c c2 : Connect} {b : BrokerAddress}
    (h : Prep cfg s i c c2 b s3) (k : Nat) : (s3.clients k).starting = (s.clients k).starting := by
  cases h with
  | intro s2 hd hb => rcases hd with rfl | ⟨_, rfl⟩ <;> split <;> simp
theorem Prep.clients_queue {cfg : Cfg} {s s3 : State} {i : Nat} {c c2 : Connect} {b : BrokerAddress}
    (h : Prep cfg s i c c2 b s3) (k : Nat) : (s3.clients k).queue = (s.clients k).queue := by
  cases h with
  | intro s2 hd hb => rcases hd with rfl | ⟨_, rfl⟩ <;> split <;> simp
theorem Prep.clients_inbox {cfg : Cfg} {s s3 : State} {i : Nat} {c c2 : Connect} {b : BrokerAddress}
    (h : Prep cfg s i c c2 b s3) (k : Nat) : (s3.clients k).inbox = (s.clients k).inbox := by
  cases h with
  | intro s2 hd hb => rcases hd with rfl | ⟨_, rfl⟩ <;> split <;> simp
theorem Prep.clients_submitted {cfg : Cfg} {s s3 : State} {i : Nat} {c c2 : Connect} {b : BrokerAddress}
    (h : Prep cfg s i c c2 b s3) (k : Nat) : (s3.clients k).submitted = (s.clients k).submitted := by
  cases h with
  | intro s2 hd hb => rcases hd with rfl | ⟨_, rfl⟩ <;> split <;> simp
theorem Prep.clients_handled {cfg : Cfg} {s s3 : State} {i : Nat} {c c2 : Connect} {b : BrokerAddress}
    (h : Prep cfg s i c c2 b s3) (k : Nat) : (s3.clients k).handled = (s.clients k).handled := by
  cases h with
  | intro s2 hd hb => rcases hd with rfl | ⟨_, rfl⟩ <;> split <;> simp
theorem Prep.clients_taken {cfg : Cfg} {s s3 : State} {i : Nat} {c c2 : Connect} {b : BrokerAddress}
    (h : Prep cfg s i c c2 b s3) (k : Nat) : (s3.clients k).taken = (s.clients k).taken := by
  cases h with
  | intro s2 hd hb => rcases hd with rfl | ⟨_, rfl⟩ <;> split <;> simp

end Neutron.Sys
