import Verif.Proof.AppWithin
import Verif.Props.Reach

/-!
# C128: a call whose response arrives returns
-/

namespace Neutron.Props

open Neutron App World Session

variable {T : Type}

/-- A request a call has handed over has been passed on, once the engine has taken what the client handed over. -/
theorem handed_passed {cfg : World.Cfg T} {acts : List App.Act} {log : List World.Act} {a : App.State T} (h : App.Run cfg acts log a)
    {j : Job} (hj : j ∈ a.jobs) {i : Nat} (hc : j.client = some i) {c : Call} {t : Nat} (hh : .handed c (.ok t) ∈ j.events)
    (hx : c.expectsResponse = true) (hm : a.world.sys.mode ≠ .stopped) (hn : a.world.sys.nClients ≤ 2 ^ 64)
    (hq : (a.world.sys.clients i).queue = []) :
    ∃ b cmd, (b, cmd) ∈ Sys.passedOn a.world.sys.sent i ∧ cmd.tok = some t ∧ a.world.sys.issued[t]? = some (i, cmd.out) := by
  have hr := App.reachable h
  obtain ⟨hi, ho⟩ := in_order h j hj i hc
  have ht : t ∈ requests j.events := List.mem_filterMap.mpr ⟨_, hh, by simp [hx]⟩
  obtain ⟨cmd, hcmd, hct⟩ := List.mem_filterMap.mp (ho.subset ht)
  have hiss := Sys.submitted_issued hr i hi cmd hcmd t hct
  have hsub := (Sys.cmd hr).submittedEq i hi (.inr hm)
  rw [hq, List.append_nil] at hsub
  have hpass : cmd ∈ (Sys.passedOn a.world.sys.sent i).map (·.2) := by
    rw [((Sys.cmd hr).routedEq hn hm i hi).1, Sys.routeAll_map_snd, hsub]; exact hcmd
  obtain ⟨⟨b, cmd'⟩, hpm, rfl⟩ := List.mem_map.mp hpass
  exact ⟨b, cmd', hpm, hct, hiss⟩

theorem steps_stopped {cfg : World.Cfg T} {l : List World.Act} {w w' : World T} (h : worldSteps cfg w l = some w') (hm : w'.sys.mode ≠ .stopped) :
    w.sys.mode ≠ .stopped := by
  intro hs
  refine hm (worldSteps_induct (fun s => s.mode = .stopped) ?_ hs h)
  intro s x s' h1 h2
  exact Sys.stopped_step h2 h1

/-- The generic part: one call, one command, one response. -/
theorem answered_returns {cfg : World.Cfg T} {acts more1 more2 : List App.Act} {log log1 log2 : List World.Act} {a a1 a2 : App.State T}
    (h : App.Run cfg acts log a) (h1 : App.Run cfg (acts ++ more1) (log ++ log1) a1)
    (h2 : App.Run cfg (acts ++ more1 ++ more2) (log ++ log1 ++ log2) a2) {k i t : Nat} {j j2 : Job} {c : Call}
    (hk : a.jobs[k]? = some j) (hm : j.made = .call i (do let _ ← Session.call c; pure () : Prog Unit))
    (hh : .handed c (.ok t) ∈ j.events) (hx : c.expectsResponse = true) (hq : (a.world.sys.clients i).queue = [])
    (hn : a.world.sys.nClients ≤ 2 ^ 64) {b : BrokerAddress} {pre post : List (MessageCommand × Bytes)} {v : MessageCommand}
    {bytes part : Bytes} (hsent : HasSent b log (pre ++ (v, bytes) :: post) part) (hnew : (a.world.rx b).out.length ≤ pre.length)
    {inb : Inbound} (hv : Inbound.ofCommand v = .ok inb) {out : Outbound} (hi : a.world.sys.issued[t]? = some (i, out))
    (ha : Sys.Answers out inb) (hne : inb ≠ .connected) (hpolls : pre.length < (a.world.rx b).out.length + log1.countP (World.Act.polls b))
    (hserved : (a1.world.sys.conns b).outbox.length ≤ log2.countP (World.Act.handles b))
    (hk2 : a2.jobs[k]? = some j2) (hl : j2.live = true) (hstop : a2.world.sys.mode ≠ .stopped) :
    ∃ n, n ≤ 2 ∧ ∃ a' j' o, App.Run cfg (acts ++ more1 ++ more2 ++ List.replicate n (.run k)) (log ++ log1 ++ log2) a' ∧
      a'.jobs[k]? = some j' ∧ j'.made = j.made ∧ j'.ended = some o ∧ a'.world.sys = a2.world.sys ∧ .handed c (.ok t) ∈ j'.events := by
  have w1 : worldSteps cfg a.world log1 = some a1.world := run_steps_of (run_world h) (run_world h1)
  have w2 : worldSteps cfg a1.world log2 = some a2.world := run_steps_of (run_world h1) (run_world h2)
  have hs0 := steps_stopped w1 (steps_stopped w2 hstop)
  have hj := List.mem_of_getElem? hk
  obtain ⟨b', cmd, p1, p2, p3⟩ := handed_passed h hj (within h j hj i _ hm).1 hh hx hs0 hn hq
  rw [hi] at p3
  have hco : out = cmd.out := (Prod.mk.inj (Option.some.inj p3)).2
  subst hco
  have hd := C126_completes (run_world h) w1 w2 hsent hnew p1 p2 hv ha hne hpolls hserved
  obtain ⟨j', g1, g2, g3⟩ := stays h hk (post := more1 ++ more2) (by rw [← List.append_assoc]; exact h2)
  rw [hk2] at g1
  cases g1
  obtain ⟨n, hn2, a', j', o, r1, r2, r3, r4, r5⟩ := one_returns h2 hk2 hl (g2.trans hm) (g3.subset hh) hd
  obtain ⟨j'', g4, _, g5⟩ := stays h2 hk2 r1
  rw [r2] at g4
  cases g4
  exact ⟨n, hn2, a', j', o, r1, r2, r3.trans g2, r4, r5, g5.subset (g3.subset hh)⟩

/-- A call that hands over one command makes one request. -/
theorem one_request {c c' : Call} {evs : List Ev} {o : Outcome Unit} (hr : Runs (do let _ ← Session.call c; pure () : Prog Unit) evs o) {t t' : Nat}
    (h : .handed c (.ok t) ∈ evs) (h' : .handed c' (.ok t') ∈ evs) : t' = t := by
  have key : ∀ {x evs}, Runs (Session.call c) evs x → .handed c (.ok t) ∈ evs → .handed c' (.ok t') ∈ evs → t' = t := by
    intro x evs hr h h'
    rcases runs_call.mp hr with ⟨hev, _⟩ | ⟨u, inp, hev, _⟩
    · rw [hev] at h; simp at h
    · rw [hev] at h h'
      simp only [List.mem_cons, Ev.handed.injEq, List.not_mem_nil, or_false, reduceCtorEq] at h h'
      obtain ⟨_, h⟩ := h
      obtain ⟨_, h'⟩ := h'
      cases h; cases h'; rfl
  rcases runs_bind.mp hr with ⟨tr1, tr2, r, hev, h1, h2⟩ | ⟨e, he, rfl⟩ | ⟨hp, _⟩
  · rw [runs_pure] at h2
    obtain ⟨rfl, rfl⟩ := h2
    rw [List.append_nil] at hev
    rw [← hev] at h1
    exact key h1 h h'
  · exact key he h h'
  · exact (runs_call_panic hp).elim

/-- **C128.**  A `send` of the application has handed over its message, and the engine has taken it.  The broker has sent a receipt with
the sequence id of that `SEND` (`pre` is what it sent before), not read yet.  Once the connection has polled its socket often enough to
read it, and the engine has handled what was passed to it, the call returns `Ok` in at most two steps of its own, whatever else happened
meanwhile: provided the call was not dropped, the instance has not stopped, and no other producer of the instance had a send with the same
sequence id outstanding while this one was. -/
theorem C128_send {cfg : World.Cfg T} {acts more1 more2 : List App.Act} {log log1 log2 : List World.Act} {a a1 a2 : App.State T}
    (h : App.Run cfg acts log a) (h1 : App.Run cfg (acts ++ more1) (log ++ log1) a1)
    (h2 : App.Run cfg (acts ++ more1 ++ more2) (log ++ log1 ++ log2) a2) {k i t : Nat} {j j2 : Job} {V : Type}
    {serialize : V → Option Bytes} {m : V} {payload : Bytes} (hk : a.jobs[k]? = some j) (hm : j.made = .call i (send serialize m))
    (hh : .handed (.sendMessage payload) (.ok t) ∈ j.events) (hq : (a.world.sys.clients i).queue = [])
    (hn : a.world.sys.nClients ≤ 2 ^ 64) {b : BrokerAddress} {pre post : List (MessageCommand × Bytes)} {v : MessageCommand}
    {bytes part : Bytes} (hsent : HasSent b log (pre ++ (v, bytes) :: post) part) (hnew : (a.world.rx b).out.length ≤ pre.length)
    {r : SendReceipt} (hv : Inbound.ofCommand v = .ok (.sendReceipt r)) {s : Send} (hi : a.world.sys.issued[t]? = some (i, .send s))
    (hr : r.sequenceId = s.sequenceId) (hpolls : pre.length < (a.world.rx b).out.length + log1.countP (World.Act.polls b))
    (hserved : (a1.world.sys.conns b).outbox.length ≤ log2.countP (World.Act.handles b))
    (hk2 : a2.jobs[k]? = some j2) (hl : j2.live = true) (hstop : a2.world.sys.mode ≠ .stopped)
    (hclash : ¬ SequenceClash cfg (log ++ log1 ++ log2) a2.world.sys i t) (hsq : (Sys.idsOf Sys.sequenceIdOf a2.world.sys.issued i).length ≤ 2 ^ 64) :
    ∃ n, n ≤ 2 ∧ ∃ log' a' j', App.Run cfg (acts ++ more1 ++ more2 ++ List.replicate n (.run k)) log' a' ∧ a'.jobs[k]? = some j' ∧
      j'.ended = some (.ok ()) := by
  have hj := List.mem_of_getElem? hk
  obtain ⟨q, hw⟩ := within_events h hj hm
  unfold send at hm hw
  cases hs : serialize m with
  | none =>
    rw [hs] at hw
    rw [(within_nothing hw).1] at hh; cases hh
  | some payload' =>
    rw [hs] at hw hm
    have hp := within_hands hw _ _ hh
    cases hp
    obtain ⟨n, hn2, a', j', o, r1, r2, r3, r4, r5, r6⟩ :=
      answered_returns h h1 h2 hk hm hh rfl hq hn hsent hnew hv hi hr (by simp) hpolls hserved hk2 hl hstop
    refine ⟨n, hn2, _, a', j', r1, r2, ?_⟩
    by_cases ho : o = .ok ()
    · rw [r4, ho]
    · have hm' : j'.made = .call i (send serialize m) := by unfold send; rw [r3, hm, hs]
      rcases C118_send r1 (List.mem_of_getElem? r2) hm' r4 ho (by rw [r5]; exact hsq) with ⟨e1, _⟩ | ⟨_, e2 | ⟨_, t1, _, e3, e2⟩⟩
      · rw [hs] at e1; cases e1
      · rw [r5] at e2; exact absurd e2 hstop
      · rw [one_request (call_ran r1 (List.mem_of_getElem? r2) (r3.trans hm) r4).2.1 r6 e3, r5] at e2
        exact absurd e2 hclash

/-- C128 for `send_batch`. -/
theorem C128_send_batch {cfg : World.Cfg T} {acts more1 more2 : List App.Act} {log log1 log2 : List World.Act} {a a1 a2 : App.State T}
    (h : App.Run cfg acts log a) (h1 : App.Run cfg (acts ++ more1) (log ++ log1) a1)
    (h2 : App.Run cfg (acts ++ more1 ++ more2) (log ++ log1 ++ log2) a2) {k i t : Nat} {j j2 : Job} {V : Type}
    {serialize : V → Option Bytes} {ms : List V} {payloads : List Bytes} (hk : a.jobs[k]? = some j)
    (hm : j.made = .call i (sendBatch serialize ms)) (hh : .handed (.sendBatch payloads) (.ok t) ∈ j.events)
    (hq : (a.world.sys.clients i).queue = [])
    (hn : a.world.sys.nClients ≤ 2 ^ 64) {b : BrokerAddress} {pre post : List (MessageCommand × Bytes)} {v : MessageCommand}
    {bytes part : Bytes} (hsent : HasSent b log (pre ++ (v, bytes) :: post) part) (hnew : (a.world.rx b).out.length ≤ pre.length)
    {r : SendReceipt} (hv : Inbound.ofCommand v = .ok (.sendReceipt r)) {s : Send} (hi : a.world.sys.issued[t]? = some (i, .send s))
    (hr : r.sequenceId = s.sequenceId) (hpolls : pre.length < (a.world.rx b).out.length + log1.countP (World.Act.polls b))
    (hserved : (a1.world.sys.conns b).outbox.length ≤ log2.countP (World.Act.handles b))
    (hk2 : a2.jobs[k]? = some j2) (hl : j2.live = true) (hstop : a2.world.sys.mode ≠ .stopped)
    (hclash : ¬ SequenceClash cfg (log ++ log1 ++ log2) a2.world.sys i t) (hsq : (Sys.idsOf Sys.sequenceIdOf a2.world.sys.issued i).length ≤ 2 ^ 64) :
    ∃ n, n ≤ 2 ∧ ∃ log' a' j', App.Run cfg (acts ++ more1 ++ more2 ++ List.replicate n (.run k)) log' a' ∧ a'.jobs[k]? = some j' ∧
      j'.ended = some (.ok ()) := by
  have hj := List.mem_of_getElem? hk
  obtain ⟨q, hw⟩ := within_events h hj hm
  unfold sendBatch at hm hw
  cases hs : ms.mapM serialize with
  | none =>
    rw [hs] at hw
    rw [(within_nothing hw).1] at hh; cases hh
  | some payloads' =>
    rw [hs] at hw hm
    have hp := within_hands hw _ _ hh
    cases hp
    obtain ⟨n, hn2, a', j', o, r1, r2, r3, r4, r5, r6⟩ :=
      answered_returns h h1 h2 hk hm hh rfl hq hn hsent hnew hv hi hr (by simp) hpolls hserved hk2 hl hstop
    refine ⟨n, hn2, _, a', j', r1, r2, ?_⟩
    by_cases ho : o = .ok ()
    · rw [r4, ho]
    · have hm' : j'.made = .call i (sendBatch serialize ms) := by unfold sendBatch; rw [r3, hm, hs]
      rcases C118_send_batch r1 (List.mem_of_getElem? r2) hm' r4 ho (by rw [r5]; exact hsq) with ⟨e1, _⟩ | ⟨_, e2 | ⟨_, t1, _, e3, e2⟩⟩
      · rw [hs] at e1; cases e1
      · rw [r5] at e2; exact absurd e2 hstop
      · rw [one_request (call_ran r1 (List.mem_of_getElem? r2) (r3.trans hm) r4).2.1 r6 e3, r5] at e2
        exact absurd e2 hclash

/-- C128 for `ack`: any `ACK_RESPONSE` will do, if no other acknowledgement was outstanding in the instance while this one was. -/
theorem C128_ack {cfg : World.Cfg T} {acts more1 more2 : List App.Act} {log log1 log2 : List World.Act} {a a1 a2 : App.State T}
    (h : App.Run cfg acts log a) (h1 : App.Run cfg (acts ++ more1) (log ++ log1) a1)
    (h2 : App.Run cfg (acts ++ more1 ++ more2) (log ++ log1 ++ log2) a2) {k i t : Nat} {j j2 : Job} {id : MessageId}
    (hk : a.jobs[k]? = some j) (hm : j.made = .call i (ack id)) (hh : .handed (.ack id) (.ok t) ∈ j.events)
    (hq : (a.world.sys.clients i).queue = [])
    (hn : a.world.sys.nClients ≤ 2 ^ 64) {b : BrokerAddress} {pre post : List (MessageCommand × Bytes)} {v : MessageCommand}
    {bytes part : Bytes} (hsent : HasSent b log (pre ++ (v, bytes) :: post) part) (hnew : (a.world.rx b).out.length ≤ pre.length)
    {r : AckReciept} (hv : Inbound.ofCommand v = .ok (.ackReciept r))
    (hpolls : pre.length < (a.world.rx b).out.length + log1.countP (World.Act.polls b))
    (hserved : (a1.world.sys.conns b).outbox.length ≤ log2.countP (World.Act.handles b))
    (hk2 : a2.jobs[k]? = some j2) (hl : j2.live = true) (hstop : a2.world.sys.mode ≠ .stopped)
    (hother : ∀ t' i' acks, t' ≠ t → a2.world.sys.issued[t']? = some (i', .ack acks) → ¬ Together cfg (log ++ log1 ++ log2) t t') :
    ∃ n, n ≤ 2 ∧ ∃ log' a' j', App.Run cfg (acts ++ more1 ++ more2 ++ List.replicate n (.run k)) log' a' ∧ a'.jobs[k]? = some j' ∧
      j'.ended = some (.ok ()) := by
  have hj := List.mem_of_getElem? hk
  obtain ⟨core, hcore⟩ : ∃ core : Client, a.world.sys.issued[t]? = some (i, (core.issue (.ack id)).2) := by
    obtain ⟨ev, hev, he⟩ := List.mem_filterMap.mp hh
    split at he
    · cases he
      exact (seen h j hj).events i (within h j hj i _ hm).1 _ _ hev rfl
    · cases he
  obtain ⟨n, hn2, a', j', o, r1, r2, r3, r4, r5, r6⟩ :=
    answered_returns h h1 h2 hk hm hh rfl hq hn hsent hnew hv hcore (by simp [Client.issue, Sys.Answers]) (by simp) hpolls hserved hk2 hl hstop
  refine ⟨n, hn2, _, a', j', r1, r2, ?_⟩
  by_cases ho : o = .ok ()
  · rw [r4, ho]
  · have hm' := r3.trans hm
    rcases C118_ack r1 (List.mem_of_getElem? r2) hm' r4 ho with ⟨_, e2 | ⟨t1, t2, i2, acks', e0, e1, e2, e3⟩⟩
    · rw [r5] at e2; exact absurd e2 hstop
    · rw [one_request (call_ran r1 (List.mem_of_getElem? r2) hm' r4).2.1 r6 e0] at e1 e3
      rw [r5] at e2
      exact absurd e3 (hother _ _ _ e1 e2)

end Neutron.Props
