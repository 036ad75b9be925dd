import Verif.Proof.Together
import Verif.Props.App
import Verif.Props.Acks
import Verif.Props.Confirmed

/-!
# What the application's calls on an existing client say: C117, C118
-/

namespace Neutron.App

open Neutron World

variable {T : Type}

theorem sysSteps_stopped {cfg : Sys.Cfg} {as : List Sys.Act} : ∀ {s s' : Sys.State}, sysSteps cfg s as = some s' → s.mode = .stopped →
    s'.mode = .stopped := by
  induction as with
  | nil => intro s s' h hm; simp only [sysSteps, Option.some.injEq] at h; rw [← h]; exact hm
  | cons a as ih =>
    intro s s' h hm
    simp only [sysSteps] at h
    cases h1 : Sys.step cfg s a with
    | none => simp [h1] at h
    | some v => simp only [h1] at h; exact ih h (Sys.stopped_step h1 hm)

/-- Commands of the call have been refused only if the instance has stopped. -/
def RefusedWhy (s : Sys.State) (j : Job) : Prop :=
  ∀ (core : Client) (c : Call) (e : NeutronError), SetupEv.did core (.handed c (.err e)) ∈ j.trace → s.mode = .stopped

/-- A command of a call was refused only by an instance that has stopped. -/
theorem refused_stopped {cfg : World.Cfg T} {acts : List Act} {log : List World.Act} {a : State T} (h : Run cfg acts log a) :
    ∀ j ∈ a.jobs, RefusedWhy a.world.sys j := by
  refine job_induct RefusedWhy ?_ ?_ ?_ (fun _ _ h => h) h
  · intro s a s' j hr hq hs core c e hm
    exact Sys.stopped_step hs (hq core c e hm)
  · intro s c hr hc core c' e hm
    cases c <;> simp [Start.job] at hm
  · intro s s' j as hr hq hl ha hs hq' core c e hm
    have old : SetupEv.did core (.handed c (.err e)) ∈ j.trace → s'.mode = .stopped := hq' core c e
    unfold Job.after at hm
    split at hm
    · simp only [List.mem_append, List.mem_singleton, reduceCtorEq, or_false] at hm
      exact old hm
    · split at hm
      · simp only [List.mem_append, List.mem_singleton, reduceCtorEq, or_false] at hm
        exact old hm
      · simp only [List.mem_append, List.mem_singleton, reduceCtorEq, or_false] at hm
        exact old hm
      · exact old hm
    · rename_i c0 call k k' i hp hc
      split at hm
      · exact old hm
      · rename_i tok hh
        simp only [List.mem_append, List.mem_singleton, SetupEv.did.injEq, Ev.handed.injEq] at hm
        rcases hm with hm | ⟨_, _, hm⟩
        · exact old hm
        · split at hm
          · cases hm
          · rename_i he
            have hst : s.mode = .stopped := by
              unfold Sys.engineEnd at he
              split at he
              · assumption
              · simp at he
            exact (sysSteps_stopped hs) hst
    · split at hm
      · simp only [List.mem_append, List.mem_singleton, SetupEv.did.injEq, reduceCtorEq, and_false, or_false] at hm
        exact old hm
      · exact old hm
    · exact old hm
    · exact old hm

/-- A call on a client that exists, and ended: its program ran, on that client, and what it saw is what happened. -/
theorem call_ran {cfg : World.Cfg T} {acts : List Act} {log : List World.Act} {a : State T} (h : Run cfg acts log a) {j : Job}
    (hj : j ∈ a.jobs) {i : Nat} {p : Prog Unit} (hm : j.made = .call i p) {o : Outcome Unit} (he : j.ended = some o) :
    j.client = some i ∧ Runs p j.events o ∧ ∀ ev ∈ j.events, Sys.Fits a.world.sys i ev := by
  have hk := kind h j hj
  cases hk with
  | missing _ _ _ hm' => rcases hm' with ⟨b, h1, _⟩ | ⟨b, h1, _⟩ <;> (rw [hm] at h1; cases h1)
  | consumer b name topic subscription hb hm' => rw [hm] at hm'; cases hm'
  | producer b name topic hb hm' => rw [hm] at hm'; cases hm'
  | call i' p' core evs hm' hc hp ht hs =>
    rw [hm] at hm'
    cases hm'
    have hev : j.events = evs := Props.events_of (pre := []) ht (by simp)
    refine ⟨hc, ?_, fun ev hx => ?_⟩
    · have hr := runs_of h hj he
      rw [hs, ht] at hr
      rw [hev]
      generalize htr : evs.map (SetupEv.did core) = tr at hr
      cases hr with
      | session _ _ _ evs' r tr' _ hp hk =>
        cases hk
        rw [List.append_nil] at htr
        rw [Props.did_inj htr]
        exact hp
    · refine (seen h j hj).events i hc core ev ?_
      rw [ht]
      rw [hev] at hx
      exact List.mem_map.mpr ⟨_, hx, rfl⟩

end Neutron.App

namespace Neutron.Props

open Neutron Neutron.World Neutron.App Session

variable {T : Type}

/-- A request is cancelled only when the engine has stopped or another request was outstanding at the same time that the same response
answers. -/
theorem C118_request {cfg : World.Cfg T} {log : List World.Act} {w : World T} (h : World.Run cfg log w) {t : Nat}
    (ho : (t, Sys.TokResult.cancelled) ∈ w.sys.outcomes) : w.sys.mode = .stopped ∨ ∃ i', DisplacedBy cfg log w.sys t i' := by
  by_cases hm : w.sys.mode = .stopped
  · exact .inl hm
  · exact .inr (displaced_of_cancelled h hm ho)

/-- One call of the application that hands over one command and waits for its response. -/
theorem one_call {cfg : World.Cfg T} {acts : List App.Act} {log : List World.Act} {a : App.State T} (h : App.Run cfg acts log a)
    {j : Job} (hj : j ∈ a.jobs) {i : Nat} {c : Call} (hx : c.expectsResponse = true)
    (hr : Runs (do let _ ← Session.call c; pure () : Prog Unit) j.events o) (hcl : j.client = some i)
    (hf : ∀ ev ∈ j.events, Sys.Fits a.world.sys i ev) :
    (o = .ok () ∧ ∃ t core e, a.world.sys.issued[t]? = some (i, (Client.issue core c).2) ∧ (t, Sys.TokResult.resolved e) ∈ a.world.sys.outcomes ∧
      Accepts cfg log a.world.sys i (Client.issue core c).2) ∨
    (o = .err .channelTerminated ∧ (a.world.sys.mode = .stopped ∨ ∃ t core i', .handed c (.ok t) ∈ j.events ∧
      a.world.sys.issued[t]? = some (i, (Client.issue core c).2) ∧ DisplacedBy cfg log a.world.sys t i')) := by
  have hreach := App.reachable h
  have key : ∀ {x}, Runs (Session.call c) j.events x →
      ((∃ r, x = .ok r) ∧ ∃ t core e, a.world.sys.issued[t]? = some (i, (Client.issue core c).2) ∧
        (t, Sys.TokResult.resolved e) ∈ a.world.sys.outcomes ∧ Accepts cfg log a.world.sys i (Client.issue core c).2) ∨
      (x = .err .channelTerminated ∧ (a.world.sys.mode = .stopped ∨ ∃ t core i', .handed c (.ok t) ∈ j.events ∧
      a.world.sys.issued[t]? = some (i, (Client.issue core c).2) ∧ DisplacedBy cfg log a.world.sys t i')) := by
    intro x hr
    rcases runs_call.mp hr with ⟨hev, rfl⟩ | ⟨t, inp, hev, rfl⟩
    · refine .inr ⟨rfl, .inl ?_⟩
      have : Ev.handed c (.err .channelTerminated) ∈ j.events := by rw [hev]; simp
      unfold Job.events at this
      obtain ⟨sev, hsev, hx⟩ := List.mem_filterMap.mp this
      cases sev with
      | allocated | registered => cases hx
      | did cl ev => cases hx; exact refused_stopped h j hj _ _ _ hsev
    · obtain ⟨core, hc⟩ := hf (.handed c (.ok t)) (by rw [hev]; simp) hx
      obtain ⟨res, hres, hreq⟩ := hf (.waited t c (c.resolve inp)) (by rw [hev]; simp)
      rw [hreq]
      cases res with
      | cancelled => exact .inr ⟨rfl, (C118_request (run_world h) hres).imp id fun ⟨i', hd⟩ => ⟨t, core, i', by rw [hev]; simp, hc, hd⟩⟩
      | resolved e =>
        obtain ⟨r, hok, _⟩ := C19_never_unresolvable hreach hres hc hx
        exact .inl ⟨⟨r, hok⟩, t, core, e, hc, hres, arrived (run_world h) hres hc⟩
  rcases runs_bind.mp hr with ⟨tr1, tr2, r, hev, h1, h2⟩ | ⟨e, he, rfl⟩ | ⟨hp, _⟩
  · rw [runs_pure] at h2
    obtain ⟨rfl, rfl⟩ := h2
    rw [List.append_nil] at hev
    rw [← hev] at h1
    rcases key h1 with ⟨_, g⟩ | ⟨g, _⟩
    · exact .inl ⟨rfl, g⟩
    · cases g
  · rcases key he with ⟨⟨r, hr⟩, _⟩ | ⟨g1, g2⟩
    · cases hr
    · cases g1; exact .inr ⟨rfl, g2⟩
  · exact (runs_call_panic hp).elim

theorem isCommand_type {v : MessageCommand} {ty : Nat} {t : Proto.MsgTy} {fields : List (Nat × List Proto.Val)} (h : IsCommand v ty t fields) :
    commandType v.command = ty := by
  obtain ⟨sub, h1, _⟩ := h
  unfold commandType
  rw [h1 1]
  rfl

theorem send_call {cfg : World.Cfg T} {acts : List App.Act} {log : List World.Act} {a : App.State T} (h : App.Run cfg acts log a)
    {j : Job} (hj : j ∈ a.jobs) {i : Nat} {V : Type} {serialize : V → Option Bytes} {m : V}
    (hm : j.made = .call i (send serialize m)) {o : Outcome Unit} (he : j.ended = some o) :
    (serialize m = none ∧ o = .err .serializationFailed) ∨ ∃ payload, serialize m = some payload ∧ j.client = some i ∧
      Runs (do let _ ← Session.call (.sendMessage payload); pure () : Prog Unit) j.events o ∧
      ∀ ev ∈ j.events, Sys.Fits a.world.sys i ev := by
  obtain ⟨h1, h2, h3⟩ := call_ran h hj hm he
  unfold send at h2
  cases hs : serialize m with
  | none => rw [hs, runs_ret] at h2; exact .inl ⟨rfl, h2.2⟩
  | some payload => rw [hs] at h2; exact .inr ⟨payload, rfl, h1, h2, h3⟩

theorem batch_call {cfg : World.Cfg T} {acts : List App.Act} {log : List World.Act} {a : App.State T} (h : App.Run cfg acts log a)
    {j : Job} (hj : j ∈ a.jobs) {i : Nat} {V : Type} {serialize : V → Option Bytes} {ms : List V}
    (hm : j.made = .call i (sendBatch serialize ms)) {o : Outcome Unit} (he : j.ended = some o) :
    (ms.mapM serialize = none ∧ o = .panic) ∨ ∃ payloads, ms.mapM serialize = some payloads ∧ j.client = some i ∧
      Runs (do let _ ← Session.call (.sendBatch payloads); pure () : Prog Unit) j.events o ∧
      ∀ ev ∈ j.events, Sys.Fits a.world.sys i ev := by
  obtain ⟨h1, h2, h3⟩ := call_ran h hj hm he
  unfold sendBatch at h2
  cases hs : ms.mapM serialize with
  | none => rw [hs, runs_ret] at h2; exact .inl ⟨rfl, h2.2⟩
  | some payloads => rw [hs] at h2; exact .inr ⟨payloads, rfl, h1, h2, h3⟩

/-- **C117.**  An application's `send` that returned `Ok`: the message could be serialised, the client made a `SEND` of it, and a
receipt with the sequence id of that `SEND` came over a socket. -/
theorem C117_send {cfg : World.Cfg T} {acts : List App.Act} {log : List World.Act} {a : App.State T} (h : App.Run cfg acts log a)
    {j : Job} (hj : j ∈ a.jobs) {i : Nat} {V : Type} {serialize : V → Option Bytes} {m : V}
    (hm : j.made = .call i (send serialize m)) (he : j.ended = some (.ok ())) :
    ∃ payload name id seq, serialize m = some payload ∧ Accepts cfg log a.world.sys i (.send (.single name id seq payload)) := by
  rcases send_call h hj hm he with ⟨_, h1⟩ | ⟨payload, h1, h2, h3, h4⟩
  · cases h1
  · rcases one_call h hj rfl h3 h2 h4 with ⟨_, t, core, e, _, _, g⟩ | ⟨g, _⟩
    · exact ⟨payload, _, _, _, h1, g⟩
    · cases g

/-- The same for `send_batch`. -/
theorem C117_send_batch {cfg : World.Cfg T} {acts : List App.Act} {log : List World.Act} {a : App.State T} (h : App.Run cfg acts log a)
    {j : Job} (hj : j ∈ a.jobs) {i : Nat} {V : Type} {serialize : V → Option Bytes} {ms : List V}
    (hm : j.made = .call i (sendBatch serialize ms)) (he : j.ended = some (.ok ())) :
    ∃ payloads name id seq, ms.mapM serialize = some payloads ∧ Accepts cfg log a.world.sys i (.send (.batch name id seq payloads)) := by
  rcases batch_call h hj hm he with ⟨_, h1⟩ | ⟨payloads, h1, h2, h3, h4⟩
  · cases h1
  · rcases one_call h hj rfl h3 h2 h4 with ⟨_, t, core, e, _, _, g⟩ | ⟨g, _⟩
    · exact ⟨payloads, _, _, _, h1, g⟩
    · cases g

/-- An `ack` that returned `Ok`: the client made an acknowledgement of exactly this message, and an acknowledgement response came over
a socket. -/
theorem C117_ack {cfg : World.Cfg T} {acts : List App.Act} {log : List World.Act} {a : App.State T} (h : App.Run cfg acts log a)
    {j : Job} (hj : j ∈ a.jobs) {i : Nat} {id : MessageId} (hm : j.made = .call i (ack id)) (he : j.ended = some (.ok ())) :
    ∃ consumer req, Accepts cfg log a.world.sys i (.ack [⟨consumer, id, req⟩]) := by
  obtain ⟨h1, h2, h3⟩ := call_ran h hj hm he
  rcases one_call h hj (c := .ack id) rfl h2 h1 h3 with ⟨_, t, core, e, _, _, g⟩ | ⟨g, _⟩
  · exact ⟨_, _, g⟩
  · cases g

/-- If brokers confirm only what they have received, and no other producer of the instance used the sequence id of one of this
producer's sends, then a send of the application that got its receipt has arrived: some broker has been sent the whole command with
exactly this message. -/
theorem received_call {cfg : World.Cfg T} {acts : List App.Act} {log : List World.Act} {a : App.State T} (h : App.Run cfg acts log a)
    (hv : World.Fits a.world) (hb : ConfirmsOnlyReceived cfg log) {j : Job} (hj : j ∈ a.jobs) {i : Nat} {c : Call}
    (hc : (∃ payload, c = .sendMessage payload) ∨ ∃ payloads, c = .sendBatch payloads)
    (hr : Runs (do let _ ← Session.call c; pure () : Prog Unit) j.events (.ok ())) (hcl : j.client = some i)
    (hf : ∀ ev ∈ j.events, Sys.Fits a.world.sys i ev)
    (hsq : (Sys.idsOf Sys.sequenceIdOf a.world.sys.issued i).length ≤ 2 ^ 64)
    (hoth : ∀ (t t' i' : Nat) (m m' : Send), a.world.sys.issued[t]? = some (i, .send m) → a.world.sys.issued[t']? = some (i', .send m') →
      m'.sequenceId = m.sequenceId → i' = i) :
    ∃ b v now core, Received (a.world.tx b).sent v ∧ IsCommand v (c.wire core).1 (c.wire core).2.1 (c.wire core).2.2 ∧
      c.wirePayload core now v.payload := by
  have hx : c.expectsResponse = true := by rcases hc with ⟨_, rfl⟩ | ⟨_, rfl⟩ <;> rfl
  have hsend : ∀ core : Client, ∃ m, (core.issue c).2 = .send m := by
    intro core
    rcases hc with ⟨_, rfl⟩ | ⟨_, rfl⟩ <;> exact ⟨_, rfl⟩
  rcases one_call h hj hx hr hcl hf with ⟨_, t, core, e, g1, g2, _⟩ | ⟨g, _⟩
  · obtain ⟨m, hm⟩ := hsend core
    obtain ⟨b, v, now, r1, r2, r3⟩ := C100_confirmed_is_received (run_world h) hv hb g1 hm g2 hsq
      (fun t' i' m' ht' hs => hoth t t' i' m m' (by rw [g1, hm]) ht' hs)
    exact ⟨b, v, now, core, r1, r2, r3⟩
  · cases g

/-- A `send` of the application that returned `Ok` has arrived, under the same assumptions. -/
theorem C117_send_received {cfg : World.Cfg T} {acts : List App.Act} {log : List World.Act} {a : App.State T} (h : App.Run cfg acts log a)
    (hv : World.Fits a.world) (hb : ConfirmsOnlyReceived cfg log) {j : Job} (hj : j ∈ a.jobs) {i : Nat} {V : Type}
    {serialize : V → Option Bytes} {m : V} (hm : j.made = .call i (send serialize m)) (he : j.ended = some (.ok ()))
    (hsq : (Sys.idsOf Sys.sequenceIdOf a.world.sys.issued i).length ≤ 2 ^ 64)
    (hoth : ∀ (t t' i' : Nat) (m m' : Send), a.world.sys.issued[t]? = some (i, .send m) → a.world.sys.issued[t']? = some (i', .send m') →
      m'.sequenceId = m.sequenceId → i' = i) :
    ∃ payload b v md, serialize m = some payload ∧ Received (a.world.tx b).sent v ∧ commandType v.command = 6 ∧ v.payload = some ⟨md, payload⟩ := by
  rcases send_call h hj hm he with ⟨_, h1⟩ | ⟨payload, h1, h2, h3, h4⟩
  · cases h1
  · obtain ⟨b, v, now, core, r1, r2, md, r3, _⟩ := received_call h hv hb hj (.inl ⟨_, rfl⟩) h3 h2 h4 hsq hoth
    exact ⟨payload, b, v, md, h1, r1, isCommand_type r2, r3⟩

/-- A `send_batch` of the application that returned `Ok` has arrived, under the same assumptions: the whole batch, in order. -/
theorem C117_batch_received {cfg : World.Cfg T} {acts : List App.Act} {log : List World.Act} {a : App.State T} (h : App.Run cfg acts log a)
    (hv : World.Fits a.world) (hb : ConfirmsOnlyReceived cfg log) {j : Job} (hj : j ∈ a.jobs) {i : Nat} {V : Type}
    {serialize : V → Option Bytes} {ms : List V} (hm : j.made = .call i (sendBatch serialize ms)) (he : j.ended = some (.ok ()))
    (hsq : (Sys.idsOf Sys.sequenceIdOf a.world.sys.issued i).length ≤ 2 ^ 64)
    (hoth : ∀ (t t' i' : Nat) (m m' : Send), a.world.sys.issued[t]? = some (i, .send m) → a.world.sys.issued[t']? = some (i', .send m') →
      m'.sequenceId = m.sequenceId → i' = i) :
    ∃ payloads b v md data, ms.mapM serialize = some payloads ∧ Received (a.world.tx b).sent v ∧ commandType v.command = 6 ∧
      v.payload = some ⟨md, data⟩ ∧
      ((∀ p ∈ payloads, p.length < 2147483648) → ∃ bs, BatchOf data bs [] ∧ bs.map (·.payload) = payloads) := by
  rcases batch_call h hj hm he with ⟨_, h1⟩ | ⟨payloads, h1, h2, h3, h4⟩
  · cases h1
  · obtain ⟨b, v, now, core, r1, r2, md, data, r3, _, r4⟩ := received_call h hv hb hj (.inr ⟨_, rfl⟩) h3 h2 h4 hsq hoth
    exact ⟨payloads, b, v, md, data, h1, r1, isCommand_type r2, r3, r4⟩

/-- The request `t` is a send of client `i`, and while it was outstanding so was a send, by another producer of the instance, with the same
sequence id. -/
def SequenceClash (cfg : World.Cfg T) (log : List World.Act) (s : Sys.State) (i t : Nat) : Prop :=
  ∃ (t' i' : Nat) (m m' : Send), i' ≠ i ∧ s.issued[t]? = some (i, .send m) ∧ s.issued[t']? = some (i', .send m') ∧
    m'.sequenceId = m.sequenceId ∧ Together cfg log t t'

theorem clash_of_displaced {cfg : World.Cfg T} {log : List World.Act} {s : Sys.State} (h : Sys.Reachable cfg.sys s) {i t i' : Nat} {m : Send}
    (hi : s.issued[t]? = some (i, .send m)) (hd : DisplacedBy cfg log s t i') (hsq : (Sys.idsOf Sys.sequenceIdOf s.issued i).length ≤ 2 ^ 64) :
    SequenceClash cfg log s i t := by
  obtain ⟨t', i0, out, out', h3, h1, h4, ⟨inb, h5, h6⟩, h7⟩ := hd
  rw [hi] at h1
  cases h1
  cases inb with
  | sendReceipt r =>
    cases out' with
    | send m' =>
      have hs : m'.sequenceId = m.sequenceId := h6.symm.trans h5
      refine ⟨t', i', m, m', ?_, hi, h4, hs, h7⟩
      rintro rfl
      exact h3 (idsOf_inj ((C44_unique h ((Sys.req h).issued _ _ _ hi).1).1 hsq) h4 hi (x := m.sequenceId) (by simp [Sys.sequenceIdOf, hs]) rfl)
    | _ => exact absurd h6 (by simp [Sys.Answers])
  | _ => exact absurd h5 (by simp [Sys.Answers])

/-- **C118.**  A `send` of the application does not fail without a reason: it returned an error only if the message could not be
serialised, the instance has stopped, or while its `SEND` was outstanding another producer of the instance had one outstanding with the same
sequence id.  It never panics. -/
theorem C118_send {cfg : World.Cfg T} {acts : List App.Act} {log : List World.Act} {a : App.State T} (h : App.Run cfg acts log a)
    {j : Job} (hj : j ∈ a.jobs) {i : Nat} {V : Type} {serialize : V → Option Bytes} {m : V}
    (hm : j.made = .call i (send serialize m)) {o : Outcome Unit} (he : j.ended = some o) (ho : o ≠ .ok ())
    (hsq : (Sys.idsOf Sys.sequenceIdOf a.world.sys.issued i).length ≤ 2 ^ 64) :
    (serialize m = none ∧ o = .err .serializationFailed) ∨
    (o = .err .channelTerminated ∧ (a.world.sys.mode = .stopped ∨
      ∃ payload t, serialize m = some payload ∧ .handed (.sendMessage payload) (.ok t) ∈ j.events ∧ SequenceClash cfg log a.world.sys i t)) := by
  rcases send_call h hj hm he with h1 | ⟨payload, h1, h2, h3, h4⟩
  · exact .inl h1
  · rcases one_call h hj rfl h3 h2 h4 with ⟨g, _⟩ | ⟨g1, g2⟩
    · exact absurd g ho
    · refine .inr ⟨g1, g2.imp id ?_⟩
      rintro ⟨t, core, i', hh, hc, hd⟩
      exact ⟨payload, t, h1, hh, clash_of_displaced (App.reachable h) hc hd hsq⟩

/-- The same for `send_batch`, which panics instead of reporting that a message cannot be serialised. -/
theorem C118_send_batch {cfg : World.Cfg T} {acts : List App.Act} {log : List World.Act} {a : App.State T} (h : App.Run cfg acts log a)
    {j : Job} (hj : j ∈ a.jobs) {i : Nat} {V : Type} {serialize : V → Option Bytes} {ms : List V}
    (hm : j.made = .call i (sendBatch serialize ms)) {o : Outcome Unit} (he : j.ended = some o) (ho : o ≠ .ok ())
    (hsq : (Sys.idsOf Sys.sequenceIdOf a.world.sys.issued i).length ≤ 2 ^ 64) :
    (ms.mapM serialize = none ∧ o = .panic) ∨
    (o = .err .channelTerminated ∧ (a.world.sys.mode = .stopped ∨
      ∃ payloads t, ms.mapM serialize = some payloads ∧ .handed (.sendBatch payloads) (.ok t) ∈ j.events ∧ SequenceClash cfg log a.world.sys i t)) := by
  rcases batch_call h hj hm he with h1 | ⟨payloads, h1, h2, h3, h4⟩
  · exact .inl h1
  · rcases one_call h hj rfl h3 h2 h4 with ⟨g, _⟩ | ⟨g1, g2⟩
    · exact absurd g ho
    · refine .inr ⟨g1, g2.imp id ?_⟩
      rintro ⟨t, core, i', hh, hc, hd⟩
      exact ⟨payloads, t, h1, hh, clash_of_displaced (App.reachable h) hc hd hsq⟩

/-- An `ack` of the application fails only if the instance has stopped or, while its acknowledgement was outstanding, another one was too. -/
theorem C118_ack {cfg : World.Cfg T} {acts : List App.Act} {log : List World.Act} {a : App.State T} (h : App.Run cfg acts log a)
    {j : Job} (hj : j ∈ a.jobs) {i : Nat} {id : MessageId} (hm : j.made = .call i (ack id)) {o : Outcome Unit} (he : j.ended = some o)
    (ho : o ≠ .ok ()) :
    o = .err .channelTerminated ∧ (a.world.sys.mode = .stopped ∨
      ∃ (t t' i' : Nat) (acks' : List Ack), .handed (.ack id) (.ok t) ∈ j.events ∧ t' ≠ t ∧ a.world.sys.issued[t']? = some (i', .ack acks') ∧
        Together cfg log t t') := by
  obtain ⟨h1, h2, h3⟩ := call_ran h hj hm he
  rcases one_call h hj (c := .ack id) rfl h2 h1 h3 with ⟨g, _⟩ | ⟨g1, g2⟩
  · exact absurd g ho
  · refine ⟨g1, g2.imp _root_.id ?_⟩
    rintro ⟨t, core, i', d0, d1, t', i0, out, out', d3, d2, d4, ⟨inb, d5, d6⟩, d7⟩
    rw [d1] at d2
    cases d2
    cases inb with
    | ackReciept r =>
      cases out' with
      | ack acks' => exact ⟨t, t', i', acks', d0, d3, d4, d7⟩
      | _ => exact absurd d6 (by simp [Sys.Answers])
    | _ => exact absurd d5 (by simp [Client.issue, Sys.Answers])

end Neutron.Props
