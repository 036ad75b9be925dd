import Verif.Proof.WorldCalls
import Verif.Props.Delivery
import Verif.Props.Receive
import Verif.Props.Wire

/-!
# From the bytes on a socket to the application: C70
-/

namespace Neutron.Props

open Neutron Neutron.World

variable {T : Type}

/-- The consumer is attached to `b` and the engine runs; or the engine has stopped. -/
def AttachedUntilStop (i : Nat) (b : BrokerAddress) (s : Sys.State) : Prop := Attached i b s ∨ s.mode = .stopped

theorem sysPath_trans {cfg : Sys.Cfg} {P : Sys.State → Prop} {s s' s'' : Sys.State} {as bs : List Sys.Act}
    (h1 : Sys.Path cfg P s as s') (h2 : Sys.Path cfg P s' bs s'') : Sys.Path cfg P s (as ++ bs) s'' := by
  induction h2 with
  | nil _ => simpa using h1
  | snoc _ hs hP ih => rw [← List.append_assoc]; exact .snoc ih hs hP

theorem worldPath_end {cfg : World.Cfg T} {P : World T → Prop} {w w' : World T} {as : List World.Act}
    (hp : World.Path cfg P w as w') : P w' := by
  cases hp with
  | nil h => exact h
  | snoc _ _ h => exact h

theorem worldPath_start {cfg : World.Cfg T} {P : World T → Prop} {w w' : World T} {as : List World.Act}
    (hp : World.Path cfg P w as w') : P w := by
  induction hp with
  | nil h => exact h
  | snoc _ _ _ ih => exact ih

/-- A continuation of the whole is a continuation of its parts. -/
theorem path_proj {cfg : World.Cfg T} {P : Sys.State → Prop}
    (hP : ∀ t t' i c, Sys.step cfg.sys t (.beginCall i c) = some t' → P t → P t') {acts as : List World.Act} {w w' : World T}
    {log : List Sys.Act} {appLog : List Consumer.Act} (h : Proj cfg acts w log appLog)
    (hp : World.Path cfg (fun w => P w.sys) w as w') :
    ∃ new bs, Proj cfg (acts ++ as) w' (log ++ new) (appLog ++ bs) ∧ Sys.Path cfg.sys P w.sys new w'.sys := by
  induction hp with
  | nil hw => exact ⟨[], [], by simpa using h, .nil hw⟩
  | snoc hp hs hw ih =>
    obtain ⟨new, bs, h1, h2⟩ := ih
    obtain ⟨new', bs', h3, h4⟩ := h1.step hs
    refine ⟨new ++ new', bs ++ bs', by simpa using h3, sysPath_trans h2 (h4 P hP (worldPath_end hp) hw)⟩

theorem begin_attached {cfg : Sys.Cfg} (j : Nat) (b : BrokerAddress) (t t' : Sys.State) (i : Nat) (c : Call)
    (hs : Sys.step cfg t (.beginCall i c) = some t') (h : AttachedUntilStop j b t) : AttachedUntilStop j b t' := by
  cases Sys.step_cases hs with
  | request | oneway =>
    rcases h with ⟨h1, h2, h3, h4⟩ | h
    · refine .inl ⟨h1, ?_, ?_, h4⟩ <;> (simp only [Sys.setClient_clients]; split <;> simp_all)
    · exact .inr h

/-- What a client has received while attached until the engine stopped. -/
theorem received_until_stop {cfg : Sys.Cfg} {s s' : Sys.State} {as : List Sys.Act} {i : Nat} {b : BrokerAddress}
    (h : Sys.Reachable cfg s) (hi : i < s.nClients) (hp : Sys.Path cfg (AttachedUntilStop i b) s as s') :
    received s' i <+: received s i ++ underway s i b ++ Sys.addressedTo (UInt64.ofNat i) (Sys.socketMessages as b) ∧ i < s'.nClients ∧
    (s'.mode ≠ .stopped → Sys.Path cfg (Attached i b) s as s') := by
  induction hp with
  | nil hP =>
    refine ⟨⟨underway s i b, by simp [Sys.socketMessages, Sys.addressedTo]⟩, hi, fun hm => .nil ?_⟩
    rcases hP with hP | hP
    · exact hP
    · exact absurd hP hm
  | @snoc s1 s2 as a hp hs hP ih =>
    obtain ⟨ih1, ih2, ih3⟩ := ih
    have hr1 : Sys.Reachable cfg s1 := path_reachable h hp
    have hlt : i < s2.nClients := Nat.lt_of_lt_of_le ih2 (Sys.nClients_mono hs)
    by_cases hm : s2.mode = .stopped
    · refine ⟨?_, hlt, fun h => absurd hm h⟩
      have hrec : received s2 i = received s1 i := by
        have hid : (s2.clients i).core.clientId = (s1.clients i).core.clientId := by
          rw [(Sys.wf (hr1.step hs)).ids i hlt, (Sys.wf hr1).ids i ih2]
        unfold received
        rw [hid]
        cases Sys.channel_step (Sys.blank hr1) hs i with
        | same hq ht => rw [hq, ht]
        | taken e q ha h0 hq ht => rw [hq, ht, h0]; simp
        | added e hq ht hv he he' hm' => exact absurd hm hm'
      rw [hrec, socketMessages_append, Sys.addressedTo_append, ← List.append_assoc]
      exact ih1.trans (List.prefix_append _ _)
    · have hA : Attached i b s2 := by
        rcases hP with hP | hP
        · exact hP
        · exact absurd hP hm
      have hm1 : s1.mode ≠ .stopped := fun hx => hm (Sys.stopped_step hs hx)
      have hpa := (ih3 hm1).snoc hs hA
      refine ⟨?_, hlt, fun _ => hpa⟩
      exact ⟨underway s2 i b, C25_exactly_once_in_order h hpa⟩

theorem commandsOf_expected (cs : List MessageCommand) (part : Bytes) (closed : Bool) :
    commandsOf (Framed.expected cs part closed) = cs := by
  have h1 : commandsOf (cs.map Poll.item) = cs := by
    induction cs with
    | nil => rfl
    | cons c cs ih => exact congrArg (c :: ·) ih
  have h2 : ∀ x y, commandsOf (x ++ y) = commandsOf x ++ commandsOf y := fun x y => List.filterMap_append
  unfold Framed.expected
  rw [h2, h1]
  cases closed <;> cases part <;> simp [commandsOf]

/-- If nothing for the consumer had been read before, what has reached it is the first part of what was read for it. -/
theorem reached_and_underway {cfg : World.Cfg T} {acts as : List World.Act} {w w' : World T} {b : BrokerAddress} (h : World.Run cfg acts w)
    (hi : cfg.me < w.sys.nClients) (h0 : ∀ b', readFor w cfg.me b' = [])
    (hp : World.Path cfg (fun w => AttachedUntilStop cfg.me b w.sys) w as w') :
    ∃ log appLog, Proj cfg (acts ++ as) w' log appLog ∧ Consumer.delivered appLog <+: readFor w' cfg.me b ∧
      (w'.sys.mode ≠ .stopped → (w'.sys.conns b).outbox = [] → Consumer.delivered appLog = readFor w' cfg.me b) ∧
      (w'.sys.mode ≠ .stopped → received w'.sys cfg.me ++ underway w'.sys cfg.me b = readFor w' cfg.me b) := by
  obtain ⟨log, appLog, hpr⟩ := proj h
  obtain ⟨new, bs, hpr', hsp⟩ := path_proj (begin_attached cfg.me b) hpr hp
  have hr : Sys.Reachable cfg.sys w.sys := ⟨_, hpr.sys⟩
  have hr' : Sys.Reachable cfg.sys w'.sys := ⟨_, hpr'.sys⟩
  obtain ⟨k1, k2, k3⟩ := received_until_stop hr hi hsp
  have hid := (Sys.wf hr).ids _ hi
  have hid' := (Sys.wf hr').ids _ k2
  have hno : ∀ m b', m ∈ Sys.socketMessages log b' → m.consumerId ≠ UInt64.ofNat cfg.me := by
    intro m b' hm hc
    rw [hpr.socket b'] at hm
    have : m ∈ readFor w cfg.me b' := by
      unfold readFor Sys.addressedTo
      rw [List.mem_filter]; exact ⟨hm, by simpa using hc⟩
    rw [h0 b'] at this; cases this
  have e1 : received w.sys cfg.me = [] := by
    unfold received Sys.addressedTo
    rw [List.filter_eq_nil_iff, hid]
    intro m hm
    obtain ⟨b', hb'⟩ := Sys.message_source hpr.sys hm
    simpa using hno m b' hb'
  have e2 : underway w.sys cfg.me b = [] := by
    unfold underway Sys.addressedTo
    rw [List.filter_eq_nil_iff, hid]
    intro m hm
    have : m ∈ Sys.socketMessages log b := by
      unfold Sys.messagesIn at hm
      rw [List.mem_filterMap] at hm
      obtain ⟨e, he, hem⟩ := hm
      have he' : e.inb = .message m := by
        cases hx : e.inb <;> simp [hx] at hem
        rw [hem]
      have h3 : e ∈ (w.sys.conns b).reads := by rw [((Sys.conn hr).ok b).events]; exact List.mem_append_right _ he
      obtain ⟨v, hv1, hv2⟩ := Sys.run_reads hpr.sys b e (.inl h3)
      unfold Sys.socketMessages
      rw [List.mem_filterMap]
      exact ⟨_, hv1, by simp [hv2, he']⟩
    simpa using hno m b this
  have e3 : Sys.addressedTo (UInt64.ofNat cfg.me) (Sys.socketMessages new b) = readFor w' cfg.me b := by
    have := hpr'.socket b
    unfold readFor
    rw [← this, socketMessages_append, Sys.addressedTo_append, hpr.socket b]
    have := h0 b
    unfold readFor at this
    rw [this, List.nil_append]
  have e4 : Consumer.delivered (appLog ++ bs) = received w'.sys cfg.me := by
    rw [hpr'.delivered]
    unfold received Sys.addressedTo
    symm
    rw [List.filter_eq_self]
    intro m hm
    unfold Sys.messagesIn at hm
    rw [List.mem_filterMap] at hm
    obtain ⟨e, he, hem⟩ := hm
    have he' : e.inb = .message m := by
      cases hx : e.inb <;> simp [hx] at hem
      rw [hem]
    have := C26_ids hr' k2 he (id := m.consumerId) (by rw [he']; rfl)
    simpa using this.symm
  refine ⟨log ++ new, appLog ++ bs, hpr', ?_, fun hm ho => ?_, fun hm => ?_⟩
  · rw [e1, e2, e3] at k1
    rw [e4]; simpa using k1
  · have := C25_all_received hr (k3 hm) e2 ho
    rw [e1, e3] at this
    rw [e4]; simpa using this
  · have := C25_exactly_once_in_order hr (k3 hm)
    rw [e1, e2, e3] at this
    simpa using this

theorem reached {cfg : World.Cfg T} {acts as : List World.Act} {w w' : World T} {b : BrokerAddress} (h : World.Run cfg acts w)
    (hi : cfg.me < w.sys.nClients) (h0 : ∀ b', readFor w cfg.me b' = [])
    (hp : World.Path cfg (fun w => AttachedUntilStop cfg.me b w.sys) w as w') :
    ∃ log appLog, Proj cfg (acts ++ as) w' log appLog ∧ Consumer.delivered appLog <+: readFor w' cfg.me b ∧
      (w'.sys.mode ≠ .stopped → (w'.sys.conns b).outbox = [] → Consumer.delivered appLog = readFor w' cfg.me b) := by
  obtain ⟨log, appLog, h1, h2, h3, _⟩ := reached_and_underway h hi h0 hp
  exact ⟨log, appLog, h1, h2, h3⟩

theorem readFor_prefix {cfg : World.Cfg T} {acts : List World.Act} {w : World T} {log : List Sys.Act} {appLog : List Consumer.Act}
    (h : Proj cfg acts w log appLog) {b : BrokerAddress} {frames : List (MessageCommand × Bytes)} {part : Bytes} {closed : Bool}
    (hs : Sends b acts frames part closed) (i : Nat) :
    readFor w i b <+: Sys.addressedTo (UInt64.ofNat i) (messagesOf (frames.map (·.1))) := by
  obtain ⟨reads, hr1, hr2, hr3⟩ := hs.reads
  have := C02_chunking_safety frames hs.whole part hs.partial' closed reads hr1 hr2 (readEvents b acts) hr3
  rw [← h.rx b] at this
  have h2 : commandsOf (w.rx b).out <+: commandsOf _ := this.filterMap _
  rw [commandsOf_expected] at h2
  exact (h2.filterMap _).filter _

/-- Once all that arrived has been read, the messages read for a client are those sent to it. -/
theorem read_all {cfg : World.Cfg T} {acts : List World.Act} {w' : World T} {log : List Sys.Act} {appLog : List Consumer.Act}
    (hpr : Proj cfg acts w' log appLog) {b : BrokerAddress} {frames : List (MessageCommand × Bytes)} {part : Bytes}
    (hs : HasSent b acts frames part) (hread : (Framed.pollNext (w'.rx b).framed (w'.rx b).socket).1 = .pending) {i : Nat} :
    readFor w' i b = Sys.addressedTo (UInt64.ofNat i) (messagesOf (frames.map (·.1))) := by
  unfold readFor
  suffices hout : (w'.rx b).out = frames.map fun f => Poll.item f.1 by
    rw [hout]
    have := commandsOf_expected (frames.map (·.1)) [] false
    simp only [Framed.expected, Bool.false_eq_true, if_false, List.append_nil, List.map_map] at this
    rw [← this]; rfl
  have i0 := Framed.inv_init (all := frames) (part := part) false _ hs.reads.1 hs.reads.2
  have i1 := Framed.inv_run hs.whole hs.partial' (readEvents b acts) [] {} (by simpa [arrived] using i0)
  have i2 : Framed.Inv frames part false [] (w'.rx b) := by rw [hpr.rx b]; exact i1
  have hst : (w'.rx b).stopped = false := by
    cases i2 with
    | live _ _ _ _ _ hs => exact hs
    | failed hc => cases hc
    | stopped hc => cases hc
  have hpo := (poll_out hst).1
  rw [hread] at hpo
  rcases (Framed.inv_poll hs.whole hs.partial' i2).2 with hc | hc | hc | hc
  · rw [hpo] at hc; simp at hc
  · rw [hst] at hc; cases hc
  · exact absurd rfl hc
  · exact hc.2

/-! ## C70 -/

/-- From bytes to the application.  A consumer is attached to broker `b`, with nothing read for it so far.  Whatever happens
from then on — `b` sending frames cut up in any way, other brokers sending anything, other clients doing anything, any schedule,
failures, the end of the connection, the end of the engine — what its calls (other than `next_batch`) have handed out is the
beginning of what the messages addressed to it, in the order `b` sent them, mean to the application. -/
theorem C70_socket_to_application {cfg : World.Cfg T} {acts as : List World.Act} {w w' : World T} {b : BrokerAddress}
    {frames : List (MessageCommand × Bytes)} {part : Bytes} {closed : Bool} (h : World.Run cfg acts w)
    (hi : cfg.me < w.sys.nClients) (h0 : ∀ b', readFor w cfg.me b' = [])
    (hp : World.Path cfg (fun w => AttachedUntilStop cfg.me b w.sys) w as w')
    (hs : Sends b (acts ++ as) frames part closed) (hj : ∀ n, Consumer.Job.batch n ∉ callsMade (acts ++ as)) :
    w'.app.handedOut <+:
      (Sys.addressedTo (UInt64.ofNat cfg.me) (messagesOf (frames.map (·.1)))).flatMap (Consumer.yields cfg.app.decode) := by
  obtain ⟨log, appLog, hpr, hd, _⟩ := reached h hi h0 hp
  have h1 := C48_in_order hpr.app (fun n => by rw [hpr.jobs]; exact hj n)
  refine h1.trans ?_
  obtain ⟨r, hr⟩ := hd.trans (readFor_prefix hpr hs cfg.me)
  rw [← hr, List.flatMap_append]
  exact List.prefix_append _ _

/-- And once everything has been read, passed on and asked for, all of it has been handed out. -/
theorem C70_everything_arrives {cfg : World.Cfg T} {acts as : List World.Act} {w w' : World T} {b : BrokerAddress}
    {frames : List (MessageCommand × Bytes)} {part : Bytes} (h : World.Run cfg acts w)
    (hi : cfg.me < w.sys.nClients) (h0 : ∀ b', readFor w cfg.me b' = [])
    (hp : World.Path cfg (fun w => Attached cfg.me b w.sys) w as w')
    (hs : HasSent b (acts ++ as) frames part) (hj : ∀ n, Consumer.Job.batch n ∉ callsMade (acts ++ as))
    (hread : (Framed.pollNext (w'.rx b).framed (w'.rx b).socket).1 = .pending) (hpassed : (w'.sys.conns b).outbox = [])
    {i : Nat} (hw : w'.app.waiting i) (hstuck : Consumer.step cfg.app w'.app (.run i) = none) :
    w'.app.handedOut =
      (Sys.addressedTo (UInt64.ofNat cfg.me) (messagesOf (frames.map (·.1)))).flatMap (Consumer.yields cfg.app.decode) := by
  have hp' : World.Path cfg (fun w => AttachedUntilStop cfg.me b w.sys) w as w' := by
    clear hread hpassed hw hstuck hj hs
    induction hp with
    | nil hx => exact .nil (.inl hx)
    | snoc _ hs hx ih => exact .snoc ih hs (.inl hx)
  obtain ⟨log, appLog, hpr, _, hd⟩ := reached h hi h0 hp'
  rw [C48_waits_only_at_the_end hpr.app (fun n => by rw [hpr.jobs]; exact hj n) hw hstuck]
  unfold Consumer.stream
  rw [hd (worldPath_end hp).2.2.2 hpassed]
  rw [read_all hpr hs hread]

/-- Taking part in the whole never holds up a call: a step a call can make by itself it can make in the whole. -/
theorem C70_calls_go_on {cfg : World.Cfg T} {acts : List World.Act} {w : World T} (h : World.Run cfg acts w) {i : Nat}
    {app : Consumer.State T} (hs : Consumer.step cfg.app w.app (.run i) = some app) :
    ∃ w', World.step cfg w (.app (.run i)) = some w' ∧ w'.app = app := by
  obtain ⟨s, hx⟩ := not_held_up h (a := .run i) rfl hs
  exact ⟨_, hx, rfl⟩

/-- And as long as something is left, a `next_message` call made now returns the next thing, by its own steps alone. -/
theorem C70_next_is_returned {cfg : World.Cfg T} {acts as : List World.Act} {w w' : World T} {b : BrokerAddress}
    (h : World.Run cfg acts w) (hi : cfg.me < w.sys.nClients) (h0 : ∀ b', readFor w cfg.me b' = [])
    (hp : World.Path cfg (fun w => Attached cfg.me b w.sys) w as w') (hj : ∀ n, Consumer.Job.batch n ∉ callsMade (acts ++ as))
    (hpassed : (w'.sys.conns b).outbox = []) (hready : (w'.sys.clients cfg.me).phase = .ready) (hfree : w'.app.free)
    {x : Outcome (Consumer.Received T)} {rest : List (Outcome (Consumer.Received T))}
    (hx : (readFor w' cfg.me b).flatMap (Consumer.yields cfg.app.decode) = w'.app.handedOut ++ x :: rest) :
    ∃ n w'' o, World.Run cfg (acts ++ as ++ .app (.spawn .message) :: List.replicate n (.app (.run w'.app.tasks.length))) w'' ∧
      w''.app.results = w'.app.results ++ [(w'.app.tasks.length, o)] ∧ Consumer.handed o = [x] := by
  have hp' : World.Path cfg (fun w => AttachedUntilStop cfg.me b w.sys) w as w' := by
    clear hpassed hready hfree hx hj
    induction hp with
    | nil hx => exact .nil (.inl hx)
    | snoc _ hs hx ih => exact .snoc ih hs (.inl hx)
  have hrun : World.Run cfg (acts ++ as) w' := by
    clear hpassed hready hfree hx hj hp'
    induction hp with
    | nil _ => simpa using h
    | snoc _ hs _ ih => rw [← List.append_assoc]; exact .snoc ih hs
  obtain ⟨log, appLog, hpr, _, hd⟩ := reached h hi h0 hp'
  have hatt := worldPath_end hp
  have hd := hd hatt.2.2.2 hpassed
  have hme : cfg.me < w'.sys.nClients := (Sys.wf (⟨_, hpr.sys⟩ : Sys.Reachable cfg.sys w'.sys)).vecLt _ hatt.1
  have hopen : w'.app.isOpen = true := by
    rw [hpr.isOpen]; unfold Sys.engineEnd
    cases hm : w'.sys.mode with
    | stopped => exact absurd hm hatt.2.2.2
    | _ => rfl
  obtain ⟨bs, s', o, hb, hr, h1, h2⟩ := C48_next_is_returned hpr.app (fun n => by rw [hpr.jobs]; exact hj n) hfree hopen
    (x := x) (rest := rest) (by unfold Consumer.stream; rw [hd]; exact hx)
  have he := Consumer.exec_of_run hpr.app hr
  simp only [Consumer.exec] at he
  cases hsp : Consumer.step cfg.app w'.app (.spawn .message) with
  | none => simp [hsp] at he
  | some app1 =>
    simp only [hsp] at he
    obtain ⟨s1, hst⟩ := not_held_up hrun (a := .spawn .message) (by simp [own, hme, hready]) hsp
    obtain ⟨w'', k1, k2, k3⟩ := lift (hrun.snoc hst) he (fun a ha => ⟨_, hb a ha⟩)
    have hbs : bs = List.replicate bs.length (.run w'.app.tasks.length) := List.eq_replicate_of_mem hb
    refine ⟨bs.length, w'', o, ?_, by rw [k3]; exact h1, h2⟩
    have hm : bs.map World.Act.app = List.replicate bs.length (.app (.run w'.app.tasks.length)) := by
      rw [hbs, List.map_replicate, List.length_replicate]
    rw [hm] at k2
    simpa using k2

/-! ### A concrete case -/

namespace EndToEndExample

open Frame Trace Proto

/-- A broker's message. -/
def wireMessage (consumer : UInt64) (entry : UInt64) (payload : Bytes) : MessageCommand :=
  ⟨Neutron.baseCommand 9 9 (Neutron.mkMsg .commandMessage [(1, Neutron.vU64 consumer),
      (2, Neutron.vMsg (Neutron.mkMsg .messageIdData [(1, Neutron.vU64 5), (2, Neutron.vU64 entry)]))]),
   some ⟨Neutron.mkMsg .messageMetadata [(1, Neutron.vStr "p"), (2, Neutron.vU64 entry), (3, Neutron.vU64 1), (11, [.int 1])], payload⟩⟩

theorem wireMessage_frame (consumer entry : UInt64) (payload : Bytes)
    (h : size (wireMessage consumer entry payload).parts.1 (wireMessage consumer entry payload).parts.2 < 4294967296) :
    Framed.IsFrame (wireMessage consumer entry payload,
      layout (wireMessage consumer entry payload).parts.1 (wireMessage consumer entry payload).parts.2) := by
  refine Framed.isFrame_of (parts_sendable _ ?_ ?_ h)
  · exact base_ser 100 9 9 _ .commandMessage (by decide) rfl (mk_ser 99 _ _ (by simp [pulsar])
      (fields_cons (ok_u64 1 _ _ rfl) (fields_cons (ok_msg 2 _ .messageIdData _
        (mk_ser 98 _ _ (by simp [pulsar]) (fields_cons (ok_u64 1 _ _ rfl) (fields_cons (ok_u64 2 _ _ rfl) fields_nil))) rfl) fields_nil)))
  · intro p hp
    cases hp
    exact mk_ser 100 _ _ (by simp [pulsar]) (fields_cons (ok_str 1 _ _ rfl) (fields_cons (ok_u64 2 _ _ rfl)
      (fields_cons (ok_u64 3 _ _ rfl) (fields_cons (ok_i32 11 _ _ (by decide) rfl) fields_nil))))

/-- One message for consumer 0, one for consumer 7. -/
def m1 : MessageCommand := wireMessage 0 1 [104]
def m2 : MessageCommand := wireMessage 7 2 [105]
def frames : List (MessageCommand × Bytes) := [(m1, layout m1.parts.1 m1.parts.2), (m2, layout m2.parts.1 m2.parts.2)]
def chunk1 : Bytes := (layout m1.parts.1 m1.parts.2).take 20
def chunk2 : Bytes := (layout m1.parts.1 m1.parts.2).drop 20 ++ layout m2.parts.1 m2.parts.2

theorem frame1 : Framed.IsFrame (m1, layout m1.parts.1 m1.parts.2) := wireMessage_frame 0 1 [104] (by decide +kernel)
theorem frame2 : Framed.IsFrame (m2, layout m2.parts.1 m2.parts.2) := wireMessage_frame 7 2 [105] (by decide +kernel)

def wcfg : World.Cfg UInt8 := ⟨cfg0, Consumer.byteCfg 250 1, 0, true⟩
def before : List World.Act := (boot ++ join 0).map .sys
def reading : List World.Act := [.arrive b0 (.data chunk1), .poll b0 none, .arrive b0 (.data chunk2), .poll b0 none, .poll b0 none,
  .poll b0 none]
def passing : List World.Act := [.sys (.engIn b0), .sys (.engIn b0)]
def asking : List World.Act := .app (.spawn .message) :: (Consumer.go 0 6).map World.Act.app
def asking' : List World.Act := .app (.spawn .message) :: (Consumer.go 1 2).map World.Act.app

/-- The world after these actions. -/
def after (w : World UInt8) (as : List World.Act) : World UInt8 := (World.exec wcfg w as).getD w

/-- The world after a poll of the connection with this result. -/
def polled (w : World UInt8) (p : Poll) (f : Framed) (rs : List Read) : World UInt8 :=
  sync wcfg { w with rx := fun x => if x = b0 then
      { w.rx b0 with framed := f, socket := rs, out := (w.rx b0).out ++ (match p with | .pending => [] | p => [p]) } else w.rx x }
    ((sysSteps wcfg.sys w.sys ((item none p).toList.map (Sys.Act.connRead b0))).getD w.sys)

theorem poll_step {w : World UInt8} (p : Poll) (f : Framed) (rs : List Read) (hr : World.reading w b0 = true)
    (hst : (w.rx b0).stopped = false) (hp : Framed.pollNext (w.rx b0).framed (w.rx b0).socket = (p, f, rs))
    (hs : (sysSteps wcfg.sys w.sys ((item none p).toList.map (Sys.Act.connRead b0))).isSome) (hq : p = .pending ∨ ∃ m, p = .item m) :
    World.step wcfg w (.poll b0 none) = some (polled w p f rs) := by
  unfold polled
  obtain ⟨s, hs⟩ := Option.isSome_iff_exists.mp hs
  simp only [World.step, hr, if_true, hp, hs, Framed.ReadSide.step, hst]
  rcases hq with rfl | ⟨m, rfl⟩
  · simp
  · rfl

def w0 : World UInt8 := after (World.init wcfg) before
def w1 : World UInt8 := after w0 [.arrive b0 (.data chunk1)]
def w2 : World UInt8 := polled w1 .pending { buf := chunk1, readable := false } []
def w3 : World UInt8 := after w2 [.arrive b0 (.data chunk2)]
def w4 : World UInt8 := polled w3 (.item m1) { buf := layout m2.parts.1 m2.parts.2, readable := true } []
def w5 : World UInt8 := polled w4 (.item m2) { buf := [], readable := true } []
def w6 : World UInt8 := polled w5 .pending { buf := [], readable := false } []
def w7 : World UInt8 := after w6 passing
def w8 : World UInt8 := after w7 asking
def w9 : World UInt8 := after w8 asking'

theorem decode1 : Codec.decode chunk1 = .ok none := by
  have := Framed.IsFrame.prefix_decode frame1 (a := chunk1) (b := (layout m1.parts.1 m1.parts.2).drop 20) (by
    intro h
    have h1 := congrArg List.length h
    simp only [List.length_drop, List.length_nil, Codec.layout_length] at h1
    have h2 : 20 < size m1.parts.1 m1.parts.2 := by decide +kernel
    omega) (List.take_append_drop _ _)
  exact this

theorem decode2 : Codec.decode (chunk1 ++ chunk2) = .ok (some (m1, layout m2.parts.1 m2.parts.2)) := by
  have : chunk1 ++ chunk2 = layout m1.parts.1 m1.parts.2 ++ layout m2.parts.1 m2.parts.2 := by
    unfold chunk1 chunk2; rw [← List.append_assoc, List.take_append_drop]
  rw [this]
  exact Framed.IsFrame.decode frame1 _

theorem decode3 : Codec.decode (layout m2.parts.1 m2.parts.2) = .ok (some (m2, [])) := by
  have := Framed.IsFrame.decode frame2 []
  rwa [List.append_nil] at this

theorem step1 : World.exec wcfg (World.init wcfg) before = some w0 := rfl
theorem step2 : World.exec wcfg w0 [.arrive b0 (.data chunk1)] = some w1 := rfl
theorem step3 : World.step wcfg w1 (.poll b0 none) = some w2 := by
  refine poll_step _ _ _ rfl rfl ?_ rfl (.inl rfl)
  show Framed.pollNext {} [.data chunk1] = _
  simp [Framed.pollNext, Framed.attempt, decode1]
theorem step4 : World.exec wcfg w2 [.arrive b0 (.data chunk2)] = some w3 := rfl
theorem step5 : World.step wcfg w3 (.poll b0 none) = some w4 := by
  refine poll_step _ _ _ rfl rfl ?_ rfl (.inr ⟨_, rfl⟩)
  show Framed.pollNext { buf := chunk1, readable := false } [.data chunk2] = _
  simp [Framed.pollNext, Framed.attempt, decode2]
theorem step6 : World.step wcfg w4 (.poll b0 none) = some w5 := by
  refine poll_step _ _ _ rfl rfl ?_ rfl (.inr ⟨_, rfl⟩)
  show Framed.pollNext { buf := layout m2.parts.1 m2.parts.2, readable := true } [] = _
  simp [Framed.pollNext, Framed.attempt, decode3]
theorem poll7 : Framed.pollNext { buf := [], readable := true } [] = (.pending, { buf := [], readable := false }, []) := rfl
theorem step7 : World.step wcfg w5 (.poll b0 none) = some w6 := poll_step _ _ _ rfl rfl poll7 rfl (.inl rfl)
theorem step8 : World.exec wcfg w6 passing = some w7 := rfl
theorem step9 : World.exec wcfg w7 asking = some w8 := rfl
theorem step10 : World.exec wcfg w8 asking' = some w9 := rfl


/-- Everything from the moment the consumer is registered. -/
def during : List World.Act := reading ++ passing ++ asking ++ asking'

/-- Is the consumer attached to the broker? -/
def att (w : World UInt8) : Bool :=
  decide (0 ∈ w.sys.vec) && decide ((w.sys.clients 0).broker = b0) && decide ((w.sys.clients 0).phase ≠ .gone) &&
    (match w.sys.mode with | .stopped => false | _ => true)

theorem att_iff {w : World UInt8} (h : att w = true) : Attached wcfg.me b0 w.sys := by
  unfold att at h
  simp only [Bool.and_eq_true, decide_eq_true_eq] at h
  refine ⟨h.1.1.1, h.1.1.2, h.1.2, fun hm => ?_⟩
  rw [hm] at h; exact absurd h.2 (by simp)

/-- Attached before each of these actions. -/
def attAll (w : World UInt8) : List World.Act → Bool
  | [] => att w
  | a :: as => att w && match World.step wcfg w a with
    | some w' => attAll w' as
    | none => false

theorem path_steps {w w' w'' : World UInt8} {as bs : List World.Act}
    (h : World.Path wcfg (fun w => Attached wcfg.me b0 w.sys) w as w') (hs : World.exec wcfg w' bs = some w'')
    (hP : attAll w' bs = true) : World.Path wcfg (fun w => Attached wcfg.me b0 w.sys) w (as ++ bs) w'' := by
  induction bs generalizing as w' with
  | nil => cases hs; simpa using h
  | cons a bs ih =>
    simp only [World.exec] at hs
    simp only [attAll, Bool.and_eq_true] at hP
    cases h1 : World.step wcfg w' a with
    | none => simp [h1] at hs
    | some v =>
      simp only [h1] at hs hP
      have hv : att v = true := by
        cases bs with
        | nil => exact hP.2
        | cons => simp only [attAll, Bool.and_eq_true] at hP; exact hP.2.1
      have := ih (h.snoc h1 (att_iff hv)) hs hP.2
      simpa using this

theorem path_poll {w w' w'' : World UInt8} {as : List World.Act}
    (h : World.Path wcfg (fun w => Attached wcfg.me b0 w.sys) w as w') (hs : World.step wcfg w' (.poll b0 none) = some w'')
    (hP : att w'' = true) : World.Path wcfg (fun w => Attached wcfg.me b0 w.sys) w (as ++ [.poll b0 none]) w'' := h.snoc hs (att_iff hP)

theorem path7 : World.Path wcfg (fun w => Attached wcfg.me b0 w.sys) w0 (reading ++ passing) w7 :=
  path_steps (path_poll (path_poll (path_poll (path_steps (path_poll (path_steps (.nil (att_iff rfl)) step2 rfl)
    step3 rfl) step4 rfl) step5 rfl) step6 rfl) step7 rfl) step8 rfl

theorem path : World.Path wcfg (fun w => Attached wcfg.me b0 w.sys) w0 during w9 := path_steps (path_steps path7 step9 rfl) step10 rfl

theorem run_exec {as bs : List World.Act} {w w' : World UInt8} (h : World.Run wcfg as w) (hs : World.exec wcfg w bs = some w') :
    World.Run wcfg (as ++ bs) w' := by
  induction bs generalizing as w with
  | nil => cases hs; simpa using h
  | cons a bs ih =>
    simp only [World.exec] at hs
    cases h1 : World.step wcfg w a with
    | none => simp [h1] at hs
    | some v => simp only [h1] at hs; simpa using ih (h.snoc h1) hs

theorem run0 : World.Run wcfg before w0 := run_exec (as := []) .nil step1

/-- The hypotheses of both parts of C70 are met: two frames arrive in two chunks (the first cut in the middle of a frame), one of
them for this consumer; the first call has returned it, the second waits. -/
example : World.Run wcfg before w0 ∧ wcfg.me < w0.sys.nClients ∧ (∀ b', readFor w0 wcfg.me b' = []) ∧
    World.Path wcfg (fun w => Attached wcfg.me b0 w.sys) w0 during w9 ∧ HasSent b0 (before ++ during) frames [] ∧
    Sends b0 (before ++ during) frames [] false ∧
    (∀ n, Consumer.Job.batch n ∉ callsMade (before ++ during)) ∧
    (Framed.pollNext (w9.rx b0).framed (w9.rx b0).socket).1 = .pending ∧ (w9.sys.conns b0).outbox = [] ∧
    w9.app.waiting 1 ∧ Consumer.step wcfg.app w9.app (.run 1) = none ∧
    w9.app.handedOut.length = 1 ∧
    World.Path wcfg (fun w => Attached wcfg.me b0 w.sys) w0 (reading ++ passing) w7 ∧ (w7.sys.conns b0).outbox = [] ∧
    (w7.sys.clients 0).phase = .ready ∧ w7.app.free ∧ (readFor w7 0 b0).length = 1 ∧ w7.app.handedOut = [] := by
  have hd : ∀ r ∈ [Read.data chunk1, Read.data chunk2], Framed.IsData r := by simp [Framed.IsData]
  have hb : Framed.bytesOf [Read.data chunk1, Read.data chunk2] = Framed.stream frames ++ [] := by
    simp [Framed.bytesOf, Framed.stream, frames, chunk1, chunk2]
    rw [← List.append_assoc, List.take_append_drop]
  have hw : ∀ f ∈ frames, Framed.IsFrame f := by
    intro f hf
    simp [frames] at hf
    rcases hf with rfl | rfl
    · exact frame1
    · exact frame2
  have hpt : Framed.IsPartial [] := Framed.partial_nil
  refine ⟨run0, by decide, fun b' => rfl, path, ⟨hw, hpt, hd, hb⟩, ⟨hw, hpt, _, hd, hb, List.prefix_rfl⟩, ?_, rfl, rfl, ?_, rfl, rfl, path7, rfl, rfl, rfl, rfl, rfl⟩
  · intro n hn
    have : callsMade (before ++ during) = [.message, .message] := rfl
    rw [this] at hn
    simp at hn
  · exact ⟨_, _, rfl, rfl⟩


end EndToEndExample

end Neutron.Props
