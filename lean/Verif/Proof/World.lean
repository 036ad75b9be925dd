import Verif.Spec.World
import Verif.Proof.SysChannel
import Verif.Proof.ConsumerCalls
import Verif.Proof.Framed
import Verif.Props.Shutdown

/-!
# The parts of a run of the whole are runs of the parts
-/

namespace Neutron.World

open Neutron

variable {T : Type}

theorem readEvents_append (b : BrokerAddress) (as bs : List Act) : readEvents b (as ++ bs) = readEvents b as ++ readEvents b bs := by
  induction as with
  | nil => rfl
  | cons a as ih =>
    cases a <;> simp only [List.cons_append, readEvents, ih]
    all_goals split <;> rfl

theorem callsMade_append (as bs : List Act) : callsMade (as ++ bs) = callsMade as ++ callsMade bs := by
  induction as with
  | nil => rfl
  | cons a as ih =>
    cases a with
    | app a => cases a <;> simp [callsMade, ih]
    | _ => simp [callsMade, ih]

/-- A run of the whole, as runs of its parts. -/
structure Proj (cfg : Cfg T) (acts : List Act) (w : World T) (log : List Sys.Act) (appLog : List Consumer.Act) : Prop where
  sys : Sys.Run cfg.sys log w.sys
  app : Consumer.Run cfg.app appLog w.app
  jobs : Consumer.jobs appLog = callsMade acts
  rx : ∀ b, w.rx b = Framed.ReadSide.run (readEvents b acts)
  inbox : w.app.inbox = (w.sys.clients cfg.me).inbox.map (·.inb)
  isOpen : w.app.isOpen = Sys.engineEnd w.sys cfg.me
  delivered : Consumer.delivered appLog = Sys.messagesIn ((w.sys.clients cfg.me).taken ++ (w.sys.clients cfg.me).inbox)
  socket : ∀ b, Sys.socketMessages log b = messagesOf (commandsOf (w.rx b).out)
  stopped : ∀ b, (w.rx b).stopped = true → (w.sys.conns b).alive = false

/-- The consumer's side of a step of the rest of the system: at most one event arrives, and the channel may close. -/
theorem sync_run {cfg : Cfg T} {w : World T} {s' : Sys.State} {a : Sys.Act} {appLog : List Consumer.Act}
    (hr : Sys.Reachable cfg.sys w.sys) (happ : Consumer.Run cfg.app appLog w.app)
    (hin : w.app.inbox = (w.sys.clients cfg.me).inbox.map (·.inb)) (hop : w.app.isOpen = Sys.engineEnd w.sys cfg.me)
    (hdel : Consumer.delivered appLog = Sys.messagesIn ((w.sys.clients cfg.me).taken ++ (w.sys.clients cfg.me).inbox))
    (hs : Sys.step cfg.sys w.sys a = some s') (ha : a ≠ .clientNext cfg.me) :
    ∃ bs, Consumer.jobs bs = [] ∧ Consumer.Run cfg.app (appLog ++ bs) (sync cfg w s').app ∧
      Consumer.delivered (appLog ++ bs) = Sys.messagesIn ((s'.clients cfg.me).taken ++ (s'.clients cfg.me).inbox) := by
  have close : ∀ (bs : List Consumer.Act) (st : Consumer.State T), Consumer.jobs bs = [] →
      Consumer.Run cfg.app (appLog ++ bs) st → st.isOpen = Sys.engineEnd w.sys cfg.me →
      Consumer.delivered (appLog ++ bs) = Sys.messagesIn ((s'.clients cfg.me).taken ++ (s'.clients cfg.me).inbox) →
      ∃ bs', Consumer.jobs bs' = [] ∧
        Consumer.Run cfg.app (appLog ++ bs') { st with isOpen := Sys.engineEnd s' cfg.me } ∧
        Consumer.delivered (appLog ++ bs') = Sys.messagesIn ((s'.clients cfg.me).taken ++ (s'.clients cfg.me).inbox) := by
    intro bs st h1 h2 h3 h4
    by_cases he : Sys.engineEnd s' cfg.me = st.isOpen
    · exact ⟨bs, h1, by rw [he]; exact h2, h4⟩
    · have hf : Sys.engineEnd s' cfg.me = false := by
        cases hx : Sys.engineEnd s' cfg.me with
        | false => rfl
        | true =>
          cases hy : Sys.engineEnd w.sys cfg.me with
          | true => rw [hx, h3, hy] at he; exact absurd rfl he
          | false => rw [Sys.engineEnd_mono hs hy] at hx; cases hx
      refine ⟨bs ++ [.close], by simp [h1, Consumer.jobs], ?_, ?_⟩
      · rw [← List.append_assoc]
        exact .snoc h2 (by rw [hf]; rfl)
      · rw [← List.append_assoc, Consumer.delivered_append, h4]; simp [Consumer.delivered]
  have hsync : ∀ st : Consumer.State T, st = { w.app with inbox := (s'.clients cfg.me).inbox.map (·.inb) } →
      (sync cfg w s').app = { st with isOpen := Sys.engineEnd s' cfg.me } := by
    rintro st rfl; rfl
  cases Sys.channel_step (Sys.blank hr) hs cfg.me with
  | same hq ht =>
    rw [hsync w.app (by rw [hq, ← hin])]
    exact close [] w.app rfl (by simpa using happ) hop (by rw [hq, ht]; simpa using hdel)
  | taken e q hx => exact absurd hx ha
  | added e hq ht hv he he' =>
    rw [hsync _ rfl]
    refine close [.deliver e.inb] _ rfl (.snoc happ ?_) hop ?_
    · simp only [Consumer.step, hop, he, if_true, hq, List.map_append, List.map_cons, List.map_nil, hin]
    · rw [hq, ht, Consumer.delivered_append, hdel, ← List.append_assoc, Sys.messagesIn_append _ [e]]
      congr 1
      unfold Sys.messagesIn
      cases hi : e.inb <;> simp [Consumer.delivered, hi]

theorem dead_step {cfg : Sys.Cfg} {s s' : Sys.State} {a : Sys.Act} (h : Sys.Reachable cfg s) (hs : Sys.step cfg s a = some s')
    {b : BrokerAddress} (hl : (s.conns b).alive = false) : (s'.conns b).alive = false := by
  refine (Props.C34_stays_lost h hs ?_ hl).2
  by_cases hb : b ∈ s.addrs
  · exact hb
  · rw [(Sys.conn h).unused b hb] at hl; cases hl

/-- The part of the actions of a step that belongs to `Model/Sys.lean`: a path through states satisfying `P`. -/
def Along (cfg : Sys.Cfg) (s : Sys.State) (new : List Sys.Act) (s' : Sys.State) : Prop :=
  ∀ P : Sys.State → Prop,
    (∀ t t' i c, Sys.step cfg t (.beginCall i c) = some t' → P t → P t') → P s → P s' → Sys.Path cfg P s new s'

theorem along_nil (cfg : Sys.Cfg) (s : Sys.State) : Along cfg s [] s := fun _ _ h _ => .nil h

theorem along_one {cfg : Sys.Cfg} {s s' : Sys.State} {a : Sys.Act} (h : Sys.step cfg s a = some s') : Along cfg s [a] s' :=
  fun _ _ h1 h2 => .snoc (as := []) (.nil h1) h h2

theorem run_steps {cfg : Sys.Cfg} {s s' : Sys.State} {log new : List Sys.Act} (h : Sys.Run cfg log s)
    (hs : sysSteps cfg s new = some s') : Sys.Run cfg (log ++ new) s' := by
  refine Sys.run_of_exec h ?_
  clear h
  induction new generalizing s with
  | nil => exact hs
  | cons a new ih =>
    simp only [sysSteps] at hs
    simp only [Sys.exec]
    cases ht : Sys.step cfg s a with
    | none => simp [ht] at hs
    | some t => simp only [ht] at hs ⊢; exact ih hs

theorem socketMessages_nil {a : Sys.Act} (h : ∀ b x, a ≠ .connRead b x) (b : BrokerAddress) : Sys.socketMessages [a] b = [] := by
  cases a <;> first | rfl | exact absurd rfl (h _ _)

/-- One step of the rest of the system (not a read from a socket). -/
theorem Proj.sysStep {cfg : Cfg T} {acts : List Act} {w w0 : World T} {log : List Sys.Act} {appLog : List Consumer.Act}
    (h : Proj cfg acts w log appLog) {a : Sys.Act} {s' : Sys.State} (hs : Sys.step cfg.sys w.sys a = some s')
    (ha : a ≠ .clientNext cfg.me) (hn : ∀ b x, a ≠ .connRead b x) {A : Act} (hA : callsMade [A] = []) (hA' : ∀ b, readEvents b [A] = [])
    (h1 : w0.app = w.app) (h2 : w0.rx = w.rx) :
    ∃ new bs, Proj cfg (acts ++ [A]) (sync cfg w0 s') (log ++ new) (appLog ++ bs) ∧ Along cfg.sys w.sys new s' := by
  have hr : Sys.Reachable cfg.sys w.sys := ⟨_, h.sys⟩
  obtain ⟨bs, hb1, hb2, hb3⟩ := sync_run hr h.app h.inbox h.isOpen h.delivered hs ha
  have happ : (sync cfg w0 s').app = (sync cfg w s').app := by simp only [sync, h1]
  refine ⟨[a], bs, ⟨h.sys.snoc hs, by rw [happ]; exact hb2, ?_, fun b => ?_, rfl, rfl, hb3, fun b => ?_, fun b hb => ?_⟩, along_one hs⟩
  · rw [Consumer.jobs_append, hb1, callsMade_append, hA, List.append_nil, List.append_nil, h.jobs]
  · rw [readEvents_append, hA', List.append_nil]
    show w0.rx b = _
    rw [h2]; exact h.rx b
  · rw [Props.socketMessages_append, socketMessages_nil hn, List.append_nil]
    show _ = messagesOf (commandsOf (w0.rx b).out)
    rw [h2]; exact h.socket b
  · have hb' : (w0.rx b).stopped = true := hb
    rw [h2] at hb'
    exact dead_step hr hs (h.stopped b hb')

theorem step_begin {cfg : Sys.Cfg} {s : Sys.State} {i : Nat} {n : UInt32} {s1 : Sys.State}
    (h : Sys.step cfg s (.beginCall i (.flow n)) = some s1) :
    s1 = s.setClient i { s.clients i with starting := (s.clients i).starting ++ [⟨.flow ⟨(s.clients i).core.clientId, n⟩, none⟩] } := by
  simp only [Sys.step, Sys.beginCall] at h
  split at h
  · simp only [Client.issue, Call.expectsResponse, Bool.false_eq_true, if_false, Option.some.injEq] at h
    exact h.symm
  · cases h

/-- What a poll adds to the results of the read side. -/
theorem poll_out {s : Framed.ReadSide} (hs : s.stopped = false) :
    (s.step .poll).out = s.out ++ (match (Framed.pollNext s.framed s.socket).1 with
      | .pending => []
      | p => [p]) ∧
    ((s.step .poll).stopped = true → (Framed.pollNext s.framed s.socket).1 = .ended ∨ (Framed.pollNext s.framed s.socket).1 = .panicked) := by
  simp only [Framed.ReadSide.step, hs]
  generalize Framed.pollNext s.framed s.socket = x
  obtain ⟨p, f, rs⟩ := x
  cases p <;> simp

theorem read_run (evs : List Framed.Ev) (e : Framed.Ev) : Framed.ReadSide.run (evs ++ [e]) = (Framed.ReadSide.run evs).step e := by
  simp [Framed.ReadSide.run]

/-- What the calls' own steps do to the shared channels. -/
theorem app_kind {cfg : Cfg T} {w : World T} {a : Consumer.Act} {app : Consumer.State T} (ho : own cfg w a = true)
    (hs : Consumer.step cfg.app w.app a = some app) :
    app.isOpen = w.app.isOpen ∧
    ((induced cfg w a = [] ∧ app.inbox = w.app.inbox) ∨
     (∃ e q, induced cfg w a = [.clientNext cfg.me] ∧ w.app.inbox = e :: q ∧ app.inbox = q) ∨
     (∃ n, induced cfg w a = [.beginCall cfg.me (.flow n), .submit cfg.me (w.sys.clients cfg.me).starting.length] ∧
        app.inbox = w.app.inbox)) := by
  cases Consumer.step_cases hs with
  | deliver => cases ho
  | close => cases ho
  | recv i t ht k hc m q hq | skip i t ht k hc e q hq =>
    obtain ⟨j, st⟩ := t
    cases hc
    exact ⟨rfl, .inr (.inl ⟨_, q, by simp [induced, ht, hq], hq, rfl⟩)⟩
  | flow i t ht n k hc | refuse i t ht n k hc =>
    obtain ⟨j, st⟩ := t
    cases hc
    exact ⟨rfl, .inr (.inr ⟨n, by simp [induced, ht], rfl⟩)⟩
  | gone i t ht k hc hq =>
    obtain ⟨j, st⟩ := t
    cases hc
    exact ⟨rfl, .inl ⟨by simp [induced, ht, hq], rfl⟩⟩
  | spawn | cancel | accepted | rejected => exact ⟨rfl, .inl ⟨rfl, rfl⟩⟩
  | ret i t ht o hc | load i t ht _ hc | store i t ht _ _ hc | add i t ht _ _ hc | lock i t ht _ hc | write i t ht _ _ hc
  | plugins i t ht _ hc | loop i t ht _ _ hc =>
    obtain ⟨j, st⟩ := t
    cases hc
    exact ⟨rfl, .inl ⟨by simp [induced, ht], rfl⟩⟩

theorem engineEnd_congr {s s' : Sys.State} {i : Nat} (h1 : s'.mode = s.mode) (h2 : s'.managerAlive = s.managerAlive)
    (h3 : s'.regQueue = s.regQueue) : Sys.engineEnd s' i = Sys.engineEnd s i := by
  unfold Sys.engineEnd; rw [h1, h2, h3]

theorem alive_congr {s s' : Sys.State} (h : s'.conns = s.conns) (b : BrokerAddress) : (s'.conns b).alive = (s.conns b).alive := by
  rw [h]

/-- Handing over a `flow`: nothing of what the consumer sees changes. -/
theorem flow_steps {cfg : Sys.Cfg} {s s' : Sys.State} {i : Nat} {n : UInt32}
    (h : sysSteps cfg s [.beginCall i (.flow n), .submit i (s.clients i).starting.length] = some s') :
    (s'.clients i).inbox = (s.clients i).inbox ∧ (s'.clients i).taken = (s.clients i).taken ∧ s'.mode = s.mode ∧
    s'.managerAlive = s.managerAlive ∧ s'.regQueue = s.regQueue ∧ s'.conns = s.conns ∧
    Along cfg s [.beginCall i (.flow n), .submit i (s.clients i).starting.length] s' := by
  simp only [sysSteps] at h
  cases h1 : Sys.step cfg s (.beginCall i (.flow n)) with
  | none => simp [h1] at h
  | some s1 =>
    simp only [h1] at h
    cases h2 : Sys.step cfg s1 (.submit i (s.clients i).starting.length) with
    | none => simp [h2] at h
    | some s2 =>
      simp only [h2, Option.some.injEq] at h
      subst h
      have e1 := step_begin h1
      have hal : Along cfg s [.beginCall i (.flow n), .submit i (s.clients i).starting.length] s2 := by
        intro P hP hp hp'
        exact .snoc (as := [_]) (.snoc (as := []) (.nil hp) h1 (hP _ _ _ _ h1 hp)) h2 hp'
      rw [e1] at h2
      cases Sys.step_cases h2 with
      | submit => refine ⟨?_, ?_, rfl, rfl, rfl, rfl, hal⟩ <;> simp [Sys.setClient_clients]
      | refuse => refine ⟨?_, ?_, rfl, rfl, rfl, rfl, hal⟩ <;> simp [Sys.setClient_clients]

/-- A step of the consumer's calls. -/
theorem Proj.appStep {cfg : Cfg T} {acts : List Act} {w w' : World T} {log : List Sys.Act} {appLog : List Consumer.Act} {a : Consumer.Act}
    (h : Proj cfg acts w log appLog) (hs : World.step cfg w (.app a) = some w') :
    ∃ new, Proj cfg (acts ++ [.app a]) w' (log ++ new) (appLog ++ [a]) ∧ Along cfg.sys w.sys new w'.sys := by
  simp only [World.step] at hs
  split at hs
  · rename_i ho
    split at hs
    · rename_i app happ
      split at hs
      · rename_i s1 h1; cases hs
        obtain ⟨k1, k2⟩ := app_kind ho happ
        have hd : Consumer.delivered (appLog ++ [a]) = Consumer.delivered appLog := by
          rw [Consumer.delivered_append]
          cases a <;> simp [Consumer.delivered]
          cases ho
        have hj : Consumer.jobs (appLog ++ [a]) = callsMade (acts ++ [.app a]) := by
          rw [Consumer.jobs_append, callsMade_append, h.jobs]
          cases a <;> rfl
        have hre : ∀ x, readEvents x (acts ++ [.app a]) = readEvents x acts := by
          intro x; rw [readEvents_append]; exact List.append_nil _
        have hrun := run_steps h.sys h1
        rcases k2 with ⟨k2, k3⟩ | ⟨e, q, k2, k3, k4⟩ | ⟨n, k2, k3⟩
        · rw [k2] at h1 hrun
          simp only [sysSteps, Option.some.injEq] at h1
          subst h1
          exact ⟨[], ⟨hrun, .snoc h.app happ, hj, fun x => by rw [hre]; exact h.rx x, k3.trans h.inbox, k1.trans h.isOpen,
            hd.trans h.delivered, fun x => by rw [List.append_nil]; exact h.socket x, h.stopped⟩, along_nil _ _⟩
        · rw [k2] at h1 hrun
          simp only [sysSteps] at h1
          cases h2 : Sys.step cfg.sys w.sys (.clientNext cfg.me) with
          | none => simp [h2] at h1
          | some s2 =>
            simp only [h2, Option.some.injEq] at h1
            subst h1
            cases hst : Sys.step_cases h2 with
            | clientNext _ ev qs hi hp hq =>
              have hin := h.inbox
              rw [hq, k3] at hin
              simp only [List.map_cons, List.cons.injEq] at hin
              refine ⟨[.clientNext cfg.me], ⟨hrun, .snoc h.app happ, hj, fun x => by rw [hre]; exact h.rx x, ?_, k1.trans h.isOpen,
                hd.trans (h.delivered.trans ?_), fun x => ?_, h.stopped⟩, along_one h2⟩
              · simp [Sys.setClient_clients, k4, hin.2]
              · simp [Sys.setClient_clients, hq]
              · rw [Props.socketMessages_append, h.socket x]; simp [Sys.socketMessages]
        · rw [k2] at h1 hrun
          obtain ⟨f1, f2, f3, f4, f5, f6, f7⟩ := flow_steps h1
          refine ⟨_, ⟨hrun, .snoc h.app happ, hj, fun x => by rw [hre]; exact h.rx x, ?_, ?_, ?_, fun x => ?_, fun x hx => ?_⟩, f7⟩
          · rw [f1]; exact k3.trans h.inbox
          · rw [engineEnd_congr f3 f4 f5]; exact k1.trans h.isOpen
          · rw [f1, f2]; exact hd.trans h.delivered
          · rw [Props.socketMessages_append, h.socket x]; simp [Sys.socketMessages]
          · rw [alive_congr f6]; exact h.stopped x hx
      · cases hs
    · cases hs
  · cases hs

theorem Proj.step {cfg : Cfg T} {acts : List Act} {w w' : World T} {log : List Sys.Act} {appLog : List Consumer.Act} {a : Act}
    (h : Proj cfg acts w log appLog) (hs : step cfg w a = some w') :
    ∃ new bs, Proj cfg (acts ++ [a]) w' (log ++ new) (appLog ++ bs) ∧ Along cfg.sys w.sys new w'.sys := by
  have hr : Sys.Reachable cfg.sys w.sys := ⟨_, h.sys⟩
  cases a with
  | arrive b r =>
    simp only [World.step] at hs
    split at hs
    · cases hs
      refine ⟨[], [], ⟨by simpa using h.sys, by simpa using h.app, ?_, fun x => ?_, h.inbox, h.isOpen, by simpa using h.delivered,
        fun x => ?_, fun x hx => h.stopped x ?_⟩, along_nil _ _⟩
      · simp [callsMade_append, callsMade, h.jobs]
      · by_cases hx : x = b
        · subst hx; simp [readEvents_append, readEvents, read_run, h.rx]
        · simp [readEvents_append, readEvents, hx, Ne.symm hx, h.rx]
      · simp only [List.append_nil, h.socket x]
        split
        · rename_i hx; subst hx; rfl
        · rfl
      · simp only at hx
        split at hx
        · rename_i hxb; subst hxb; exact hx
        · exact hx
    · cases hs
  | poll b ans =>
    simp only [World.step] at hs
    split at hs
    · rename_i hrun
      have hal : (w.sys.conns b).alive = true := by simp [reading, running] at hrun; exact hrun.1.1
      have hst : (w.rx b).stopped = false := by
        cases hx : (w.rx b).stopped with
        | false => rfl
        | true => rw [h.stopped b hx] at hal; cases hal
      obtain ⟨hout, hstop⟩ := poll_out hst
      generalize hp : (Framed.pollNext (w.rx b).framed (w.rx b).socket).1 = p at hs hout hstop
      have hrx : ∀ x, (if x = b then (w.rx b).step .poll else w.rx x) = Framed.ReadSide.run (readEvents x (acts ++ [.poll b ans])) := by
        intro x
        by_cases hx : x = b
        · subst hx; simp [readEvents_append, readEvents, read_run, h.rx]
        · simp [readEvents_append, readEvents, hx, Ne.symm hx, h.rx]
      have hjobs : Consumer.jobs appLog = callsMade (acts ++ [.poll b ans]) := by
        simp [callsMade_append, callsMade, h.jobs]
      cases hi : item ans p with
      | none =>
        have hpe : p = .pending := by cases p <;> first | rfl | cases hi
        subst hpe
        simp only [hi, Option.toList_none, List.map_nil, sysSteps] at hs
        cases hs
        refine ⟨[], [], ⟨by rw [List.append_nil]; exact h.sys, ?_, by simpa using hjobs, hrx, rfl, rfl,
          by rw [List.append_nil]; exact h.delivered,
          fun x => ?_, fun x hx => ?_⟩, along_nil _ _⟩
        · have : (sync cfg { w with rx := fun x => if x = b then (w.rx b).step .poll else w.rx x } w.sys).app = w.app := by
            simp only [sync, ← h.inbox, ← h.isOpen]
          rw [this]; simpa using h.app
        · simp only [List.append_nil, h.socket x, sync]
          split
          · rename_i hx; subst hx; rw [hout]; simp
          · rfl
        · simp only [sync] at hx
          split at hx
          · rcases hstop hx with hc | hc <;> cases hc
          · exact h.stopped x hx
      | some it =>
        simp only [hi, Option.toList_some, List.map_cons, List.map_nil, sysSteps] at hs
        cases h1 : Sys.step cfg.sys w.sys (.connRead b it) with
        | none => simp [h1] at hs
        | some s1 =>
          simp only [h1] at hs
          cases hs
          obtain ⟨bs, hb1, hb2, hb3⟩ := sync_run hr h.app h.inbox h.isOpen h.delivered h1 (by simp)
          refine ⟨[.connRead b it], bs, ⟨h.sys.snoc h1, hb2, ?_, hrx, rfl, rfl, hb3, fun x => ?_, fun x hx => ?_⟩, along_one h1⟩
          · rw [Consumer.jobs_append, hb1, List.append_nil, hjobs]
          · rw [Props.socketMessages_append, h.socket x]
            simp only [sync]
            split
            · rename_i hx; subst hx
              rw [hout]
              cases p <;> cases hi <;> simp [Sys.socketMessages, commandsOf, messagesOf]
              rename_i m
              simp only [List.filterMap_cons, if_true]
              generalize Inbound.ofCommand m = o
              rcases o with inb | e | _ <;> first | rfl | (cases inb <;> rfl)
            · rename_i hx
              cases it <;> simp [Sys.socketMessages, Ne.symm hx]
          · simp only [sync] at hx
            split at hx
            · rename_i hxb; subst hxb
              have hend : it = .closed ∨ it = .panicked := by
                rcases hstop hx with hc | hc <;> subst hc <;> cases hi
                · exact .inl rfl
                · exact .inr rfl
              show ((s1.conns x).alive) = false
              cases Sys.step_cases h1 with
              | readEnd => simp [Sys.endConn, Sys.setConn_conns]
              | readSkip _ _ _ _ hx2 => rcases hend with rfl | rfl <;> rcases hx2 with hx2 | ⟨_, _, _, hx2, _⟩ <;> cases hx2
              | readConnected | readForward => rcases hend with hc | hc <;> cases hc
            · exact dead_step hr h1 (h.stopped x hx)
    · cases hs
  | write b now io =>
    simp only [World.step] at hs
    split at hs
    · split at hs
      · split at hs
        · rename_i s1 h1; cases hs
          exact h.sysStep h1 (by simp) (by simp) rfl (fun _ => rfl) rfl rfl
        · cases hs
      · split at hs
        · split at hs
          · rename_i s1 h1; cases hs
            exact h.sysStep h1 (by simp) (by simp) rfl (fun _ => rfl) rfl rfl
          · cases hs
        · cases hs
    · cases hs
  | hold b =>
    simp only [World.step] at hs
    split at hs
    · cases hs
      refine ⟨[], [], ⟨by simpa using h.sys, by simpa using h.app, ?_, fun x => ?_, h.inbox, h.isOpen, by simpa using h.delivered,
        fun x => ?_, h.stopped⟩, along_nil _ _⟩
      · simp [callsMade_append, callsMade, h.jobs]
      · simp [readEvents_append, readEvents, h.rx]
      · simp only [List.append_nil, h.socket x]
    · cases hs
  | serve i' =>
    simp only [World.step] at hs
    split at hs
    · cases hs
      refine ⟨[], [], ⟨by simpa using h.sys, by simpa using h.app, ?_, fun x => ?_, h.inbox, h.isOpen, by simpa using h.delivered,
        fun x => ?_, h.stopped⟩, along_nil _ _⟩
      · simp [callsMade_append, callsMade, h.jobs]
      · simp [readEvents_append, readEvents, h.rx]
      · simp only [List.append_nil, h.socket x]
    · cases hs
  | sys a =>
    simp only [World.step] at hs
    split at hs
    · rename_i hf
      split at hs
      · rename_i s1 h1; cases hs
        refine h.sysStep h1 ?_ ?_ rfl (fun _ => rfl) rfl rfl
        · rintro rfl; simp [free] at hf
        · rintro b x rfl; simp [free] at hf
      · cases hs
    · cases hs
  | app a =>
    obtain ⟨new, h1, h2⟩ := h.appStep hs
    exact ⟨new, [a], h1, h2⟩

theorem proj {cfg : Cfg T} {acts : List Act} {w : World T} (h : Run cfg acts w) : ∃ log appLog, Proj cfg acts w log appLog := by
  induction h with
  | nil =>
    refine ⟨[], [], .nil, .nil, rfl, fun b => rfl, rfl, rfl, rfl, fun b => rfl, fun b hb => ?_⟩
    cases hb
  | snoc _ hs ih =>
    obtain ⟨log, appLog, hp⟩ := ih
    obtain ⟨new, bs, hp', _⟩ := hp.step hs
    exact ⟨_, _, hp'⟩

end Neutron.World
