import Verif.Spec.Sys

/-!
# Decomposing steps of the system into primitive state changes
-/

namespace Neutron.Sys

open Neutron

theorem exec_append (cfg : Cfg) (s : State) (as bs : List Act) :
    exec cfg s (as ++ bs) = (exec cfg s as).bind fun s' => exec cfg s' bs := by
  induction as generalizing s with
  | nil => rfl
  | cons a as ih =>
    simp only [List.cons_append, exec]
    cases step cfg s a with
    | none => rfl
    | some s' => exact ih s'

theorem run_of_exec {cfg : Cfg} {as bs : List Act} {s s' : State} (h : Run cfg as s) (he : exec cfg s bs = some s') :
    Run cfg (as ++ bs) s' := by
  induction bs generalizing as s with
  | nil =>
    simp only [exec, Option.some.injEq] at he
    subst he; simpa using h
  | cons b bs ih =>
    simp only [exec] at he
    cases hb : step cfg s b with
    | none => simp [hb] at he
    | some t =>
      simp only [hb] at he
      have := ih (Run.snoc h hb) he
      simpa using this

theorem reachable_of_exec {cfg : Cfg} {bs : List Act} {s' : State} (he : exec cfg (init cfg) bs = some s') :
    Reachable cfg s' := ⟨_, run_of_exec Run.nil he⟩

/-- Invariants: hold at the start, kept by every step. -/
theorem Reachable.induct {cfg : Cfg} {P : State → Prop} (h0 : P (init cfg))
    (hs : ∀ s a s', Reachable cfg s → P s → step cfg s a = some s' → P s') {s : State} (h : Reachable cfg s) : P s := by
  obtain ⟨as, h⟩ := h
  induction h with
  | nil => exact h0
  | snoc hr hstep ih => exact hs _ _ _ ⟨_, hr⟩ ih hstep

theorem Reachable.step {cfg : Cfg} {s s' : State} {a : Act} (h : Reachable cfg s) (hs : step cfg s a = some s') :
    Reachable cfg s' := by
  obtain ⟨as, h⟩ := h
  exact ⟨_, h.snoc hs⟩

/-! ## Sending a command to a connection -/

/-- The state after pushing `c` on `b`'s channel. -/
def pushed (s : State) (b : BrokerAddress) (c : ConnCmd) : State :=
  { s.setConn b { s.conns b with queue := (s.conns b).queue ++ [c], accepted := (s.conns b).accepted ++ [c] } with
    sent := s.sent ++ [(b, c)] }

theorem pushConn_cases (s : State) (b : BrokerAddress) (c : ConnCmd) :
    (∃ e, pushConn s b c = (s, .err e)) ∨
    (b ∈ s.addrs ∧ (s.conns b).alive = true ∧ pushConn s b c = (pushed s b c, .ok ())) := by
  unfold pushConn
  by_cases h1 : b ∈ s.addrs
  · by_cases h2 : (s.conns b).alive = true
    · right; exact ⟨h1, h2, by simp [h1, h2, pushed]⟩
    · left; exact ⟨.channelTerminated, by simp [h1, h2]⟩
  · left; exact ⟨.disconnected, by simp [h1]⟩

/-- The state after a new connection to `b` was opened. -/
def dialed (s : State) (b : BrokerAddress) : State :=
  { s.setConn b freshConn with addrs := s.addrs ++ [b], dials := s.dials ++ [b] }

/-- A state reached inside `handle_client_outbound` before the command is sent on: possibly a new connection, possibly the
client moved. -/
inductive Prep (cfg : Cfg) (s : State) (i : Nat) (c : Connect) (c2 : Connect) (b : BrokerAddress) : State → Prop where
  | intro (s2 : State)
      (hd : s2 = s ∨ (b ∉ s.addrs ∧ s2 = dialed s b))
      (hb : b ∈ s2.addrs) :
      Prep cfg s i c c2 b (if b ≠ cfg.config.brokerAddress then moveClient s2 (s2.clients i).core.clientId b else s2)

/-- How handling a client's command ends. -/
inductive OutEnd (cfg : Cfg) (s : State) (i : Nat) (cmd : ClientCmd) (auth : Outcome Bytes) : State → Prop where
  /-- failed before anything changed -/
  | failed : OutEnd cfg s i cmd auth (stop s)
  /-- a connect whose connection is there but cannot be written to -/
  | lost (c c2 : Connect) (b : BrokerAddress) (s3 : State) (hc : cmd.out = .connect c) (h2 : connectFor cfg c auth = .ok c2)
      (hb : c2.brokerAddress = some b) (hp : Prep cfg s i c c2 b s3) : OutEnd cfg s i cmd auth (stop s3)
  /-- a command other than connect is passed on -/
  | sent (j : Nat) (hn : ∀ c, cmd.out ≠ .connect c)
      (hj : s.vec.find? (fun j => decide ((s.clients j).core.clientId = (s.clients i).core.clientId)) = some j)
      (ha : (s.clients j).broker ∈ s.addrs) (hl : (s.conns (s.clients j).broker).alive = true) :
      OutEnd cfg s i cmd auth (pushed s (s.clients j).broker ⟨cmd.out, none, some (i, cmd)⟩)
  /-- a connect is passed on -/
  | connecting (c c2 : Connect) (b : BrokerAddress) (s3 : State) (j : Nat) (hc : cmd.out = .connect c)
      (h2 : connectFor cfg c auth = .ok c2) (hb : c2.brokerAddress = some b) (hp : Prep cfg s i c c2 b s3)
      (hj : s3.vec.find? (fun j => decide ((s3.clients j).core.clientId = (s3.clients i).core.clientId)) = some j)
      (ha : (s3.clients j).broker ∈ s3.addrs) (hl : (s3.conns (s3.clients j).broker).alive = true) :
      OutEnd cfg s i cmd auth
        { pushed s3 (s3.clients j).broker ⟨.connect c2, some s3.nextReply, some (i, cmd)⟩ with
          nextReply := s3.nextReply + 1, mode := .awaitConnect s3.nextReply (s3.clients j).broker }

theorem newConnection_cases (s : State) (net : Net) (b : BrokerAddress) :
    (∃ r, newConnection s net b = (s, r) ∧ r ≠ .ok ()) ∨ (b ∈ s.addrs ∧ newConnection s net b = (s, .ok ())) ∨
    (b ∉ s.addrs ∧ newConnection s net b =
      (dialed s b, .ok ())) := by
  unfold newConnection
  by_cases h : b ∈ s.addrs
  · right; left; simp [h]
  · cases ho : openConnection net b with
    | ok t => right; right; simp [h, dialed]
    | err e => left; exact ⟨.err e, by simp [h], by simp⟩
    | panic => left; exact ⟨.panic, by simp [h], by simp⟩

theorem finish_ok (s : State) : finish (s, .ok ()) = s := rfl
theorem finish_err (s : State) (e : NeutronError) : finish (s, .err e) = stop s := rfl
theorem finish_panic (s : State) : finish (s, .panic) = stop s := rfl

theorem forward_end {cfg : Cfg} {s s3 : State} {i : Nat} {cmd : ClientCmd} {auth : Outcome Bytes} {c c2 : Connect}
    {b : BrokerAddress} (hc : cmd.out = .connect c) (h2 : connectFor cfg c auth = .ok c2) (hb : c2.brokerAddress = some b)
    (hp : Prep cfg s i c c2 b s3) : OutEnd cfg s i cmd auth (finish (forward s3 i cmd (.connect c2))) := by
  unfold forward
  cases hf : s3.vec.find? (fun j => decide ((s3.clients j).core.clientId = (s3.clients i).core.clientId)) with
  | none => exact .lost c c2 b s3 hc h2 hb hp
  | some j =>
    simp only [sendToConnection]
    rcases pushConn_cases s3 (s3.clients j).broker ⟨.connect c2, some s3.nextReply, some (i, cmd)⟩ with
      ⟨e, he⟩ | ⟨ha, hl, he⟩
    · rw [he]; exact .lost c c2 b s3 hc h2 hb hp
    · rw [he]; exact .connecting c c2 b s3 j hc h2 hb hp hf ha hl

theorem handleOutbound_end (cfg : Cfg) (s : State) (i : Nat) (cmd : ClientCmd) (auth : Outcome Bytes) (net : Net) :
    OutEnd cfg s i cmd auth (finish (handleOutbound cfg s i cmd auth net)) := by
  by_cases hc : ∃ c, cmd.out = .connect c
  · obtain ⟨c, hc⟩ := hc
    simp only [handleOutbound, hc]
    cases h2 : connectFor cfg c auth with
    | err e => exact .failed
    | panic => exact .failed
    | ok c2 =>
      simp only
      cases hb : c2.brokerAddress with
      | none => exact .failed
      | some b =>
        simp only
        rcases newConnection_cases s net b with ⟨r, h, hr⟩ | ⟨hm, h⟩ | ⟨hm, h⟩
        · rw [h]
          cases r with
          | ok u => exact absurd rfl hr
          | err e => exact .failed
          | panic => exact .failed
        · rw [h]
          exact forward_end hc h2 hb (.intro s (.inl rfl) hm)
        · rw [h]
          exact forward_end hc h2 hb (.intro (dialed s b) (.inr ⟨hm, rfl⟩) (by simp [dialed]))
  · have hn : ∀ c, cmd.out ≠ .connect c := fun c h => hc ⟨c, h⟩
    have hh : handleOutbound cfg s i cmd auth net = forward s i cmd cmd.out := by
      unfold handleOutbound
      cases ho : cmd.out <;> first | rfl | exact absurd ho (hn _)
    rw [hh]
    unfold forward
    cases hf : s.vec.find? (fun j => decide ((s.clients j).core.clientId = (s.clients i).core.clientId)) with
    | none => exact .failed
    | some j =>
      have hs : sendToConnection s (s.clients j).broker cmd.out (i, cmd) =
          pushConn s (s.clients j).broker ⟨cmd.out, none, some (i, cmd)⟩ := by
        cases ho : cmd.out <;> first | rfl | exact absurd ho (hn _)
      simp only [hs]
      rcases pushConn_cases s (s.clients j).broker ⟨cmd.out, none, some (i, cmd)⟩ with ⟨e, he⟩ | ⟨ha, hl, he⟩
      · rw [he]; exact .failed
      · rw [he]; exact .sent j hn hf ha hl

/-! ## All steps -/

/-- How handling an inbound event ends. -/
inductive InEnd (s : State) (b : BrokerAddress) (e : Event) : State → Prop where
  | pingFailed (h : e.inb = .ping) :
      InEnd s b e (stop { s with dispatches := s.dispatches ++ [⟨b, e, false, .pong⟩] })
  | ping (h : e.inb = .ping) (ha : b ∈ s.addrs) (hl : (s.conns b).alive = true) :
      InEnd s b e (pushed { s with dispatches := s.dispatches ++ [⟨b, e, false, .pong⟩] } b ⟨.pong, none, none⟩)
  | other (h : e.inb ≠ .ping) : InEnd s b e (managerSend s { e with inb := adjust b e.inb } b false)

theorem handleInbound_end (s : State) (b : BrokerAddress) (e : Event) : InEnd s b e (finish (handleInbound s b e)) := by
  by_cases h : e.inb = .ping
  · simp only [handleInbound, h]
    rcases pushConn_cases { s with dispatches := s.dispatches ++ [⟨b, e, false, .pong⟩] } b ⟨.pong, none, none⟩ with
      ⟨x, he⟩ | ⟨ha, hl, he⟩
    · rw [he]; exact .pingFailed h
    · rw [he]; exact .ping h ha hl
  · have : handleInbound s b e = (managerSend s { e with inb := adjust b e.inb } b false, .ok ()) := by
      unfold handleInbound
      cases ho : e.inb <;> first | rfl | exact absurd ho h
    rw [this]; exact .other h

/-- One step, by cases. -/
inductive Step (cfg : Cfg) (s : State) : Act → State → Prop where
  | startOk (net : Net) (hm : s.mode = .starting)
      (s2 : State) (h2 : s2 = s ∧ cfg.config.brokerAddress ∈ s.addrs ∨ (cfg.config.brokerAddress ∉ s.addrs ∧
        s2 = dialed s cfg.config.brokerAddress)) :
      Step cfg s (.engStart net) { s2 with mode := .idle }
  | startFail (net : Net) (hm : s.mode = .starting) : Step cfg s (.engStart net) (stop s)
  | outGone (i : Nat) (auth : Outcome Bytes) (net : Net) (hm : s.mode = .idle) (hv : i ∈ s.vec) (ha : s.addrs ≠ [])
      (hq : (s.clients i).queue = []) (hp : (s.clients i).phase = .gone) : Step cfg s (.engOut i auth net) (stop s)
  | out (i : Nat) (auth : Outcome Bytes) (net : Net) (cmd : ClientCmd) (q : List ClientCmd) (s' : State)
      (hm : s.mode = .idle) (hv : i ∈ s.vec) (ha : s.addrs ≠ []) (hq : (s.clients i).queue = cmd :: q)
      (he : OutEnd cfg (takeCmd s i cmd q) i cmd auth s') : Step cfg s (.engOut i auth net) s'
  | inLost (b : BrokerAddress) (hm : s.mode = .idle) (ha : b ∈ s.addrs) (hv : s.vec ≠ []) (hq : (s.conns b).outbox = [])
      (hl : (s.conns b).alive = false) : Step cfg s (.engIn b) (stop s)
  | inb (b : BrokerAddress) (e : Event) (q : List Event) (s' : State) (hm : s.mode = .idle) (ha : b ∈ s.addrs)
      (hv : s.vec ≠ []) (hq : (s.conns b).outbox = e :: q) (he : InEnd (takeEvent s b e q) b e s') :
      Step cfg s (.engIn b) s'
  | reg (i : Nat) (q : List Nat) (hm : s.mode = .idle) (hc : s.vec = [] ∨ s.addrs ≠ []) (hq : s.regQueue = i :: q)
      (hl : s.managerAlive = true) :
      Step cfg s .engReg { s.setClient i { s.clients i with broker := cfg.config.brokerAddress } with
                           regQueue := q, vec := s.vec ++ [i], replies := s.replies + 1 }
  | regFail (i : Nat) (q : List Nat) (hm : s.mode = .idle) (hc : s.vec = [] ∨ s.addrs ≠ []) (hq : s.regQueue = i :: q)
      (hl : s.managerAlive = false) :
      Step cfg s .engReg (stop { s.setClient i { s.clients i with broker := cfg.config.brokerAddress } with
                                 regQueue := q, vec := s.vec ++ [i] })
  | regClosedStop (hm : s.mode = .idle) (hq : s.regQueue = []) (hl : s.managerAlive = false) (hv : s.vec = []) :
      Step cfg s .engRegClosed (stop s)
  | regClosed (hm : s.mode = .idle) (hq : s.regQueue = []) (hl : s.managerAlive = false) (hv : s.vec ≠ [])
      (ha : s.addrs ≠ []) : Step cfg s .engRegClosed s
  | noConn (hm : s.mode = .idle) (hv : s.vec ≠ []) (ha : s.addrs = []) : Step cfg s .engNoConn (stop s)
  | connectOk (r : Nat) (b : BrokerAddress) (x : Nat) (e : Event) (hm : s.mode = .awaitConnect r b)
      (hf : s.replyDone.find? (fun p => p.1 == r) = some (x, .resolved e)) :
      Step cfg s .engConnectDone (managerSend { s with mode := .idle } e b true)
  | connectLost (r : Nat) (b : BrokerAddress) (x : Nat) (hm : s.mode = .awaitConnect r b)
      (hf : s.replyDone.find? (fun p => p.1 == r) = some (x, .cancelled)) : Step cfg s .engConnectDone (stop s)
  | cmdEnd (b : BrokerAddress) (w : Write) (hl : (s.conns b).alive = true) (ha : b ∈ s.addrs) (hq : (s.conns b).queue = [])
      (hm : s.mode = .stopped) : Step cfg s (.connCmd b w) (endConn s b)
  | cmdOk (b : BrokerAddress) (c : ConnCmd) (q : List ConnCmd) (hl : (s.conns b).alive = true) (ha : b ∈ s.addrs)
      (hq : (s.conns b).queue = c :: q) :
      Step cfg s (.connCmd b .ok) ((connTake s b c q).setConn b
        { (connTake s b c q).conns b with written := ((connTake s b c q).conns b).written ++ [c] })
  | cmdFail (b : BrokerAddress) (c : ConnCmd) (q : List ConnCmd) (hl : (s.conns b).alive = true) (ha : b ∈ s.addrs)
      (hq : (s.conns b).queue = c :: q) : Step cfg s (.connCmd b .failed) (connTake s b c q)
  | cmdPanic (b : BrokerAddress) (c : ConnCmd) (q : List ConnCmd) (hl : (s.conns b).alive = true) (ha : b ∈ s.addrs)
      (hq : (s.conns b).queue = c :: q) : Step cfg s (.connCmd b .panicked) (endConn (connTake s b c q) b)
  | readEnd (b : BrokerAddress) (x : Item) (hl : (s.conns b).alive = true) (ha : b ∈ s.addrs)
      (hx : x = .closed ∨ x = .panicked ∨
        ∃ v t, x = .command v t ∧ (Inbound.ofCommand v = .panic ∨ ∃ inb, Inbound.ofCommand v = .ok inb ∧
          (s.conns b).resolver.tryResolve inb = none ∧ s.mode = .stopped)) :
      Step cfg s (.connRead b x) (endConn s b)
  | readSkip (b : BrokerAddress) (x : Item) (hl : (s.conns b).alive = true) (ha : b ∈ s.addrs)
      (hx : x = .error ∨ ∃ v t e, x = .command v t ∧ Inbound.ofCommand v = .err e) : Step cfg s (.connRead b x) s
  | readConnected (b : BrokerAddress) (v : MessageCommand) (t : Option Tok) (inb : Inbound) (r : Nat) (res : Resolver)
      (hl : (s.conns b).alive = true) (ha : b ∈ s.addrs) (hv : Inbound.ofCommand v = .ok inb)
      (hr : (s.conns b).resolver.tryResolve inb = some (r, res)) :
      Step cfg s (.connRead b (.command v t))
        { s.setConn b { s.conns b with resolver := res, connected := (s.conns b).connected ++ [⟨inb, t⟩] } with
          replyDone := s.replyDone ++ [(r, .resolved ⟨inb, t⟩)] }
  | readForward (b : BrokerAddress) (v : MessageCommand) (t : Option Tok) (inb : Inbound)
      (hl : (s.conns b).alive = true) (ha : b ∈ s.addrs) (hv : Inbound.ofCommand v = .ok inb)
      (hr : (s.conns b).resolver.tryResolve inb = none) (hm : s.mode ≠ .stopped) :
      Step cfg s (.connRead b (.command v t))
        (s.setConn b { s.conns b with outbox := (s.conns b).outbox ++ [⟨inb, t⟩], reads := (s.conns b).reads ++ [⟨inb, t⟩] })
  | newClient (name : String) (hl : s.managerAlive = true) :
      Step cfg s (.newClient name)
        { s.setClient s.nClients
            ⟨⟨UInt64.ofNat s.nClients, name, 0, 0⟩, .fresh, cfg.config.brokerAddress, [], [], [], [], [], []⟩ with
          nClients := s.nClients + 1 }
  | sendRegFail (i : Nat) (hl : s.managerAlive = true) (hi : i < s.nClients) (hp : (s.clients i).phase = .fresh)
      (hm : s.mode = .stopped) : Step cfg s (.sendReg i) (s.setClient i { s.clients i with phase := .gone })
  | sendReg (i : Nat) (hl : s.managerAlive = true) (hi : i < s.nClients) (hp : (s.clients i).phase = .fresh)
      (hm : s.mode ≠ .stopped) :
      Step cfg s (.sendReg i) { s.setClient i { s.clients i with phase := .waiting } with regQueue := s.regQueue ++ [i] }
  | recvReply (i : Nat) (hl : s.managerAlive = true) (hi : i < s.nClients) (hp : (s.clients i).phase = .waiting)
      (hr : 0 < s.replies) :
      Step cfg s (.recvReply i) { s.setClient i { s.clients i with phase := .ready } with replies := s.replies - 1 }
  | recvReplyFail (i : Nat) (hl : s.managerAlive = true) (hi : i < s.nClients) (hp : (s.clients i).phase = .waiting)
      (hr : s.replies = 0) (hm : s.mode = .stopped) :
      Step cfg s (.recvReply i) (s.setClient i { s.clients i with phase := .gone })
  | cancelReg (i : Nat) (hi : i < s.nClients) (hp : (s.clients i).phase = .fresh ∨ (s.clients i).phase = .waiting) :
      Step cfg s (.cancelReg i) (s.setClient i { s.clients i with phase := .gone })
  | request (i : Nat) (call : Call) (hi : i < s.nClients) (hp : (s.clients i).phase = .ready)
      (hr : call.expectsResponse = true) :
      Step cfg s (.beginCall i call)
        { s.setClient i { s.clients i with
            core := ((s.clients i).core.issue call).1,
            starting := (s.clients i).starting ++ [⟨((s.clients i).core.issue call).2, some s.issued.length⟩] } with
          issued := s.issued ++ [(i, ((s.clients i).core.issue call).2)] }
  | oneway (i : Nat) (call : Call) (hi : i < s.nClients) (hp : (s.clients i).phase = .ready)
      (hr : call.expectsResponse = false) :
      Step cfg s (.beginCall i call)
        (s.setClient i { s.clients i with
            core := ((s.clients i).core.issue call).1,
            starting := (s.clients i).starting ++ [⟨((s.clients i).core.issue call).2, none⟩] })
  | submit (i k : Nat) (cmd : ClientCmd) (hi : i < s.nClients) (hk : (s.clients i).starting[k]? = some cmd)
      (he : engineEnd s i = true) :
      Step cfg s (.submit i k)
        (s.setClient i { s.clients i with starting := (s.clients i).starting.eraseIdx k,
                                          queue := (s.clients i).queue ++ [cmd],
                                          submitted := (s.clients i).submitted ++ [cmd] })
  | refuse (i k : Nat) (cmd : ClientCmd) (hi : i < s.nClients) (hk : (s.clients i).starting[k]? = some cmd)
      (he : engineEnd s i = false) :
      Step cfg s (.submit i k)
        { s.setClient i { s.clients i with starting := (s.clients i).starting.eraseIdx k } with
          refused := s.refused ++ [(i, cmd)],
          outcomes := s.outcomes ++ (cmd.tok.toList.map fun t => (t, .cancelled)) }
  | clientNext (i : Nat) (e : Event) (q : List Event) (hi : i < s.nClients) (hp : (s.clients i).phase = .ready)
      (hq : (s.clients i).inbox = e :: q) :
      Step cfg s (.clientNext i) (s.setClient i { s.clients i with inbox := q, taken := (s.clients i).taken ++ [e] })
  | dropClient (i : Nat) (hi : i < s.nClients) (hp : (s.clients i).phase = .ready) (hs : (s.clients i).starting = []) :
      Step cfg s (.dropClient i) (s.setClient i { s.clients i with phase := .gone })
  | freeQueue (i : Nat) (hi : i < s.nClients) (hp : (s.clients i).phase = .gone) (he : engineEnd s i = false) :
      Step cfg s (.freeQueue i)
        { s.setClient i { s.clients i with queue := [] } with
          outcomes := s.outcomes ++ ((s.clients i).queue.filterMap (·.tok)).map fun t => (t, .cancelled) }
  | dropManager (hl : s.managerAlive = true)
      (h : ∀ i, i < s.nClients → (s.clients i).phase ≠ .fresh ∧ (s.clients i).phase ≠ .waiting) :
      Step cfg s .dropManager { s with managerAlive := false }

theorem step_cases {cfg : Cfg} {s s' : State} {a : Act} (h : step cfg s a = some s') : Step cfg s a s' := by
  cases a with
  | engStart net =>
    simp only [step, engStart] at h
    split at h
    · rename_i hm
      rcases newConnection_cases s net cfg.config.brokerAddress with ⟨r, hc, hr⟩ | ⟨hb, hc⟩ | ⟨hb, hc⟩
      · rw [hc] at h
        cases r with
        | ok u => exact absurd rfl hr
        | err e => simp only [Option.some.injEq] at h; subst h; exact .startFail net hm
        | panic => simp only [Option.some.injEq] at h; subst h; exact .startFail net hm
      · rw [hc] at h; simp only [Option.some.injEq] at h; subst h; exact .startOk net hm s (.inl ⟨rfl, hb⟩)
      · rw [hc] at h; simp only [Option.some.injEq] at h; subst h; exact .startOk net hm _ (.inr ⟨hb, rfl⟩)
    · exact absurd h (by simp)
  | engOut i auth net =>
    simp only [step, engOut] at h
    split at h
    · rename_i hc
      split at h
      · rename_i hq
        split at h
        · rename_i hp
          simp only [Option.some.injEq] at h; subst h; exact .outGone i auth net hc.1 hc.2.1 hc.2.2 hq hp
        · exact absurd h (by simp)
      · rename_i cmd q hq
        simp only [Option.some.injEq] at h; subst h
        exact .out i auth net cmd q _ hc.1 hc.2.1 hc.2.2 hq (handleOutbound_end ..)
    · exact absurd h (by simp)
  | engIn b =>
    simp only [step, engIn] at h
    split at h
    · rename_i hc
      split at h
      · rename_i hq
        split at h
        · exact absurd h (by simp)
        · rename_i hl
          simp only [Option.some.injEq] at h; subst h; exact .inLost b hc.1 hc.2.1 hc.2.2 hq (by simpa using hl)
      · rename_i e q hq
        simp only [Option.some.injEq] at h; subst h
        exact .inb b e q _ hc.1 hc.2.1 hc.2.2 hq (handleInbound_end ..)
    · exact absurd h (by simp)
  | engReg =>
    simp only [step, engReg] at h
    split at h
    · rename_i hc
      split at h
      · exact absurd h (by simp)
      · rename_i i q hq
        split at h
        · rename_i hl
          simp only [Option.some.injEq] at h; subst h; exact .reg i q hc.1 hc.2 hq hl
        · rename_i hl
          simp only [Option.some.injEq] at h; subst h
          exact .regFail i q hc.1 hc.2 hq (by cases hh : s.managerAlive with
            | true => exact absurd hh hl
            | false => rfl)
    · exact absurd h (by simp)
  | engRegClosed =>
    simp only [step, engRegClosed] at h
    split at h
    · rename_i hc
      split at h
      · rename_i hv
        simp only [Option.some.injEq] at h; subst h; exact .regClosedStop hc.1 hc.2.1 hc.2.2 hv
      · rename_i hv
        split at h
        · rename_i ha
          simp only [Option.some.injEq] at h; subst h; exact .regClosed hc.1 hc.2.1 hc.2.2 hv ha
        · exact absurd h (by simp)
    · exact absurd h (by simp)
  | engNoConn =>
    simp only [step, engNoConn] at h
    split at h
    · rename_i hc
      simp only [Option.some.injEq] at h; subst h; exact .noConn hc.1 hc.2.1 hc.2.2
    · exact absurd h (by simp)
  | engConnectDone =>
    simp only [step, engConnectDone] at h
    split at h
    · rename_i r b hm
      split at h
      · rename_i x e hf
        simp only [Option.some.injEq] at h; subst h; exact .connectOk r b x e hm hf
      · rename_i x hf
        simp only [Option.some.injEq] at h; subst h; exact .connectLost r b x hm hf
      · exact absurd h (by simp)
    · exact absurd h (by simp)
  | connCmd b w =>
    simp only [step, connCmd] at h
    split at h
    · rename_i hc
      split at h
      · rename_i hq
        split at h
        · rename_i hm
          simp only [Option.some.injEq] at h; subst h; exact .cmdEnd b w hc.1 hc.2 hq hm
        · exact absurd h (by simp)
      · rename_i c q hq
        cases w with
        | ok => simp only [Option.some.injEq] at h; subst h; exact .cmdOk b c q hc.1 hc.2 hq
        | failed => simp only [Option.some.injEq] at h; subst h; exact .cmdFail b c q hc.1 hc.2 hq
        | panicked => simp only [Option.some.injEq] at h; subst h; exact .cmdPanic b c q hc.1 hc.2 hq
    · exact absurd h (by simp)
  | connRead b x =>
    simp only [step, connRead] at h
    split at h
    · rename_i hc
      cases x with
      | closed => simp only [Option.some.injEq] at h; subst h; exact .readEnd b _ hc.1 hc.2 (.inl rfl)
      | panicked => simp only [Option.some.injEq] at h; subst h; exact .readEnd b _ hc.1 hc.2 (.inr (.inl rfl))
      | error => simp only [Option.some.injEq] at h; subst h; exact .readSkip b _ hc.1 hc.2 (.inl rfl)
      | command v t =>
        simp only at h
        cases hv : Inbound.ofCommand v with
        | err e =>
          rw [hv] at h; simp only [Option.some.injEq] at h; subst h
          exact .readSkip b _ hc.1 hc.2 (.inr ⟨v, t, e, rfl, hv⟩)
        | panic =>
          rw [hv] at h; simp only [Option.some.injEq] at h; subst h
          exact .readEnd b _ hc.1 hc.2 (.inr (.inr ⟨v, t, rfl, .inl hv⟩))
        | ok inb =>
          rw [hv] at h; simp only at h
          cases hr : (s.conns b).resolver.tryResolve inb with
          | some p =>
            rw [hr] at h; simp only [Option.some.injEq] at h; subst h
            exact .readConnected b v t inb p.1 p.2 hc.1 hc.2 hv hr
          | none =>
            rw [hr] at h; simp only at h
            split at h
            · rename_i hm
              simp only [Option.some.injEq] at h; subst h
              exact .readEnd b _ hc.1 hc.2 (.inr (.inr ⟨v, t, rfl, .inr ⟨inb, hv, hr, hm⟩⟩))
            · rename_i hm
              simp only [Option.some.injEq] at h; subst h
              exact .readForward b v t inb hc.1 hc.2 hv hr hm
    · exact absurd h (by simp)
  | newClient name =>
    simp only [step, newClient] at h
    split at h
    · rename_i hl; simp only [Option.some.injEq] at h; subst h; exact .newClient name hl
    · exact absurd h (by simp)
  | sendReg i =>
    simp only [step, sendReg] at h
    split at h
    · rename_i hc
      split at h
      · rename_i hm; simp only [Option.some.injEq] at h; subst h; exact .sendRegFail i hc.1 hc.2.1 hc.2.2 hm
      · rename_i hm; simp only [Option.some.injEq] at h; subst h; exact .sendReg i hc.1 hc.2.1 hc.2.2 hm
    · exact absurd h (by simp)
  | recvReply i =>
    simp only [step, recvReply] at h
    split at h
    · rename_i hc
      split at h
      · rename_i hr; simp only [Option.some.injEq] at h; subst h; exact .recvReply i hc.1 hc.2.1 hc.2.2 hr
      · rename_i hr
        split at h
        · rename_i hm
          simp only [Option.some.injEq] at h; subst h; exact .recvReplyFail i hc.1 hc.2.1 hc.2.2 (by omega) hm
        · exact absurd h (by simp)
    · exact absurd h (by simp)
  | cancelReg i =>
    simp only [step, cancelReg] at h
    split at h
    · rename_i hc; simp only [Option.some.injEq] at h; subst h; exact .cancelReg i hc.1 hc.2
    · exact absurd h (by simp)
  | beginCall i call =>
    simp only [step, beginCall] at h
    split at h
    · rename_i hc
      split at h
      · rename_i hr; simp only [Option.some.injEq] at h; subst h; exact .request i call hc.1 hc.2 hr
      · rename_i hr; simp only [Option.some.injEq] at h; subst h; exact .oneway i call hc.1 hc.2 (by simpa using hr)
    · exact absurd h (by simp)
  | submit i k =>
    simp only [step, submit] at h
    split at h
    · rename_i hi
      split at h
      · exact absurd h (by simp)
      · rename_i cmd hk
        split at h
        · rename_i he; simp only [Option.some.injEq] at h; subst h; exact .submit i k cmd hi hk he
        · rename_i he; simp only [Option.some.injEq] at h; subst h; exact .refuse i k cmd hi hk (by simpa using he)
    · exact absurd h (by simp)
  | clientNext i =>
    simp only [step, clientNext] at h
    split at h
    · rename_i hc
      split at h
      · exact absurd h (by simp)
      · rename_i e q hq; simp only [Option.some.injEq] at h; subst h; exact .clientNext i e q hc.1 hc.2 hq
    · exact absurd h (by simp)
  | dropClient i =>
    simp only [step, dropClient] at h
    split at h
    · rename_i hc; simp only [Option.some.injEq] at h; subst h; exact .dropClient i hc.1 hc.2.1 hc.2.2
    · exact absurd h (by simp)
  | freeQueue i =>
    simp only [step, freeQueue] at h
    split at h
    · rename_i hc; simp only [Option.some.injEq] at h; subst h; exact .freeQueue i hc.1 hc.2.1 hc.2.2
    · exact absurd h (by simp)
  | dropManager =>
    simp only [step, dropManager] at h
    split at h
    · rename_i hc; simp only [Option.some.injEq] at h; subst h; exact .dropManager hc.1 hc.2
    · exact absurd h (by simp)

end Neutron.Sys
