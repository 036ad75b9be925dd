import Verif.Proof.SysStop
import Verif.Props.Delivery
import Verif.Props.Requests

/-!
# The end of the engine, of clients and of connections: C31, C32/C78, C33/C79, C34/C80, C65/C95
-/

namespace Neutron.Props

open Neutron Neutron.Sys Neutron.Trace

/-! ## C31 -/

/-- The engine took the request and it waits for its response. -/
def AwaitingResponse (s : State) (t : Nat) : Prop := ∃ k, (k, t) ∈ s.resolver

theorem engineEnd_of_vec {cfg : Cfg} {s : State} (h : Reachable cfg s) (hm : s.mode = .stopped) {i : Nat} (hi : i ∈ s.vec) :
    engineEnd s i = false := by
  unfold engineEnd
  rw [hm]
  have := (List.nodup_append.mp (wf h).nodup).2.2 i hi
  have hnot : i ∉ s.regQueue := fun hx => this i hx rfl
  simp [hnot]

/-- When the engine stops, every request that was waiting for a response fails, and from then on none is waiting: the state of
being stopped is final. -/
theorem C31_waiting_fail {cfg : Cfg} {s s' : State} {a : Act} (hs : step cfg s a = some s') (hm : s.mode ≠ .stopped)
    (hm' : s'.mode = .stopped) {t : Nat} (ht : AwaitingResponse s t) : (t, TokResult.cancelled) ∈ s'.outcomes := by
  obtain ⟨k, hk⟩ := ht
  exact stop_cancels hs hm hm' hk

theorem C31_none_waiting {cfg : Cfg} {s : State} (h : Reachable cfg s) (hm : s.mode = .stopped) (t : Nat) :
    ¬ AwaitingResponse s t := by
  rintro ⟨k, hk⟩
  rw [stopped_resolver h hm] at hk
  simp at hk

theorem C31_final {cfg : Cfg} {s s' : State} {as : List Act} (hm : s.mode = .stopped) (he : exec cfg s as = some s') :
    s'.mode = .stopped := by
  induction as generalizing s with
  | nil => simp only [exec, Option.some.injEq] at he; exact he ▸ hm
  | cons a as ih =>
    simp only [exec] at he
    cases hs : step cfg s a with
    | none => rw [hs] at he; exact absurd he (by simp)
    | some s1 => rw [hs] at he; exact ih (stopped_step hs hm) he

/-- A failed request returns `ChannelTerminated`, whatever call made it. -/
theorem C31_error (call : Call) : call.resolve none = .err .channelTerminated := rfl

/-- After the stop, the hand-over of any command of a registered client is refused (`ChannelTerminated`): it is not queued, and
if it expects a response the request has failed at once. -/
theorem C31_refused {cfg : Cfg} {s : State} (h : Reachable cfg s) (hm : s.mode = .stopped) {i k : Nat} {cmd : ClientCmd}
    (hi : i ∈ s.vec) (hk : (s.clients i).starting[k]? = some cmd) :
    ∃ s', step cfg s (.submit i k) = some s' ∧ (i, cmd) ∈ s'.refused ∧ (s'.clients i).queue = (s.clients i).queue ∧
      ∀ t, cmd.tok = some t → (t, TokResult.cancelled) ∈ s'.outcomes := by
  have he := engineEnd_of_vec h hm hi
  have hlt := (wf h).vecLt i hi
  refine ⟨_, by simp only [step, Sys.submit, hlt, if_true, hk, he]; rfl, ?_, ?_, ?_⟩
  · simp
  · simp [setClient_clients]
  · intro t ht; simp [ht]

/-- After the stop, registering a new client fails: at the send, or - if the registration was already sent and no reply is
left - when waiting for the reply. -/
theorem C31_register {cfg : Cfg} {s : State} (hm : s.mode = .stopped) (hl : s.managerAlive = true) {i : Nat}
    (hi : i < s.nClients) :
    ((s.clients i).phase = .fresh → ∃ s', step cfg s (.sendReg i) = some s' ∧ (s'.clients i).phase = .gone) ∧
    ((s.clients i).phase = .waiting → s.replies = 0 → ∃ s', step cfg s (.recvReply i) = some s' ∧ (s'.clients i).phase = .gone) := by
  refine ⟨fun hp => ⟨s.setClient i { s.clients i with phase := .gone }, ?_, by simp [setClient_clients]⟩,
    fun hp hr => ⟨s.setClient i { s.clients i with phase := .gone }, ?_, by simp [setClient_clients]⟩⟩
  · simp [step, sendReg, hl, hi, hp, hm]
  · simp [step, recvReply, hl, hi, hp, hr, hm]

/-- After the stop, a registered client's reads return what is queued, in order, and then `ChannelTerminated`; never do they
wait. -/
theorem C31_reads {cfg : Cfg} {s : State} (h : Reachable cfg s) (hm : s.mode = .stopped) {i : Nat} (hi : i ∈ s.vec) :
    clientRecv s i = some (match (s.clients i).inbox with
      | e :: _ => .ok e
      | [] => .err .channelTerminated) := by
  unfold clientRecv
  cases (s.clients i).inbox with
  | nil => simp [engineEnd_of_vec h hm hi]
  | cons e q => rfl

/-- A request in the channel of a client that is not dropped, after the engine stopped: it never completes. -/
theorem hangs {cfg : Cfg} {s : State} (h : Reachable cfg s) (hm : s.mode = .stopped) {i : Nat} (hi : i < s.nClients)
    {cmd : ClientCmd} {t : Nat} (hq : cmd ∈ (s.clients i).queue) (ht : cmd.tok = some t) {as : List Act} {s' : State}
    (hp : Path cfg (fun x => (x.clients i).phase ≠ .gone) s as s') : Outstanding s' t := by
  have key : ∀ as s', Path cfg (fun x => (x.clients i).phase ≠ .gone) s as s' →
      s'.mode = .stopped ∧ i < s'.nClients ∧ cmd ∈ (s'.clients i).queue := by
    intro as s' hp
    induction hp with
    | nil _ => exact ⟨hm, hi, hq⟩
    | snoc hp hs _ ih =>
      obtain ⟨h1, h2, h3⟩ := ih
      have := queued_stays hs h1 h2 (path_end hp) h3
      exact ⟨stopped_step hs h1, this.2, this.1⟩
  obtain ⟨_, h2, h3⟩ := key as s' hp
  exact queued_outstanding (path_reachable h hp) h2 h3 ht

/-- The English claim, for all clients, is false: two clients are created at the same time, one takes the reply meant for the
other, and the engine stops before it handles its registration.  Creation has succeeded, yet any call the client then makes
is accepted and never completes. -/
theorem C43_refuted_never_served : ∃ s, Reachable cfg0 s ∧ s.mode = .stopped ∧ (s.clients 1).phase = .ready ∧ ∀ call : Call,
    call.expectsResponse = true → ∃ s1 s2, step cfg0 s (.beginCall 1 call) = some s1 ∧
      step cfg0 s1 (.submit 1 0) = some s2 ∧ s2.issued.length = s.issued.length + 1 ∧
      ∀ as s', Path cfg0 (fun x => (x.clients 1).phase ≠ .gone) s2 as s' → Outstanding s' s.issued.length := by
  obtain ⟨s, hr, hs⟩ := reachable_obs
    (as := boot ++ [.newClient "a", .newClient "b", .sendReg 0, .sendReg 1, .engReg, .recvReply 1,
      .connRead b0 .closed, .engIn b0])
    (f := fun s => (s.mode, s.nClients, (s.clients 1).phase, (s.clients 1).starting.length, s.managerAlive, s.regQueue))
    (x := (.stopped, 2, .ready, 0, true, [1])) rfl
  simp only [Prod.mk.injEq, List.length_eq_zero_iff] at hs
  obtain ⟨hm, hn, hp, hst, hl, hq⟩ := hs
  refine ⟨s, ⟨_, hr⟩, hm, hp, fun call hc => ?_⟩
  have h1 : ∃ s1, step cfg0 s (.beginCall 1 call) = some s1 ∧
      s1 = { s.setClient 1 { s.clients 1 with
            core := ((s.clients 1).core.issue call).1,
            starting := (s.clients 1).starting ++ [⟨((s.clients 1).core.issue call).2, some s.issued.length⟩] } with
          issued := s.issued ++ [(1, ((s.clients 1).core.issue call).2)] } := by
    refine ⟨_, ?_, rfl⟩
    simp [step, beginCall, hn, hp, hc]
  obtain ⟨s1, h1, he1⟩ := h1
  have hst1 : (s1.clients 1).starting = [⟨((s.clients 1).core.issue call).2, some s.issued.length⟩] := by
    rw [he1]; simp [setClient_clients, hst]
  have h2 : ∃ s2, step cfg0 s1 (.submit 1 0) = some s2 ∧ s2.issued = s1.issued ∧ s2.nClients = s1.nClients ∧ s2.mode = s1.mode ∧
      (⟨((s.clients 1).core.issue call).2, some s.issued.length⟩ : ClientCmd) ∈ (s2.clients 1).queue := by
    have he : engineEnd s1 1 = true := by rw [he1]; simp [engineEnd, hm, hl, hq]
    have hlt : 1 < s1.nClients := by rw [he1]; simp [hn]
    refine ⟨s1.setClient 1 { s1.clients 1 with starting := [], queue := (s1.clients 1).queue ++
        [⟨((s.clients 1).core.issue call).2, some s.issued.length⟩], submitted := (s1.clients 1).submitted ++
        [⟨((s.clients 1).core.issue call).2, some s.issued.length⟩] }, ?_, rfl, rfl, rfl, ?_⟩
    · simp [step, Sys.submit, hlt, hst1, he]
    · simp [setClient_clients]
  obtain ⟨s2, h2, hi2, hn2, hm2, hq2⟩ := h2
  refine ⟨s1, s2, h1, h2, by rw [hi2, he1]; simp, fun as s' hpath => ?_⟩
  have hreach : Reachable cfg0 s2 := Reachable.step (Reachable.step ⟨_, hr⟩ h1) h2
  refine hangs hreach (by rw [hm2, he1]; exact hm) (by rw [hn2, he1]; simp [hn]) hq2 rfl hpath

/-- A request waits, the connection closes, the engine stops: the request fails, later calls are refused. (A run as in C31_waiting_fail,
C31_none_waiting, C31_final, C31_refused and C31_reads; see also Props/Cases.lean.) -/
example : (go (boot ++ join 0 ++ ask 0 (.sendMessage [1]) ++ [.connRead b0 .closed, .engIn b0, .beginCall 0 (.flow 1), .submit 0 0,
      .beginCall 0 (.sendMessage [2]), .submit 0 0])).map
    (fun s => (s.mode, ended s, s.refused.length, s.vec, (s.clients 0).inbox.length)) =
    some (.stopped, [(0, false), (1, false)], 2, [0], 0) := by rfl

/-! ## C32/C78 -/

/-- Once the engine has stopped, a request that has not completed is one the engine never took: it is still with its client,
being handed over or in the client's channel. -/
theorem C78_only_untaken {cfg : Cfg} {s : State} (h : Reachable cfg s) (hm : s.mode = .stopped) {t : Nat} (ht : Outstanding s t) :
    ∃ i, i < s.nClients ∧ t ∈ withClient s i := by
  have h1 : t ∈ whereabouts s := by
    have : (whereabouts s).Perm (List.range s.issued.length) := by
      rw [whereabouts_eq]; exact allToks_perm h
    rw [this.mem_iff]; exact List.mem_range.mpr ht.1
  unfold whereabouts at h1
  rw [List.mem_append, List.mem_append] at h1
  rcases h1 with (h1 | h1) | h1
  · rw [List.mem_flatMap] at h1
    obtain ⟨i, hi, hw⟩ := h1
    exact ⟨i, List.mem_range.mp hi, hw⟩
  · rw [stopped_resolver h hm] at h1; simp at h1
  · rw [List.mem_map] at h1
    obtain ⟨⟨t', r⟩, hr, rfl⟩ := h1
    exact absurd hr (ht.2 r)

/-- What is still being handed over is refused, so it completes; what is in the channel of a dropped client is dropped with the
channel, so it completes too. -/
theorem C78_others_complete {cfg : Cfg} {s : State} (h : Reachable cfg s) (hm : s.mode = .stopped) {i : Nat}
    (hi : i ∈ s.vec) {cmd : ClientCmd} {t : Nat} (ht : cmd.tok = some t) :
    (∀ k, (s.clients i).starting[k]? = some cmd → ∃ s', step cfg s (.submit i k) = some s' ∧ (t, TokResult.cancelled) ∈ s'.outcomes) ∧
    (cmd ∈ (s.clients i).queue → (s.clients i).phase = .gone →
      ∃ s', step cfg s (.freeQueue i) = some s' ∧ (t, TokResult.cancelled) ∈ s'.outcomes) := by
  refine ⟨fun k hk => ?_, fun hq hg => ?_⟩
  · obtain ⟨s', h1, _, _, h2⟩ := C31_refused h hm hi hk
    exact ⟨s', h1, h2 t ht⟩
  · refine ⟨_, by simp only [step, freeQueue, (wf h).vecLt i hi, hg, engineEnd_of_vec h hm hi, and_self, if_true]; rfl, ?_⟩
    simp only [List.mem_append, List.mem_map, List.mem_filterMap]
    exact .inr ⟨t, ⟨cmd, hq, ht⟩, rfl⟩

/-- The full claim is false: a request handed over just before the engine stops stays in the channel; as long as the client is
not dropped (and its pending call keeps it borrowed) it never completes, with neither a response nor an error. -/
theorem C32_refuted : ∃ s, Reachable cfg0 s ∧ s.mode = .stopped ∧ s.vec = [0] ∧ s.issued.length = 1 ∧ ∀ as s',
    Path cfg0 (fun x => (x.clients 0).phase ≠ .gone) s as s' → Outstanding s' 0 := by
  obtain ⟨s, hr, hs⟩ := reachable_obs
    (as := boot ++ join 0 ++ [.beginCall 0 (.sendMessage [1]), .submit 0 0, .connRead b0 .closed, .engIn b0])
    (f := fun s => (s.mode, s.nClients, s.vec, (s.clients 0).queue.map (·.tok), s.issued.length))
    (x := (.stopped, 1, [0], [some 0], 1)) rfl
  simp only [Prod.mk.injEq] at hs
  obtain ⟨hm, hn, hv, hq, hi⟩ := hs
  refine ⟨s, ⟨_, hr⟩, hm, hv, hi, fun as s' hp => ?_⟩
  cases hql : (s.clients 0).queue with
  | nil => rw [hql] at hq; simp at hq
  | cons c q =>
    rw [hql] at hq
    simp only [List.map_cons, List.cons.injEq] at hq
    exact hangs ⟨_, hr⟩ hm (by omega) (by rw [hql]; exact List.mem_cons_self) hq.1 hp

/-- Non-vacuity of `C78_only_untaken`: such a request is where it says. -/
example : (go (boot ++ join 0 ++ [.beginCall 0 (.sendMessage [1]), .submit 0 0, .connRead b0 .closed, .engIn b0])).map
    (fun s => (s.mode, withClient s 0, s.outcomes.length)) = some (.stopped, [0], 0) := by rfl

/-! ## C33/C79 -/

/-- The drop itself touches nothing but the dropped client: no other client, nothing of the engine, no request. -/
theorem C79_drop_is_local {cfg : Cfg} {s s' : State} {i : Nat} (hs : step cfg s (.dropClient i) = some s') :
    (∀ j, j ≠ i → s'.clients j = s.clients j) ∧ s'.mode = s.mode ∧ s'.resolver = s.resolver ∧ s'.outcomes = s.outcomes ∧
    s'.vec = s.vec ∧ s'.conns = s.conns ∧ (s'.clients i).queue = (s.clients i).queue := by
  cases step_cases hs with
  | dropClient _ hi hp hst =>
    exact ⟨fun j hj => by simp [setClient_clients, hj], rfl, rfl, rfl, rfl, rfl, by simp [setClient_clients]⟩

/-- But the claim is false: the next time the engine looks at the channel of the dropped client and finds it empty, the engine
stops, so every waiting request of every client fails and (C31) every later call too. -/
theorem C33_refuted {cfg : Cfg} {s : State} {i : Nat} (hm : s.mode = .idle) (hv : i ∈ s.vec) (ha : s.addrs ≠ [])
    (hg : (s.clients i).phase = .gone) (hq : (s.clients i).queue = []) (auth : Outcome Bytes) (net : Net) :
    ∃ s', step cfg s (.engOut i auth net) = some s' ∧ s'.mode = .stopped ∧
      ∀ t, AwaitingResponse s t → (t, TokResult.cancelled) ∈ s'.outcomes := by
  have hs : step cfg s (.engOut i auth net) = some (stop s) := by simp [step, engOut, hm, hv, ha, hg, hq]
  exact ⟨_, hs, rfl, fun t ht => C31_waiting_fail hs (by simp [hm]) rfl ht⟩

/-- A run in which it happens: client 1 waits for a receipt, client 0 is dropped, client 1's send fails. -/
theorem C33_refuted_run : ∃ s, Reachable cfg0 s ∧ s.mode = .stopped ∧ s.vec = [0, 1] ∧ (s.clients 1).phase = .ready ∧
    s.issued.map (·.1) = [1] ∧ ended s = [(0, false)] := by
  obtain ⟨s, hr, hs⟩ := reachable_obs
    (as := boot ++ join 0 ++ join 1 ++ ask 1 (.sendMessage [1]) ++ [.dropClient 0, .engOut 0 (.ok []) net0])
    (f := fun s => (s.mode, s.vec, (s.clients 1).phase, s.issued.map (·.1), ended s))
    (x := (.stopped, [0, 1], .ready, [1], [(0, false)])) rfl
  simp only [Prod.mk.injEq] at hs
  exact ⟨s, ⟨_, hr⟩, hs⟩

/-! ## C34/C80 -/

/-- A connection that has ended stays so, and the engine keeps it. -/
theorem C34_stays_lost {cfg : Cfg} {s s' : State} {a : Act} (h : Reachable cfg s) (hs : step cfg s a = some s') {b : BrokerAddress}
    (hb : b ∈ s.addrs) (hl : (s.conns b).alive = false) : b ∈ s'.addrs ∧ (s'.conns b).alive = false := by
  have hd : ∀ (x : State) c, b ∈ x.addrs → (x.conns b).alive = false → c ∉ x.addrs →
      b ∈ (dialed x c).addrs ∧ ((dialed x c).conns b).alive = false := by
    intro x c hx hy hc
    have : b ≠ c := fun hbc => hc (hbc ▸ hx)
    exact ⟨by simp [dialed, hx], by simp [dialed, setConn_conns, this, hy]⟩
  have hpu : ∀ (x : State) c k, b ∈ x.addrs → (x.conns b).alive = false →
      b ∈ (pushed x c k).addrs ∧ ((pushed x c k).conns b).alive = false := by
    intro x c k hx hy
    refine ⟨hx, ?_⟩
    unfold pushed
    simp only [setConn_conns]
    split
    · rename_i hbc; subst hbc; exact hy
    · exact hy
  have hen : ∀ (x : State) c, b ∈ x.addrs → (x.conns b).alive = false →
      b ∈ (endConn x c).addrs ∧ ((endConn x c).conns b).alive = false := by
    intro x c hx hy
    refine ⟨hx, ?_⟩
    unfold endConn
    simp only [setConn_conns]
    split
    · rfl
    · exact hy
  have hprep : ∀ (x y : State) (i : Nat) c c2 b2, Prep cfg x i c c2 b2 y → b ∈ x.addrs → (x.conns b).alive = false →
      b ∈ y.addrs ∧ (y.conns b).alive = false := by
    intro x y i c c2 b2 hp hx hy
    cases hp with
    | intro s2 hd2 hb2 =>
      have h1 : b ∈ s2.addrs ∧ (s2.conns b).alive = false := by
        rcases hd2 with rfl | ⟨hn, rfl⟩
        · exact ⟨hx, hy⟩
        · exact hd x b2 hx hy hn
      split
      · exact h1
      · exact h1
  have htk : ∀ i cmd q, b ∈ (takeCmd s i cmd q).addrs ∧ ((takeCmd s i cmd q).conns b).alive = false := by
    intro i cmd q; exact ⟨by simpa using hb, by simpa using hl⟩
  have hct : ∀ x c q, b ∈ (connTake s x c q).addrs ∧ ((connTake s x c q).conns b).alive = false := by
    intro x c q
    refine ⟨by simpa using hb, ?_⟩
    rw [connTake_conns]; split
    · rename_i hbx; subst hbx; exact hl
    · exact hl
  cases step_cases hs with
  | startOk net hm s2 h2 =>
    rcases h2 with ⟨rfl, _⟩ | ⟨hn, rfl⟩
    · exact ⟨hb, hl⟩
    · exact hd s _ hb hl hn
  | out j auth net cmd q s'' hm hv ha hq he =>
    have := htk j cmd q
    cases he with
    | failed => exact this
    | lost c c2 b s3 hcc h2 hb hp => exact hprep _ s3 _ _ _ _ hp this.1 this.2
    | sent => exact hpu _ _ _ this.1 this.2
    | connecting c c2 b s3 k hcc h2 hb hp hj ha hl =>
      have h3 := hprep _ _ _ _ _ _ hp this.1 this.2
      exact hpu s3 _ _ h3.1 h3.2
  | inb x e q s'' hm ha hv hq he =>
    have ht : b ∈ (takeEvent s x e q).addrs ∧ ((takeEvent s x e q).conns b).alive = false := by
      refine ⟨by simpa using hb, ?_⟩
      unfold takeEvent; simp only [setConn_conns]; split
      · rename_i hbx; subst hbx; exact hl
      · exact hl
    cases he with
    | pingFailed => exact ht
    | ping => exact hpu _ _ _ ht.1 ht.2
    | other => exact ⟨by simpa using ht.1, by simpa using ht.2⟩
  | connectOk => exact ⟨by simpa using hb, by simpa using hl⟩
  | cmdEnd x | readEnd x => exact hen s x hb hl
  | cmdOk x c q =>
    have := hct x c q
    refine ⟨this.1, ?_⟩
    simp only [setConn_conns]; split
    · rename_i hbx; subst hbx; exact this.2
    · exact this.2
  | cmdFail x c q => exact hct x c q
  | cmdPanic x c q =>
    have := hct x c q
    exact hen _ x this.1 this.2
  | readConnected x | readForward x =>
    refine ⟨hb, ?_⟩
    simp only [setConn_conns]; split
    · rename_i hbx; subst hbx; exact hl
    · exact hl
  | _ => exact ⟨by simpa using hb, by simpa using hl⟩

/-- While the engine waits for events and has a client, a lost connection always gives it something to do: it can take the next
event received from that connection, or stop.  It never goes on without it. -/
theorem C34_never_ignored {cfg : Cfg} {s : State} {b : BrokerAddress} (hm : s.mode = .idle) (hv : s.vec ≠ []) (hb : b ∈ s.addrs)
    (hl : (s.conns b).alive = false) :
    ∃ s', step cfg s (.engIn b) = some s' ∧
      ((s.conns b).outbox = [] → s' = stop s) ∧
      (∀ e q, (s.conns b).outbox = e :: q → (s'.conns b).outbox = q ∧ (s'.conns b).dispatched = (s.conns b).dispatched ++ [e]) := by
  cases ho : (s.conns b).outbox with
  | nil => exact ⟨stop s, by simp [step, engIn, hm, hv, hb, hl, ho], fun _ => rfl, fun e q h => by simp at h⟩
  | cons e q =>
    refine ⟨finish (handleInbound (takeEvent s b e q) b e), by simp [step, engIn, hm, hv, hb, ho], fun h => by simp at h, ?_⟩
    intro e' q' h
    simp only [List.cons.injEq] at h
    obtain ⟨rfl, rfl⟩ := h
    have ht : ((takeEvent s b e q).conns b).outbox = q ∧
        ((takeEvent s b e q).conns b).dispatched = (s.conns b).dispatched ++ [e] := by
      unfold takeEvent; simp [setConn_conns]
    have hend := handleInbound_end (takeEvent s b e q) b e
    generalize finish (handleInbound (takeEvent s b e q) b e) = z at hend
    cases hend with
    | pingFailed => simpa using ht
    | ping => simpa [pushed, setConn_conns] using ht
    | other => simpa using ht

/-- If no ping is among them, everything received from a lost connection is processed, in order, and then the engine stops. -/
theorem C80_without_ping_partial {cfg : Cfg} {s : State} {b : BrokerAddress} (hm : s.mode = .idle) (hv : s.vec ≠ []) (hb : b ∈ s.addrs)
    (hl : (s.conns b).alive = false) (hp : ∀ e, e ∈ (s.conns b).outbox → e.inb ≠ .ping) :
    ∃ s1, exec cfg s (List.replicate (s.conns b).outbox.length (.engIn b)) = some s1 ∧ s1.mode = .idle ∧
      (s1.conns b).dispatched = (s.conns b).dispatched ++ (s.conns b).outbox ∧
      step cfg s1 (.engIn b) = some (stop s1) := by
  generalize hl' : (s.conns b).outbox = l
  rw [hl'] at hp
  induction l generalizing s with
  | nil => exact ⟨s, rfl, hm, by simp, by simp [step, engIn, hm, hv, hb, hl, hl']⟩
  | cons e q ih =>
    obtain ⟨s', hs', _, h2⟩ := C34_never_ignored (cfg := cfg) hm hv hb hl
    obtain ⟨h3, h4⟩ := h2 e q hl'
    have hstep := step_cases hs'
    cases hstep with
    | inLost _ _ _ _ hq => rw [hl'] at hq; simp at hq
    | inb _ e2 q2 _ _ _ _ hq he =>
      rw [hl'] at hq
      simp only [List.cons.injEq] at hq
      obtain ⟨rfl, rfl⟩ := hq
      have hne := hp e (by simp)
      cases he with
      | pingFailed hx => exact absurd hx hne
      | ping hx => exact absurd hx hne
      | other _ =>
        have hal : ((takeEvent s b e q).conns b).alive = false := by unfold takeEvent; simp [setConn_conns, hl]
        obtain ⟨s1, g1, g2, g3, g4⟩ := ih (s := managerSend (takeEvent s b e q) { e with inb := adjust b e.inb } b false)
          (by simpa using hm) (by simpa using hv) (by simpa using hb) (by simpa using hal)
          (fun x hx => hp x (List.mem_cons_of_mem _ hx)) h3
        refine ⟨s1, ?_, g2, ?_, g4⟩
        · rw [List.length_cons, List.replicate_succ]
          simp only [exec, hs']
          exact g1
        · rw [g3, h4]; simp

theorem stopped_dispatches {cfg : Cfg} {s s' : State} {as : List Act} (hm : s.mode = .stopped) (he : exec cfg s as = some s') :
    s'.dispatches = s.dispatches := by
  induction as generalizing s with
  | nil => simp only [exec, Option.some.injEq] at he; rw [he]
  | cons a as ih =>
    simp only [exec] at he
    cases hs : step cfg s a with
    | none => rw [hs] at he; exact absurd he (by simp)
    | some s1 =>
      rw [hs] at he
      rw [ih (stopped_step hs hm) he]
      have hst := step_cases hs
      clear hs
      cases hst <;> simp_all

theorem exec_nClients {cfg : Cfg} {s s' : State} {as : List Act} (he : exec cfg s as = some s') : s.nClients ≤ s'.nClients := by
  induction as generalizing s with
  | nil => simp only [exec, Option.some.injEq] at he; exact Nat.le_of_eq (by rw [he])
  | cons a as ih =>
    simp only [exec] at he
    cases hs : step cfg s a with
    | none => rw [hs] at he; exact absurd he (by simp)
    | some s1 =>
      rw [hs] at he
      refine Nat.le_trans ?_ (ih he)
      cases step_cases hs with
      | startOk net hm s2 h2 => rcases h2 with ⟨rfl, hb⟩ | ⟨hb, rfl⟩ <;> simp
      | out i auth net cmd q s' hm hv ha hq he =>
        cases he with
        | lost c c2 b s3 hcc h2 hb hp => simp [hp.nClients]
        | connecting c c2 b s3 j hcc h2 hb hp hj ha hl => simp [hp.nClients]
        | _ => simp
      | inb b e q s' hm ha hv hq he => cases he <;> simp
      | _ => simp

theorem exec_reachable {cfg : Cfg} {s s' : State} {as : List Act} (h : Reachable cfg s) (he : exec cfg s as = some s') :
    Reachable cfg s' := by
  obtain ⟨bs, hr⟩ := h
  exact ⟨_, run_of_exec hr he⟩

/-- The full claim is false: a ping that was received before the connection closed makes the engine stop (the pong cannot be
sent), and a message received behind it never reaches its consumer. -/
theorem C80_refuted : ∃ s s', Reachable cfg0 s ∧ s.mode = .idle ∧ (s.clients 0).phase = .ready ∧ (s.conns b0).alive = false ∧
    (addressedTo (s.clients 0).core.clientId (messagesIn (s.conns b0).outbox)).length = 1 ∧
    step cfg0 s (.engIn b0) = some s' ∧ s'.mode = .stopped ∧
    ∀ as s'', exec cfg0 s' as = some s'' → (s''.clients 0).taken ++ (s''.clients 0).inbox = [] := by
  have hgo := reachable_obs
    (as := boot ++ join 0 ++ [.connRead b0 (.command pingCommand none), .connRead b0 (.command (messageC 0 [1]) none),
      .connRead b0 .closed])
    (f := fun s => ((s.mode, (s.clients 0).phase, (s.conns b0).alive,
        (addressedTo (s.clients 0).core.clientId (messagesIn (s.conns b0).outbox)).length),
      (step cfg0 s (.engIn b0)).map fun s' => (s'.mode, s'.nClients, deliveredTo s'.dispatches 0)))
    (x := ((.idle, .ready, false, 1), some (.stopped, 1, []))) rfl
  obtain ⟨s, hr, hs⟩ := hgo
  rw [Prod.mk.injEq] at hs
  obtain ⟨h1, h2⟩ := hs
  simp only [Prod.mk.injEq] at h1
  obtain ⟨g1, g2, g3, g4⟩ := h1
  cases hst : step cfg0 s (.engIn b0) with
  | none => rw [hst] at h2; simp at h2
  | some s' =>
    rw [hst] at h2
    simp only [Option.map_some, Option.some.injEq, Prod.mk.injEq] at h2
    obtain ⟨k1, k2, k3⟩ := h2
    refine ⟨s, s', ⟨_, hr⟩, g1, g2, g3, g4, hst, k1, fun as s'' he => ?_⟩
    have hr' : Reachable cfg0 s' := Reachable.step ⟨_, hr⟩ hst
    have hlt : 0 < s''.nClients := by have := exec_nClients he; omega
    have hpre := (evt (exec_reachable hr' he)).prefixed 0 hlt
    rw [stopped_dispatches k1 he, k3] at hpre
    exact List.eq_nil_of_prefix_nil hpre

/-- The hypotheses of C80_without_ping_partial, C34_stays_lost and C34_never_ignored are met: a receipt and a message are in the channel of a lost connection. -/
example : (go (boot ++ join 0 ++ ask 0 (.sendMessage [1]) ++ [.connRead b0 (.command (receiptC 0 0) none),
      .connRead b0 (.command (messageC 0 [1]) none), .connRead b0 .closed])).map
    (fun s => (s.mode, s.vec, (s.conns b0).alive, (s.conns b0).outbox.length)) = some (.idle, [0], false, 2) := by rfl

/-! ## C65/C95 -/

/-- After the engine stopped, a live connection can write everything already queued for it, in order, and then ends. -/
theorem C95_flush {cfg : Cfg} {s : State} (h : Reachable cfg s) {b : BrokerAddress} (hm : s.mode = .stopped) (hb : b ∈ s.addrs)
    (hl : (s.conns b).alive = true) :
    ∃ s1 s2, exec cfg s (List.replicate (s.conns b).queue.length (.connCmd b .ok)) = some s1 ∧
      (s1.conns b).written = (s.conns b).written ++ (s.conns b).queue ∧ (s1.conns b).queue = [] ∧
      step cfg s1 (.connCmd b .ok) = some s2 ∧ (s2.conns b).alive = false := by
  generalize hq : (s.conns b).queue = l
  induction l generalizing s with
  | nil =>
    refine ⟨s, endConn s b, rfl, by simp, hq, ?_, by simp [endConn, setConn_conns]⟩
    simp [step, Sys.connCmd, hl, hb, hq, hm, NeutronError.isDisconnect]
  | cons c q ih =>
    have hct : ((connTake s b c q).conns b).written = (s.conns b).written ∧ ((connTake s b c q).conns b).queue = q ∧
        ((connTake s b c q).conns b).alive = true ∧ (connTake s b c q).mode = s.mode ∧ (connTake s b c q).addrs = s.addrs := by
      unfold connTake; split <;> simp [setConn_conns, hl]
    generalize hx : (connTake s b c q).setConn b { (connTake s b c q).conns b with
      written := ((connTake s b c q).conns b).written ++ [c] } = s'
    have hs : step cfg s (.connCmd b .ok) = some s' := by
      rw [← hx]; simp only [step, Sys.connCmd, hl, hb, hq, and_self, if_true]
    have hf : (s'.conns b).written = (s.conns b).written ++ [c] ∧ (s'.conns b).queue = q ∧ (s'.conns b).alive = true ∧
        s'.mode = s.mode ∧ s'.addrs = s.addrs := by
      rw [← hx]
      simp only [setConn_conns, if_true, hct, setConn_mode, setConn_addrs, and_self]
    obtain ⟨s1, s2, g1, g2, g3, g4, g5⟩ := ih (h.step hs) (by rw [hf.2.2.2.1, hm]) (by rw [hf.2.2.2.2]; exact hb) hf.2.2.1 hf.2.1
    refine ⟨s1, s2, ?_, ?_, g3, g4, g5⟩
    · rw [List.length_cons, List.replicate_succ]
      simp only [exec, hs]
      exact g1
    · rw [g2, hf.1]; simp

/-- While the connection lives and the engine is stopped, what it has taken from its channel followed by what is still queued
does not change: nothing is dropped from the queue, added or reordered. -/
theorem C95_order {cfg : Cfg} {s s' : State} {a : Act} (h : Reachable cfg s) (hs : step cfg s a = some s')
    {b : BrokerAddress} (hm : s.mode = .stopped) :
    (s'.conns b).processed ++ (s'.conns b).queue = (s.conns b).processed ++ (s.conns b).queue := by
  rw [← ((conn h).ok b).fifo, ← ((conn (h.step hs)).ok b).fifo, (conn h).accepted, (conn (h.step hs)).accepted]
  have hst := step_cases hs
  clear hs
  cases hst <;> simp_all

/-- The full claim is false: if the broker sends anything more after the engine stopped, the connection ends at once and what
was queued is never written. -/
theorem C65_refuted : ∃ s, Reachable cfg0 s ∧ s.mode = .stopped ∧ (s.conns b0).alive = true ∧ (s.conns b0).queue.length = 1 ∧
    ∃ s', step cfg0 s (.connRead b0 (.command (messageC 0 [1]) none)) = some s' ∧ (s'.conns b0).alive = false ∧
      (s'.conns b0).written = [] ∧ ∀ w, step cfg0 s' (.connCmd b0 w) = none := by
  obtain ⟨s, hr, hs⟩ := reachable_obs
    (as := boot ++ join 0 ++ join 1 ++ ask 1 (.sendMessage [1]) ++ [.dropClient 0, .engOut 0 (.ok []) net0])
    (f := fun s => ((s.mode, (s.conns b0).alive, (s.conns b0).queue.length),
      (step cfg0 s (.connRead b0 (.command (messageC 0 [1]) none))).map fun s' => ((s'.conns b0).alive, (s'.conns b0).written)))
    (x := ((.stopped, true, 1), some (false, []))) rfl
  rw [Prod.mk.injEq] at hs
  obtain ⟨h1, h2⟩ := hs
  simp only [Prod.mk.injEq] at h1
  cases hst : step cfg0 s (.connRead b0 (.command (messageC 0 [1]) none)) with
  | none => rw [hst] at h2; simp at h2
  | some s' =>
    rw [hst] at h2
    simp only [Option.map_some, Option.some.injEq, Prod.mk.injEq] at h2
    exact ⟨s, ⟨_, hr⟩, h1.1, h1.2.1, h1.2.2, s', hst, h2.1, h2.2, fun w => by simp [step, Sys.connCmd, h2.1]⟩

end Neutron.Props
