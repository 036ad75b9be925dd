import Verif.Spec.Lifetime
import Verif.Spec.Traces
import Verif.Proof.SysPlaced
import Verif.Props.Progress
import Verif.Props.Routing

/-!
# Why the engine and connections end: C79, C84, C97, C98, C99
-/

namespace Neutron.Props

open Neutron Neutron.Sys Neutron.Trace

/-! ## C97: the engine stops only for a reason -/

theorem openConnection_home {cfg : Cfg} {s : State} (h : Reachable cfg s) {i : Nat} {cmd : ClientCmd} {q : List ClientCmd} (hi : i ∈ s.vec)
    (hq : (s.clients i).queue = cmd :: q) {c : Connect} (hc : cmd.out = .connect c) {b : BrokerAddress}
    (hb : connectAddress cfg c.brokerAddress = some b) (net : Net) :
    openConnection net b = openConnection net cfg.config.brokerAddress := by
  have hlt := (wf h).vecLt i hi
  have hmade : MadeBy i cmd := made h i hlt cmd
    (List.mem_append_right _ (((Sys.cmd h).submitted i hlt).subset (List.mem_append_right _ (by rw [hq]; simp))))
  apply openConnection_base
  obtain ⟨core, call, _, ho, _⟩ := hmade
  rw [hc] at ho
  cases call <;> simp only [Client.issue, Outbound.connect.injEq, reduceCtorEq] at ho
  · subst ho; simp only [connectAddress, Option.some.injEq] at hb; rw [← hb]
  · subst ho
    simp only [connectAddress, ne_eq, not_true_eq_false, if_false, Option.some.injEq] at hb
    rw [← hb]; rfl

/-- Passing a command on fails only if the connection it has to go to has ended. -/
theorem forward_fails {cfg : Cfg} {x : State} {i : Nat} {cmd : ClientCmd} {o : Outbound} (hp : Placed cfg x) (hi : i ∈ x.vec)
    (hf : (forward x i cmd o).2 ≠ .ok ()) : ∃ b, b ∈ x.addrs ∧ (x.conns b).alive = false := by
  unfold forward at hf
  cases hj : x.vec.find? (fun j => decide ((x.clients j).core.clientId = (x.clients i).core.clientId)) with
  | none =>
    have := List.find?_eq_none.mp hj i hi
    simp at this
  | some j =>
    rw [hj] at hf
    simp only at hf
    have hb := hp.broker j (List.mem_of_find?_eq_some hj)
    refine ⟨_, hb, ?_⟩
    cases hal : (x.conns (x.clients j).broker).alive with
    | false => rfl
    | true =>
      exfalso
      apply hf
      unfold sendToConnection pushConn
      split <;> simp [hb, hal]

theorem forward_mode {x : State} {i : Nat} {cmd : ClientCmd} {o : Outbound} (hm : x.mode ≠ .stopped)
    (hf : (forward x i cmd o).2 = .ok ()) : (forward x i cmd o).1.mode ≠ .stopped := by
  unfold forward at hf ⊢
  split
  · rename_i j hj
    rw [hj] at hf
    unfold sendToConnection at hf ⊢
    split
    · rcases pushConn_cases x (x.clients j).broker ⟨.connect _, some x.nextReply, some (i, cmd)⟩ with ⟨e, he⟩ | ⟨_, _, he⟩
      · rw [he]; exact hm
      · rw [he]; simp
    · rcases pushConn_cases x (x.clients j).broker ⟨_, none, some (i, cmd)⟩ with ⟨e, he⟩ | ⟨_, _, he⟩
      · rw [he]; exact hm
      · rw [he]; exact hm
  · exact hm

theorem out_stops {cfg : Cfg} {s : State} (h : Reachable cfg s) {i : Nat} {cmd : ClientCmd} {q : List ClientCmd} {auth : Outcome Bytes}
    {net : Net} (hm : s.mode = .idle) (hi : i ∈ s.vec) (hq : (s.clients i).queue = cmd :: q)
    (hs : (finish (handleOutbound cfg (takeCmd s i cmd q) i cmd auth net)).mode = .stopped) :
    StopReason cfg s (.engOut i auth net) := by
  have hp1 : Placed cfg (takeCmd s i cmd q) := (placed h).congr (.inl (by simp)) (by simp) (by simp) (fun j _ => by
    rw [takeCmd_clients]; split
    · rename_i hj; subst hj; rfl
    · rfl)
  have hlost : ∀ b, b ∈ (takeCmd s i cmd q).addrs → ((takeCmd s i cmd q).conns b).alive = false →
      StopReason cfg s (.engOut i auth net) := fun b hb hd => .connection _ b (by simpa using hb) (by simpa using hd)
  have hfin : ∀ x o, Placed cfg x → i ∈ x.vec → x.mode = .idle → (finish (forward x i cmd o)).mode = .stopped →
      ∃ b, b ∈ x.addrs ∧ (x.conns b).alive = false := by
    intro x o hpx hix hmx hfx
    refine forward_fails (cfg := cfg) (cmd := cmd) (o := o) hpx hix fun hok => ?_
    refine forward_mode (x := x) (by rw [hmx]; simp) hok ?_
    unfold finish at hfx
    rw [hok] at hfx
    exact hfx
  by_cases hc : ∃ c, cmd.out = .connect c
  · obtain ⟨c, hc⟩ := hc
    have hnext : NextIsConnect s i := ⟨c, cmd.tok, q, by rw [hq, ← hc]⟩
    simp only [handleOutbound, hc] at hs
    have hnocred : (∀ c2, connectFor cfg c auth ≠ .ok c2) → NoCredentials cfg auth := by
      intro hn
      unfold connectFor at hn
      cases ham : cfg.authMethod with
      | none => exact absurd rfl (hn _ |> fun h => by simp only [ham] at h; exact h)
      | some m =>
        refine ⟨by rw [ham]; simp, fun d hd => ?_⟩
        simp only [ham, hd] at hn
        exact hn _ rfl
    cases h2 : connectFor cfg c auth with
    | err e => exact .credentials i auth net hnext (hnocred (by simp [h2]))
    | panic => exact .credentials i auth net hnext (hnocred (by simp [h2]))
    | ok c2 =>
      have hca : c2.brokerAddress = connectAddress cfg c.brokerAddress := by
        unfold connectFor at h2
        cases ham : cfg.authMethod with
        | none => simp only [ham, Outcome.ok.injEq] at h2; rw [← h2]
        | some m =>
          rw [ham] at h2
          cases auth <;> simp only [Outcome.ok.injEq, reduceCtorEq] at h2
          rw [← h2]
      rw [h2] at hs
      simp only at hs
      cases hb : c2.brokerAddress with
      | none =>
        rw [hca] at hb
        unfold connectAddress at hb
        split at hb <;> simp at hb
      | some b =>
        rw [hb] at hs
        simp only at hs
        have hprep : ∀ s2, (s2 = takeCmd s i cmd q ∨ (b ∉ (takeCmd s i cmd q).addrs ∧ s2 = dialed (takeCmd s i cmd q) b)) → b ∈ s2.addrs →
            (finish (forward (if b ≠ cfg.config.brokerAddress then moveClient s2 (s2.clients i).core.clientId b else s2) i cmd
              (.connect c2))).mode = .stopped → StopReason cfg s (.engOut i auth net) := by
          intro s2 hd hb2 hs2
          have hp := Prep.intro (cfg := cfg) (i := i) (c := c) (c2 := c2) s2 hd hb2
          obtain ⟨b', hb', hdead⟩ := hfin _ _ (hp1.prep hp) (by
            rcases hd with rfl | ⟨_, rfl⟩ <;> split <;> simpa [moveClient, dialed] using hi) (by
            rcases hd with rfl | ⟨_, rfl⟩ <;> split <;> simpa [moveClient, dialed] using hm) hs2
          have hx : b' ∈ s2.addrs ∧ (s2.conns b').alive = false := by
            split at hb' <;> rename_i hne
            · rw [if_pos hne] at hdead; exact ⟨hb', hdead⟩
            · rw [if_neg hne] at hdead; exact ⟨hb', hdead⟩
          rcases hd with rfl | ⟨hnb, rfl⟩
          · exact hlost b' hx.1 hx.2
          · have hne : b' ≠ b := by
              rintro rfl
              simp [dialed, setConn_conns, freshConn] at hx
            refine hlost b' ?_ ?_
            · simpa [dialed, hne] using hx.1
            · simpa [dialed, setConn_conns, hne] using hx.2
        rcases newConnection_cases (takeCmd s i cmd q) net b with ⟨r, hr, hne⟩ | ⟨hmem, hr⟩ | ⟨hmem, hr⟩
        · refine .dial i auth net hnext fun t ht => hne ?_
          rw [← openConnection_home h hi hq hc (by rw [← hca]; exact hb) net] at ht
          unfold newConnection at hr
          rw [ht] at hr
          split at hr
          · simp only [Prod.mk.injEq] at hr; exact hr.2.symm
          · simp only [Prod.mk.injEq] at hr; exact hr.2.symm
        · rw [hr] at hs
          exact hprep _ (.inl rfl) hmem hs
        · rw [hr] at hs
          exact hprep _ (.inr ⟨hmem, rfl⟩) (by simp [dialed]) hs
  · have hn : ∀ c, cmd.out ≠ .connect c := fun c h => hc ⟨c, h⟩
    have hh : handleOutbound cfg (takeCmd s i cmd q) i cmd auth net = forward (takeCmd s i cmd q) i cmd cmd.out := by
      unfold handleOutbound
      cases ho : cmd.out <;> first | rfl | exact absurd ho (hn _)
    rw [hh] at hs
    obtain ⟨b, hb, hd⟩ := hfin _ _ hp1 (by simpa using hi) (by simpa using hm) hs
    exact hlost b hb hd

/-- The engine stops only for one of the reasons of `StopReason`. -/
theorem C97_why {cfg : Cfg} {s s' : State} {a : Act} (h : Reachable cfg s) (hs : step cfg s a = some s') (hm : s.mode ≠ .stopped)
    (hst : s'.mode = .stopped) : StopReason cfg s a := by
  have hs0 := hs
  cases step_cases hs with
  | startOk net hm' s2 h2 => simp at hst
  | startFail net hm' =>
    refine .start net fun t ht => ?_
    simp only [step, engStart, hm'] at hs0
    unfold newConnection at hs0
    rw [ht] at hs0
    split at hs0
    · rename_i heq
      simp only [Option.some.injEq] at hs0
      have := congrArg State.mode hs0
      simp [stop] at this
    · rename_i hne heq
      exfalso
      split at heq
      · simp only [Prod.mk.injEq] at heq
        exact hne _ heq.2.symm
      · simp only [Prod.mk.injEq] at heq
        exact hne _ heq.2.symm
  | outGone i auth net hm' hv ha hq hp => exact .dropped i auth net hv hp hq
  | out i auth net cmd q s' hm' hv ha hq he =>
    refine out_stops h hm' hv hq ?_
    simp only [step, engOut, hm', hv, ha, ne_eq, not_false_eq_true, and_self, if_true, hq, Option.some.injEq] at hs0
    rw [hs0]; exact hst
  | inLost b hm' ha hv hq hl => exact .connection _ b ha hl
  | inb b e q s' hm' ha hv hq he =>
    cases he with
    | pingFailed hping =>
      refine .connection _ b ha ?_
      cases hal : (s.conns b).alive with
      | false => rfl
      | true =>
        exfalso
        simp only [step, engIn, hm', ha, hv, ne_eq, not_false_eq_true, and_self, if_true, hq, Option.some.injEq, handleInbound, hping] at hs0
        rcases pushConn_cases { takeEvent s b e q with dispatches := (takeEvent s b e q).dispatches ++ [⟨b, e, false, .pong⟩] } b
          ⟨.pong, none, none⟩ with ⟨x, he⟩ | ⟨_, _, he⟩
        · unfold pushConn at he
          simp [takeEvent, setConn_conns, ha, hal] at he
        · rw [he] at hs0
          have := congrArg State.mode hs0
          simp [finish, pushed, takeEvent, stop, hm'] at this
    | ping hping _ _ => simp [pushed, takeEvent, hm'] at hst
    | other _ => simp [takeEvent, hm'] at hst
  | reg => simp_all
  | regFail i q hm' hc hq hl => exact .manager _ hl
  | regClosedStop hm' hq hl hv => exact .manager _ hl
  | regClosed => exact absurd hst hm
  | noConn hm' hv ha =>
    have := (placed h).home (by rw [hm']; simp) (by rw [hm']; simp)
    rw [ha] at this; simp at this
  | connectOk r b x e hm' hf => simp at hst
  | connectLost r b x hm' hf =>
    have h1 := List.mem_of_find?_eq_some hf
    have h2 := List.find?_some hf
    simp only [beq_iff_eq] at h2
    subst h2
    obtain ⟨b', c', hc', hr', hd⟩ := (wait h).cancelled _ h1
    have hb' : b' ∈ s.addrs := by
      refine Classical.byContradiction fun hb => ?_
      rw [(conn h).unused b' hb] at hd
      simp [freshConn] at hd
    exact .connection _ b' hb' hd
  | cmdEnd b w hl ha hq hm' => exact absurd hm' hm
  | _ => exact absurd (by simpa using hst) hm

/-- While nothing of the sort has happened. -/
structure Fine (s : State) : Prop where
  mode : s.mode ≠ .stopped
  manager : s.managerAlive = true
  clients : ∀ i, (s.clients i).phase ≠ .gone
  conns : ∀ b, (s.conns b).alive = true

theorem Fine.step {cfg : Cfg} {s s' : State} {a : Act} (h : Reachable cfg s) (hf : Fine s) (hs : step cfg s a = some s')
    (ha : ¬ Trouble cfg a) : Fine s' := by
  have hmode : s'.mode ≠ .stopped := by
    intro hst
    cases C97_why h hs hf.mode hst with
    | start net hu => exact ha hu
    | dropped i auth net hi hg _ => exact hf.clients i hg
    | credentials i auth net _ hn => exact ha (.inl hn)
    | dial i auth net _ hn => exact ha (.inr hn)
    | connection a b _ hd => rw [hf.conns b] at hd; simp at hd
    | manager a hm => rw [hf.manager] at hm; simp at hm
  have hcl : ∀ (j : Nat) (c : ClientSt), c.phase ≠ .gone → ∀ i, ((s.setClient j c).clients i).phase ≠ .gone := by
    intro j c hc i
    rw [setClient_clients]; split
    · exact hc
    · exact hf.clients i
  have hns := hf.mode
  have hprep : ∀ {x s3 : State} {i : Nat} {c c2 : Connect} {b : BrokerAddress}, (∀ i, (x.clients i).phase ≠ .gone) →
      (∀ b, (x.conns b).alive = true) → x.managerAlive = true → Prep cfg x i c c2 b s3 →
      (∀ i, (s3.clients i).phase ≠ .gone) ∧ (∀ b, (s3.conns b).alive = true) ∧ s3.managerAlive = true := by
    intro x s3 i c c2 b h1 h2 h3 hp
    obtain ⟨s2, hd, hb⟩ := hp
    have h4 : (∀ i, (s2.clients i).phase ≠ .gone) ∧ (∀ b, (s2.conns b).alive = true) ∧ s2.managerAlive = true := by
      rcases hd with rfl | ⟨_, rfl⟩
      · exact ⟨h1, h2, h3⟩
      · refine ⟨h1, fun y => ?_, h3⟩
        simp only [dialed, setConn_conns]; split
        · rfl
        · exact h2 y
    split
    · refine ⟨fun j => ?_, h4.2⟩
      simp only [moveClient]; split <;> exact h4.1 j
    · exact h4
  have hpush : ∀ (x : State) b c, (∀ b, (x.conns b).alive = true) → ∀ b', ((pushed x b c).conns b').alive = true := by
    intro x b c hx b'
    simp only [pushed, setConn_conns]; split
    · exact hx b
    · exact hx b'
  cases step_cases hs with
  | startOk net hm' s2 h2 =>
    rcases h2 with ⟨rfl, hb⟩ | ⟨hb, rfl⟩
    · exact ⟨hmode, hf.manager, hf.clients, hf.conns⟩
    · refine ⟨hmode, hf.manager, hf.clients, fun y => ?_⟩
      simp only [dialed, setConn_conns]; split
      · rfl
      · exact hf.conns y
  | startFail | outGone | inLost | regFail | regClosedStop | noConn | connectLost => exact absurd rfl hmode
  | out i auth net cmd q s' hm' hv haa hq he =>
    have h1 : ∀ j, ((takeCmd s i cmd q).clients j).phase ≠ .gone := by
      intro j; rw [takeCmd_clients]; split
      · rename_i hj; subst hj; exact hf.clients j
      · exact hf.clients j
    have h2 : ∀ b, ((takeCmd s i cmd q).conns b).alive = true := by intro b; simpa using hf.conns b
    have h3 : (takeCmd s i cmd q).managerAlive = true := by simpa using hf.manager
    cases he with
    | failed => exact absurd rfl hmode
    | lost => exact absurd rfl hmode
    | sent j hn hj ha' hl => exact ⟨hmode, h3, h1, hpush _ _ _ h2⟩
    | connecting c c2 b s3 j hcc h2' hb hp hj ha' hl =>
      obtain ⟨h4, h5, h6⟩ := hprep h1 h2 h3 hp
      exact ⟨hmode, h6, h4, hpush _ _ _ h5⟩
  | inb b e q s' hm' haa hv hq he =>
    have h2 : ∀ x, ((takeEvent s b e q).conns x).alive = true := by
      intro x; simp only [takeEvent, setConn_conns]; split
      · exact hf.conns b
      · exact hf.conns x
    cases he with
    | pingFailed => exact absurd rfl hmode
    | ping => exact ⟨hmode, hf.manager, hf.clients, hpush _ _ _ h2⟩
    | other _ => exact ⟨hmode, by simpa [takeEvent] using hf.manager, fun j => by simpa [takeEvent] using hf.clients j,
        fun x => by simpa using h2 x⟩
  | reg i q hm' hc hq hl =>
    exact ⟨hmode, hf.manager, hcl i _ (hf.clients i), hf.conns⟩
  | regClosed => exact hf
  | connectOk r b x e hm' hfd =>
    exact ⟨hmode, by simpa using hf.manager, fun j => by simpa using hf.clients j, fun x => by simpa using hf.conns x⟩
  | cmdEnd b w hl haa hq hm' => exact absurd hm' hns
  | cmdOk b c q hl haa hq =>
    refine ⟨hmode, by simpa using hf.manager, fun j => by simpa using hf.clients j, fun x => ?_⟩
    simp only [setConn_conns]; split
    · simpa using hf.conns b
    · simpa using hf.conns x
  | cmdFail b c q hl haa hq =>
    exact ⟨hmode, by simpa using hf.manager, fun j => by simpa using hf.clients j, fun x => by simpa using hf.conns x⟩
  | cmdPanic => exact absurd rfl ha
  | readEnd b x hl haa hx =>
    exfalso
    rcases hx with rfl | rfl | ⟨v, t, rfl, h1 | ⟨_, _, _, h1⟩⟩
    · exact ha trivial
    · exact ha trivial
    · exact ha h1
    · exact hns h1
  | readSkip => exact hf
  | readConnected b v t inb r res hl haa hv hres =>
    refine ⟨hmode, hf.manager, hf.clients, fun x => ?_⟩
    simp only [setConn_conns]; split
    · exact hf.conns b
    · exact hf.conns x
  | readForward b v t inb hl haa hv hres hm' =>
    refine ⟨hmode, hf.manager, hf.clients, fun x => ?_⟩
    simp only [setConn_conns]; split
    · exact hf.conns b
    · exact hf.conns x
  | newClient name hl => exact ⟨hmode, hf.manager, hcl _ _ (by simp), hf.conns⟩
  | sendRegFail i _ _ _ hm' => exact absurd hm' hns
  | sendReg i => exact ⟨hmode, hf.manager, hcl _ _ (by simp), hf.conns⟩
  | recvReply i => exact ⟨hmode, hf.manager, hcl _ _ (by simp), hf.conns⟩
  | recvReplyFail i _ _ _ _ hm' => exact absurd hm' hns
  | cancelReg => exact absurd trivial ha
  | request i | oneway i | submit i | clientNext i => exact ⟨hmode, hf.manager, hcl _ _ (hf.clients i), hf.conns⟩
  | refuse i _ _ _ _ he =>
    exact absurd he (by unfold engineEnd; cases hm' : s.mode <;> simp_all)
  | dropClient => exact absurd trivial ha
  | freeQueue i hi hp he => exact absurd hp (hf.clients i)
  | dropManager => exact absurd trivial ha

/-- If nothing of the kind happens - no client or manager is dropped, no connection closes or panics, the plugin gives
credentials and the configured broker can be reached - the engine keeps running, whatever else happens. -/
theorem C97_keeps_running {cfg : Cfg} {as : List Act} {s : State} (h : Run cfg as s) (ha : ∀ a, a ∈ as → ¬ Trouble cfg a) :
    s.mode ≠ .stopped := by
  have : Fine s := by
    induction h with
    | nil => exact ⟨by simp [Sys.init], rfl, by simp [Sys.init], by simp [Sys.init, freshConn]⟩
    | snoc hr hs ih => exact (ih fun a h => ha a (by simp [h])).step ⟨_, hr⟩ hs (ha _ (by simp))
  exact this.mode

theorem reachable_net0 : ¬ Unreachable cfg0 net0 := fun h => h .tcp rfl

/-- Non-vacuity of `C97_keeps_running`: two clients, a send with its receipt, a message, a flow command that fails to be
written, garbage that is skipped - and the engine runs. -/
example : ∃ (as : List Act) (s : State), Run cfg0 as s ∧ (∀ a, a ∈ as → ¬ Trouble cfg0 a) ∧ s.mode = .idle ∧ s.vec = [0, 1] ∧
    s.outcomes.length = 1 ∧ s.dispatches.length = 2 ∧ as.length = 23 := by
  have hp : ∀ x : Sys.Act, x ∈ boot ++ join 0 ++ join 1 ++ ask 1 (.sendMessage [1]) ++ [.connCmd b0 .ok] ++ say b0 (receiptC 1 0) (some 0) ++
      say b0 (messageC 0 [1]) none ++ [.clientNext 0] ++ ask 0 (.flow 5) ++ [.connCmd b0 .failed, .connRead b0 .error] →
      ¬ Trouble cfg0 x := by
    have hin : ∀ v inb, Inbound.ofCommand v = .ok inb → ∀ t, ¬ Trouble cfg0 (.connRead b0 (.command v t)) := by
      intro v inb hv t ht
      simp only [Trouble] at ht
      rw [hv] at ht; simp at ht
    have hout : ∀ i d, ¬ Trouble cfg0 (.engOut i (.ok d) net0) := by
      intro i d ht
      rcases ht with ⟨h, _⟩ | h
      · exact h rfl
      · exact reachable_net0 h
    simp only [boot, join, ask, say, List.cons_append, List.nil_append, List.mem_cons, List.not_mem_nil, or_false]
    rintro x (rfl | rfl | rfl | rfl | rfl | rfl | rfl | rfl | rfl | rfl | rfl | rfl | rfl | rfl | rfl | rfl | rfl | rfl | rfl | rfl | rfl | rfl | rfl | rfl)
    all_goals first
      | exact reachable_net0
      | exact hout _ _
      | (intro h; cases h; done)
      | exact hin _ _ rfl _
      | (intro h; exact h)
  obtain ⟨s, hr, hs⟩ := reachable_obs (f := fun s => (s.mode, s.vec, s.outcomes.length, s.dispatches.length))
    (x := (.idle, [0, 1], 1, 2)) (as := boot ++ join 0 ++ join 1 ++ ask 1 (.sendMessage [1]) ++ [.connCmd b0 .ok] ++
      say b0 (receiptC 1 0) (some 0) ++ say b0 (messageC 0 [1]) none ++ [.clientNext 0] ++ ask 0 (.flow 5) ++
      [.connCmd b0 .failed, .connRead b0 .error]) rfl
  simp only [Prod.mk.injEq] at hs
  exact ⟨_, s, hr, hp, hs.1, hs.2.1, hs.2.2.1, hs.2.2.2, rfl⟩

/-- Non-vacuity of `C97_why`: the engine stops because the broker behind the proxy cannot be dialled. -/
example : ∃ s s', Reachable cfg0 s ∧ s.mode = .idle ∧ step cfg0 s (.engOut 0 (.ok []) netDown) = some s' ∧ s'.mode = .stopped ∧
    (∀ b, b ∈ s.addrs → (s.conns b).alive = true) := by
  obtain ⟨s, hr, hs⟩ := reachable_obs (as := boot ++ join 0 ++ [.beginCall 0 (.connectToProxy "pulsar://z:1"), .submit 0 0])
    (f := fun s => (s.mode, s.addrs, (s.conns b0).alive, (step cfg0 s (.engOut 0 (.ok []) netDown)).map (·.mode)))
    (x := (.idle, [b0], true, some .stopped)) rfl
  simp only [Prod.mk.injEq, Option.map_eq_some_iff] at hs
  obtain ⟨h1, h2, h3, s', h4, h5⟩ := hs
  exact ⟨s, s', ⟨_, hr⟩, h1, h4, h5, by simp [h2, h3]⟩

/-! ## C98: losing a connection -/

/-- What holds: if the connection had taken the `Connect` from its channel (written or not), its end ends the engine's wait.
(If the engine is not waiting, see `C34_never_ignored`.)  What is missing: a `Connect` still in the channel, see `C98_refuted`. -/
theorem C98_partial {cfg : Cfg} {s : State} (h : Reachable cfg s) {r : Nat} {b : BrokerAddress} (hm : s.mode = .awaitConnect r b)
    (hd : (s.conns b).alive = false) (ht : ∀ c, c ∈ (s.conns b).queue → c.reply ≠ some r) :
    ∃ s', step cfg s .engConnectDone = some s' ∧ (s'.mode = .idle ∨ s'.mode = .stopped) := by
  have hin : ∃ x, (r, x) ∈ s.replyDone := by
    rcases (wait h).await r b hm with hp | hx
    · exfalso
      unfold pending at hp
      rw [(wait h).dead b hd] at hp
      simp only [List.map_nil, List.append_nil] at hp
      obtain ⟨c, hc, hcr⟩ := List.mem_filterMap.mp hp
      exact ht c hc hcr
    · exact hx
  cases hf : s.replyDone.find? (fun p => p.1 == r) with
  | none =>
    obtain ⟨x, hx⟩ := hin
    have := List.find?_eq_none.mp hf _ hx
    simp at this
  | some p =>
    obtain ⟨k, y⟩ := p
    cases y with
    | resolved e => exact ⟨managerSend { s with mode := .idle } e b true, by simp only [step, engConnectDone, hm, hf], .inl (by simp)⟩
    | cancelled => exact ⟨stop s, by simp only [step, engConnectDone, hm, hf], .inr rfl⟩

/-- The connection is lost after the `Connect` was written; the engine then stops. (The hypotheses of C98_partial are met.) -/
example : ∃ s, Reachable cfg0 s ∧ s.mode = .awaitConnect 0 b0 ∧ (s.conns b0).alive = false ∧
    (∀ c, c ∈ (s.conns b0).queue → c.reply ≠ some 0) ∧ (step cfg0 s .engConnectDone).map (·.mode) = some .stopped := by
  obtain ⟨s, hr, hs⟩ := reachable_obs (as := boot ++ join 0 ++ ask 0 .connect ++ [.connCmd b0 .ok, .connRead b0 .closed])
    (f := fun s => (s.mode, (s.conns b0).alive, (s.conns b0).queue.length, (step cfg0 s .engConnectDone).map (·.mode)))
    (x := (.awaitConnect 0 b0, false, 0, some .stopped)) rfl
  simp only [Prod.mk.injEq, List.length_eq_zero_iff] at hs
  exact ⟨s, ⟨_, hr⟩, hs.1, hs.2.1, by simp [hs.2.2.1], hs.2.2.2⟩

/-- The full claim is false: if the connection ends while the `Connect` is still in its channel, the engine waits for ever. Nothing
anyone can do changes that: no command of any client is ever taken or passed on, no request completes, no client receives
anything, and the engine does not even stop. -/
theorem C98_refuted {cfg : Cfg} {s : State} (h : Reachable cfg s) {r : Nat} {b : BrokerAddress} (hm : s.mode = .awaitConnect r b)
    (hd : (s.conns b).alive = false) (hn : ∀ x, (r, x) ∉ s.replyDone) {as : List Act} {s' : State} (he : exec cfg s as = some s') :
    s'.mode = .awaitConnect r b ∧ s'.outcomes = s.outcomes ∧ s'.sent = s.sent ∧
    ∀ i, i < s.nClients → (s'.clients i).handled = (s.clients i).handled ∧
      (s'.clients i).taken ++ (s'.clients i).inbox = (s.clients i).taken ++ (s.clients i).inbox := by
  have key : ∀ (as : List Act) (x : State), Reachable cfg x → Blocked r b s x → (x.conns b).alive = false → exec cfg x as = some s' →
      Blocked r b s s' := by
    intro as
    induction as with
    | nil => intro x _ hx _ he; simp only [exec, Option.some.injEq] at he; exact he ▸ hx
    | cons a as ih =>
      intro x hr hx hxd he
      simp only [exec] at he
      cases hs : step cfg x a with
      | none => rw [hs] at he; exact absurd he (by simp)
      | some y =>
        rw [hs] at he
        have hb : b ∈ x.addrs := by
          refine Classical.byContradiction fun hb => ?_
          rw [(conn hr).unused b hb] at hxd
          simp [freshConn] at hxd
        exact ih y (hr.step hs) (hx.step hr hs (fun hl => by rw [hxd] at hl; simp at hl)) (C34_stays_lost hr hs hb hxd).2 he
  have := key as s h ⟨hm, hn, .inr hd, rfl, rfl, rfl, rfl, Nat.le_refl _, fun _ _ => rfl, fun _ _ => rfl⟩ hd he
  exact ⟨this.mode, this.outcomes, this.sent, fun i hi => ⟨this.handled i hi, this.got i hi⟩⟩

/-- A run in which it happens: client 1 waits for the receipt of a send, client 0 asks to connect, and the broker closes the
connection before the `Connect` is written. -/
theorem C98_refuted_run : ∃ s, Reachable cfg0 s ∧ s.mode = .awaitConnect 0 b0 ∧ (s.conns b0).alive = false ∧
    (∀ x, (0, x) ∉ s.replyDone) ∧ Outstanding s 0 ∧ Outstanding s 1 := by
  obtain ⟨s, hr, hs⟩ := reachable_obs
    (as := boot ++ join 0 ++ join 1 ++ ask 1 (.sendMessage [1]) ++ ask 0 .connect ++ [.connCmd b0 .ok, .connRead b0 .closed])
    (f := fun s => (s.mode, (s.conns b0).alive, s.replyDone.length, s.outcomes.length, s.issued.length))
    (x := (.awaitConnect 0 b0, false, 0, 0, 2)) rfl
  simp only [Prod.mk.injEq, List.length_eq_zero_iff] at hs
  obtain ⟨h1, h2, h3, h4, h5⟩ := hs
  exact ⟨s, ⟨_, hr⟩, h1, h2, by simp [h3], ⟨by omega, by simp [h4]⟩, ⟨by omega, by simp [h4]⟩⟩

/-! ## C99: a connection ends only for a reason -/

/-- A connection ends only for one of the reasons of `EndReason`. -/
theorem C99_why {cfg : Cfg} {s s' : State} {a : Act} {b : BrokerAddress} (hs : step cfg s a = some s')
    (hl : (s.conns b).alive = true) (hd : (s'.conns b).alive = false) : EndReason s b a := by
  have hne : ∀ {x : Prop}, (s'.conns b).alive = (s.conns b).alive → x := fun he => by rw [he, hl] at hd; simp at hd
  have hdial : ∀ (y : State) c, (y.conns b).alive = true → ((dialed y c).conns b).alive = true := by
    intro y c hy
    simp only [dialed, setConn_conns]; split
    · rfl
    · exact hy
  have hpush : ∀ (y : State) c k, (y.conns b).alive = true → ((pushed y c k).conns b).alive = true := by
    intro y c k hy
    simp only [pushed, setConn_conns]; split
    · rename_i hb; subst hb; exact hy
    · exact hy
  have hno : ∀ {x : Prop}, (s'.conns b).alive = true → x := fun he => by rw [he] at hd; simp at hd
  have hprep : ∀ {y s3 : State} {i : Nat} {c c2 : Connect} {b' : BrokerAddress}, (y.conns b).alive = true →
      Prep cfg y i c c2 b' s3 → (s3.conns b).alive = true := by
    intro y s3 i c c2 b' hy hp
    obtain ⟨s2, hd2, hb⟩ := hp
    have h4 : (s2.conns b).alive = true := by
      rcases hd2 with rfl | ⟨_, rfl⟩
      · exact hy
      · exact hdial _ _ hy
    split <;> simpa using h4
  cases step_cases hs with
  | startOk net hm s2 h2 =>
    rcases h2 with ⟨rfl, _⟩ | ⟨_, rfl⟩
    · exact hne rfl
    · exact hno (hdial s _ hl)
  | out i auth net cmd q s' hm hv ha hq he =>
    have h1 : ((takeCmd s i cmd q).conns b).alive = true := by simpa using hl
    cases he with
    | failed => exact hno h1
    | lost c c2 b' s3 hcc h2 hb hp => exact hno (show (s3.conns b).alive = true from hprep h1 hp)
    | sent j hn hj ha' hl' => exact hno (hpush _ _ _ h1)
    | connecting c c2 b' s3 j hcc h2 hb hp hj ha' hl' => exact hno (hpush _ _ _ (hprep h1 hp))
  | inb x e q s' hm ha hv hq he =>
    have h1 : ((takeEvent s x e q).conns b).alive = true := by
      simp only [takeEvent, setConn_conns]; split
      · rename_i hb; subst hb; exact hl
      · exact hl
    cases he with
    | pingFailed => exact hno h1
    | ping => exact hno (hpush _ _ _ h1)
    | other _ => exact hno (by simpa using h1)
  | cmdEnd x w hl' ha hq hm =>
    by_cases hbx : b = x
    · subst hbx; exact .noCommands w hm hq
    · refine hno ?_
      simpa [endConn, setConn_conns, hbx] using hl
  | cmdOk x c q hl' ha hq =>
    refine hno ?_
    simp only [setConn_conns]; split
    · rename_i hb; subst hb; simpa using hl
    · simpa using hl
  | cmdFail x c q hl' ha hq => exact hno (by simpa using hl)
  | cmdPanic x c q hl' ha hq =>
    by_cases hbx : b = x
    · subst hbx; exact .encoder
    · refine hno ?_
      simpa [endConn, setConn_conns, hbx] using hl
  | readEnd x it hl' ha hx =>
    by_cases hbx : b = x
    · subst hbx
      rcases hx with rfl | rfl | ⟨v, t, rfl, h1 | ⟨_, _, _, h1⟩⟩
      · exact .closed
      · exact .decoder
      · exact .conversion v t h1
      · exact .noReader v t h1
    · refine hno ?_
      simpa [endConn, setConn_conns, hbx] using hl
  | readConnected x v t inb r res hl' ha hv hres =>
    refine hno ?_
    simp only [setConn_conns]; split
    · rename_i hb; subst hb; exact hl
    · exact hl
  | readForward x v t inb hl' ha hv hres hm =>
    refine hno ?_
    simp only [setConn_conns]; split
    · rename_i hb; subst hb; exact hl
    · exact hl
  | connectOk r x y e hm hf => exact hne (by simp)
  | _ => exact hne (by first | rfl | simp)

/-- In a whole execution: a connection that is not running has ended, in one of the steps taken, for one of the reasons. In
particular a connection just opened is running. -/
theorem C99_in_run {cfg : Cfg} {as : List Act} {s : State} {b : BrokerAddress} (h : Run cfg as s)
    (hd : (s.conns b).alive = false) :
    ∃ pre a post s0, as = pre ++ a :: post ∧ Run cfg pre s0 ∧ (s0.conns b).alive = true ∧ EndReason s0 b a := by
  induction h with
  | nil => exact absurd hd (by simp [init, freshConn])
  | @snoc as s s' a hr hs ih =>
    cases hl : (s.conns b).alive with
    | true => exact ⟨as, a, [], s, by simp, hr, hl, C99_why hs hl hd⟩
    | false =>
      obtain ⟨pre, x, post, s0, he, h1, h2, h3⟩ := ih hl
      exact ⟨pre, x, post ++ [a], s0, by simp [he], h1, h2, h3⟩

/-- In particular errors never end a connection: a frame that cannot be decoded, an unsupported command and a failed write are
skipped, and a connection goes on until its peer closes it or the engine stops. -/
theorem C99_errors_skipped {cfg : Cfg} {s s' : State} {b : BrokerAddress} :
    (step cfg s (.connRead b .error) = some s' → s' = s) ∧
    (∀ v ans e, Inbound.ofCommand v = .err e → step cfg s (.connRead b (.command v ans)) = some s' → s' = s) ∧
    (∀ c q, (s.conns b).queue = c :: q → step cfg s (.connCmd b .failed) = some s' → (s'.conns b).alive = (s.conns b).alive ∧
      (s'.conns b).queue = q) := by
  refine ⟨fun hs => ?_, fun v ans e hv hs => ?_, fun c q hq hs => ?_⟩
  · simp only [step, connRead] at hs
    split at hs
    · simpa using hs.symm
    · simp at hs
  · simp only [step, connRead, hv] at hs
    split at hs
    · simpa using hs.symm
    · simp at hs
  · simp only [step, connCmd, hq] at hs
    split at hs
    · simp only [Option.some.injEq] at hs
      subst hs
      exact ⟨by simp, by rw [connTake_conns, if_pos rfl]⟩
    · simp at hs

/-- Non-vacuity of `C99_why`: the broker closes a connection. -/
example : ∃ s s', Reachable cfg0 s ∧ s.mode = .idle ∧ (s.conns b0).alive = true ∧ step cfg0 s (.connRead b0 .closed) = some s' ∧
    (s'.conns b0).alive = false := by
  obtain ⟨s, hr, hs⟩ := reachable_obs (as := boot ++ join 0)
    (f := fun s => (s.mode, (s.conns b0).alive, (step cfg0 s (.connRead b0 .closed)).map fun s => (s.conns b0).alive))
    (x := (.idle, true, some false)) rfl
  simp only [Prod.mk.injEq, Option.map_eq_some_iff] at hs
  obtain ⟨h1, h2, s', h3, h4⟩ := hs
  exact ⟨s, s', ⟨_, hr⟩, h1, h2, h3, h4⟩

/-! ## C79: what a dropped client had queued -/

/-- When the engine stops because it finds the channel of a dropped client empty, every command that client ever handed over
has been passed on to a connection, in order. -/
theorem C79_served {cfg : Cfg} {s s' : State} (h : Reachable cfg s) {i : Nat} {auth : Outcome Bytes} {net : Net}
    (hs : step cfg s (.engOut i auth net) = some s') (hst : s'.mode = .stopped) (hcred : ¬ NoCredentials cfg auth)
    (hnet : ¬ Unreachable cfg net) (hal : ∀ b, b ∈ s.addrs → (s.conns b).alive = true) (hman : s.managerAlive = true)
    (hn : s.nClients ≤ 2 ^ 64) :
    (s.clients i).phase = .gone ∧ (passedOn s.sent i).map (·.2) = (s.clients i).submitted := by
  have hm : s.mode = .idle := by
    simp only [step, engOut] at hs
    split at hs
    · rename_i hx; exact hx.1
    · simp at hs
  cases C97_why h hs (by rw [hm]; simp) hst with
  | dropped _ _ _ hi hg hq =>
    have hlt := (wf h).vecLt i hi
    refine ⟨hg, ?_⟩
    have h1 := (Sys.cmd h).submittedEq i hlt (.inr (by rw [hm]; simp))
    rw [hq, List.append_nil] at h1
    rw [((Sys.cmd h).routedEq hn (by rw [hm]; simp) i hlt).1, routeAll_map_snd, h1]
  | credentials _ _ _ _ hx => exact absurd hx hcred
  | dial _ _ _ _ hx => exact absurd hx hnet
  | connection _ b hb hx => rw [hal b hb] at hx; simp at hx
  | manager _ hx => rw [hman] at hx; simp at hx

/-- A consumer sends two flow commands, is dropped, and the engine stops for it. (The hypotheses of C79_served are met.) -/
example : ∃ s s', Reachable cfg0 s ∧ step cfg0 s (.engOut 0 (.ok []) net0) = some s' ∧ s'.mode = .stopped ∧
    (∀ b, b ∈ s.addrs → (s.conns b).alive = true) ∧ s.managerAlive = true ∧ s.nClients = 1 ∧ (s.clients 0).submitted.length = 2 := by
  obtain ⟨s, hr, hs⟩ := reachable_obs
    (as := boot ++ join 0 ++ [.beginCall 0 (.flow 1), .submit 0 0, .beginCall 0 (.flow 2), .submit 0 0, .dropClient 0,
      .engOut 0 (.ok []) net0, .engOut 0 (.ok []) net0])
    (f := fun s => ((step cfg0 s (.engOut 0 (.ok []) net0)).map (·.mode), s.addrs, (s.conns b0).alive, s.managerAlive, s.nClients,
      (s.clients 0).submitted.length)) (x := (some .stopped, [b0], true, true, 1, 2)) rfl
  simp only [Prod.mk.injEq, Option.map_eq_some_iff] at hs
  obtain ⟨⟨s', h1, h2⟩, h3, h4, h5, h6, h7⟩ := hs
  exact ⟨s, s', ⟨_, hr⟩, h1, h2, by simp [h3, h4], h5, h6, h7⟩

/-! ## C84: panics of the engine -/

/-- In no reachable state does the engine panic, except when the authentication plugin panics, or when a connection is opened and
doing so for the configured URL panics. -/
theorem C84_engine {cfg : Cfg} {s : State} (h : Reachable cfg s) {a : Act} (hp : EnginePanics cfg s a) :
    (∃ i net, a = .engOut i .panic net) ∨
    ∃ net, openConnection net cfg.config.brokerAddress = .panic ∧ (a = .engStart net ∨ ∃ i auth, a = .engOut i auth net) := by
  cases a with
  | engStart net =>
    right
    refine ⟨net, ?_, .inl rfl⟩
    have := hp.2
    unfold newConnection at this
    split at this
    · simp at this
    · cases ho : openConnection net cfg.config.brokerAddress with
      | ok t => simp [ho] at this
      | err e => simp [ho] at this
      | panic => rfl
  | engOut i auth net =>
    obtain ⟨_, hi, cmd, q, hq, hx⟩ := hp
    rcases C84_outbound h hi hq hx with rfl | ho
    · exact .inl ⟨i, net, rfl⟩
    · exact .inr ⟨net, ho, .inr ⟨i, auth, rfl⟩⟩
  | engIn b =>
    obtain ⟨_, e, q, _, hx⟩ := hp
    exact absurd hx (C84_inbound _ _ _)
  | _ => exact absurd hp (by simp [EnginePanics])

/-- The plugin panics while a `Connect` is handled. (The hypotheses of C84_engine are met.) -/
example : ∃ s, Reachable cfgA s ∧ EnginePanics cfgA s (.engOut 0 .panic net0) := by
  have hx : ((exec cfgA (init cfgA) (boot ++ join 0 ++ [.beginCall 0 .connect, .submit 0 0])).map
      fun s => (s.mode, s.vec, (s.clients 0).queue.length,
        (match (s.clients 0).queue with
         | cmd :: q => (match (handleOutbound cfgA (takeCmd s 0 cmd q) 0 cmd .panic net0).2 with | .panic => true | _ => false)
         | [] => false))) = some (.idle, [0], 1, true) := rfl
  rw [Option.map_eq_some_iff] at hx
  obtain ⟨s, he, hs⟩ := hx
  simp only [Prod.mk.injEq] at hs
  obtain ⟨h1, h2, _, h4⟩ := hs
  refine ⟨s, reachable_of_exec he, h1, by simp [h2], ?_⟩
  cases hq : (s.clients 0).queue with
  | nil => rw [hq] at h4; simp at h4
  | cons cmd q =>
    rw [hq] at h4
    refine ⟨cmd, q, rfl, ?_⟩
    cases ho : (handleOutbound cfgA (takeCmd s 0 cmd q) 0 cmd .panic net0).2 with
    | panic => rfl
    | ok _ => simp [ho] at h4
    | err _ => simp [ho] at h4

end Neutron.Props
