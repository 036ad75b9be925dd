import Verif.Spec.Waiting
import Verif.Proof.AppReach
import Verif.Props.AppLive

/-!
# C126: a response that has arrived reaches the call that waits for it
-/

namespace Neutron.Props

open Neutron App World

variable {T : Type}

/-- The response is read once what came before it has been. -/
theorem reads_it {cfg : World.Cfg T} {log l1 : List World.Act} {w w1 : World T} (h : World.Run cfg log w)
    (h1 : worldSteps cfg w l1 = some w1) {b : BrokerAddress} {pre post : List (MessageCommand × Bytes)} {v : MessageCommand}
    {bytes part : Bytes} (hsent : HasSent b log (pre ++ (v, bytes) :: post) part) (hnew : (w.rx b).out.length ≤ pre.length)
    (hpolls : pre.length < (w.rx b).out.length + l1.countP (World.Act.polls b)) :
    ∃ (x : List World.Act) (ans : Option Sys.Tok) (y : List World.Act) (wa wb : World T), l1 = x ++ .poll b ans :: y ∧
      worldSteps cfg w x = some wa ∧ World.step cfg wa (.poll b ans) = some wb ∧ worldSteps cfg wb y = some w1 ∧
      (Framed.pollNext (wa.rx b).framed (wa.rx b).socket).1 = .item v := by
  obtain ⟨done, rem, hfr, hout, hfront⟩ := front_of h hsent
  have hlen : (w.rx b).out.length = done.length := by rw [hout]; simp
  have hrem : ∃ pre', pre = done ++ pre' ∧ rem = pre' ++ (v, bytes) :: post := by
    rcases List.append_eq_append_iff.mp hfr with ⟨y, e1, e2⟩ | ⟨y, e1, e2⟩
    · cases y with
      | nil => exact ⟨[], by simpa using e1.symm, by simpa using e2.symm⟩
      | cons z y =>
        exfalso
        have := congrArg List.length e1
        simp at this
        omega
    · exact ⟨y, e1, e2⟩
  obtain ⟨pre', hpre, hrem⟩ := hrem
  rw [hrem] at hfront
  have hwhole := hsent.whole
  exact polled (v := (v, bytes)) (hwhole _ (by simp)) l1 pre'
    (fun f hf => hwhole f (by rw [hpre]; simp [hf])) hfront h1 (by
      have : pre.length = done.length + pre'.length := by rw [hpre]; simp
      omega)

theorem poll_reads {cfg : World.Cfg T} {wa wb : World T} {b : BrokerAddress} {ans : Option Sys.Tok} {v : MessageCommand}
    (e3 : World.step cfg wa (.poll b ans) = some wb) (e5 : (Framed.pollNext (wa.rx b).framed (wa.rx b).socket).1 = .item v) :
    Sys.step cfg.sys wa.sys (.connRead b (.command v ans)) = some wb.sys := by
  simp only [World.step] at e3
  split at e3
  · rw [e5] at e3
    simp only [item, Option.toList, List.map_cons, List.map_nil, sysSteps] at e3
    cases hz : Sys.step cfg.sys wa.sys (.connRead b (.command v ans)) with
    | none => simp [hz] at e3
    | some s =>
      simp only [hz, Option.some.injEq] at e3
      rw [← e3]; rfl
  · cases e3

theorem passed_mono {l l' : List (BrokerAddress × Sys.ConnCmd)} (h : l <+: l') {i : Nat} {p : BrokerAddress × Sys.ClientCmd}
    (hp : p ∈ Sys.passedOn l i) : p ∈ Sys.passedOn l' i := by
  obtain ⟨r, hr⟩ := h
  rw [← hr]
  unfold Sys.passedOn at hp ⊢
  rw [List.filterMap_append]
  exact List.mem_append_left _ hp

/-- In a whole instance: the request has been passed on, and the response to it is among what the broker has sent, not read yet.
Once the connection task has polled its socket often enough to read what came before and the response itself, and the engine has
then handled what was passed to it, the request is completed. -/
theorem C126_completes {cfg : World.Cfg T} {log l1 l2 : List World.Act} {w w1 w2 : World T} (h : World.Run cfg log w)
    (h1 : worldSteps cfg w l1 = some w1) (h2 : worldSteps cfg w1 l2 = some w2) {b b' : BrokerAddress}
    {pre post : List (MessageCommand × Bytes)} {v : MessageCommand} {bytes part : Bytes}
    (hsent : HasSent b log (pre ++ (v, bytes) :: post) part) (hnew : (w.rx b).out.length ≤ pre.length)
    {i t : Nat} {cmd : Sys.ClientCmd} (hc : (b', cmd) ∈ Sys.passedOn w.sys.sent i) (ht : cmd.tok = some t)
    {inb : Inbound} (hv : Inbound.ofCommand v = .ok inb) (ha : Sys.Answers cmd.out inb) (hn : inb ≠ .connected)
    (hpolls : pre.length < (w.rx b).out.length + l1.countP (World.Act.polls b))
    (hserved : (w1.sys.conns b).outbox.length ≤ l2.countP (World.Act.handles b)) : Sys.Done w2.sys t := by
  have hreach : Sys.Reachable cfg.sys w.sys := by obtain ⟨lg, hl, _⟩ := sys_log h; exact ⟨lg, hl⟩
  obtain ⟨k, hk, hk'⟩ := Sys.key_of_answers ha
  obtain ⟨x, ans, y, wa, wb, e1, e2, e3, e4, e5⟩ := reads_it h h1 hsent hnew hpolls
  have hra := reachable_world hreach e2
  have hwb : worldSteps cfg wa [.poll b ans] = some wb := by simp only [worldSteps, e3]
  have hrb := reachable_world hra hwb
  have hread := poll_reads e3 e5
  have hcb : (b', cmd) ∈ Sys.passedOn wb.sys.sent i :=
    passed_mono ((sent_world e2).trans (sent_world hwb)) hc
  rcases taken_pending hrb hcb ht hk with hf | hd
  · rcases read_forward hra hread hv hn with ⟨_, hm⟩ | hq
    · rw [Sys.stopped_resolver hrb hm] at hf; cases hf
    · obtain ⟨as, hp, _⟩ := continues_world y e4
      rcases path_answer hrb hp hq hk' hf with hd | ⟨hf', p', q', hq', _⟩
      · exact done_world hd h2
      · obtain ⟨bs, hp2, hb2⟩ := continues_world l2 h2
        rcases path_answer (reachable_world hrb e4) hp2 hq' hk' hf' with hd | ⟨_, p2, q2, _, hle⟩
        · exact hd
        · rw [hb2 b] at hle
          have := congrArg List.length hq'
          simp at this
          omega
  · exact done_world (done_world hd e4) h2

/-- The same for a `Connect`, for which the engine itself waits: it has left the engine's channel to the connection (so it is
written, or being written), and the broker's `CONNECTED` has arrived.  Once it is read, the request is completed, or the engine can
complete it in its next step (while it waits it does nothing else). -/
theorem C126_connect {cfg : World.Cfg T} {log l1 : List World.Act} {w w1 : World T} (h : World.Run cfg log w)
    (h1 : worldSteps cfg w l1 = some w1) {b : BrokerAddress} {pre post : List (MessageCommand × Bytes)} {v : MessageCommand}
    {bytes part : Bytes} (hsent : HasSent b log (pre ++ (v, bytes) :: post) part) (hnew : (w.rx b).out.length ≤ pre.length)
    {r : Nat} (hm : w.sys.mode = .awaitConnect r b) (hq : ∀ c ∈ (w.sys.conns b).queue, c.reply ≠ some r)
    {i t : Nat} {cmd : Sys.ClientCmd} {c : Connect} (hc : (b, cmd) ∈ Sys.passedOn w.sys.sent i) (ht : cmd.tok = some t)
    (ho : cmd.out = .connect c) (hv : Inbound.ofCommand v = .ok .connected)
    (hpolls : pre.length < (w.rx b).out.length + l1.countP (World.Act.polls b)) :
    Sys.Done w1.sys t ∨ ∃ s', Sys.step cfg.sys w1.sys .engConnectDone = some s' ∧ Sys.Done s' t := by
  have hreach : Sys.Reachable cfg.sys w.sys := by obtain ⟨lg, hl, _⟩ := sys_log h; exact ⟨lg, hl⟩
  obtain ⟨x, ans, y, wa, wb, e1, e2, e3, e4, e5⟩ := reads_it h h1 hsent hnew hpolls
  let I : Sys.State → Prop := fun s => Sys.Reachable cfg.sys s ∧ (b, cmd) ∈ Sys.passedOn s.sent i ∧
    (Sys.Done s t ∨ s.mode = .awaitConnect r b ∧ ∀ c ∈ (s.conns b).queue, c.reply ≠ some r)
  have istep : ∀ s a s', I s → Sys.step cfg.sys s a = some s' → I s' := by
    rintro s a s' ⟨i1, i2, i3⟩ hs
    refine ⟨i1.step hs, passed_mono (Sys.sent_prefix hs) i2, ?_⟩
    rcases i3 with i3 | ⟨i3, i4⟩
    · exact .inl (done_step hs i3)
    · rcases awaiting_step hs i3 with rfl | ⟨j1, _, j3⟩
      · exact .inl (connect_done i1 i2 ht ho hs)
      · exact .inr ⟨j1, fun c hc => i4 c (j3 b c hc)⟩
  have ia : I wa.sys := worldSteps_induct I istep ⟨hreach, hc, .inr ⟨hm, hq⟩⟩ e2
  have hread := poll_reads e3 e5
  let J : Sys.State → Prop := fun s => I s ∧ (Sys.Done s t ∨ s.mode = .awaitConnect r b ∧ ∃ z, (r, z) ∈ s.replyDone)
  have jstep : ∀ s a s', J s → Sys.step cfg.sys s a = some s' → J s' := by
    rintro s a s' ⟨i1, i3⟩ hs
    refine ⟨istep s a s' i1 hs, ?_⟩
    rcases i3 with i3 | ⟨i3, z, i4⟩
    · exact .inl (done_step hs i3)
    · rcases awaiting_step hs i3 with rfl | ⟨j1, j2, _⟩
      · exact .inl (connect_done i1.1 i1.2.1 ht ho hs)
      · exact .inr ⟨j1, z, j2.subset i4⟩
  have jb : J wb.sys := by
    refine ⟨istep _ _ _ ia hread, ?_⟩
    rcases ia.2.2 with hd | ⟨hma, hqa⟩
    · exact .inl (done_step hread hd)
    · right
      rcases awaiting_step hread hma with hx | ⟨j1, j2, _⟩
      · cases hx
      · refine ⟨j1, ?_⟩
        rcases (Sys.wait ia.1).await r b hma with hp | ⟨z, hz⟩
        · unfold Sys.pending at hp
          rcases List.mem_append.mp hp with hp | hp
          · obtain ⟨c', hc', hcr⟩ := List.mem_filterMap.mp hp
            exact absurd hcr (hqa c' hc')
          · obtain ⟨⟨k', r'⟩, hk', hr'⟩ := List.mem_map.mp hp
            have hr2 : r' = r := hr'
            subst hr2
            obtain ⟨rfl, _⟩ := (Sys.rep ia.1).waiting b k' r' hk'
            have hf := Sys.find_of_mem ((Sys.maps ia.1).2 b) hk'
            have hres : (wa.sys.conns b).resolver.tryResolve .connected = some (r', (wa.sys.conns b).resolver.erase .connect) := by
              simp [Sys.Resolver.tryResolve, Inbound.tryKey, hf]
            have h3 := hread
            simp only [Sys.step, Sys.connRead] at h3
            split at h3
            · simp only [hv, hres, Option.some.injEq] at h3
              refine ⟨.resolved ⟨.connected, ans⟩, ?_⟩
              rw [← h3]
              simp
            · cases h3
        · exact ⟨z, j2.subset hz⟩
  have j1 : J w1.sys := worldSteps_induct J jstep jb e4
  obtain ⟨i1, hd | ⟨hm1, z, hz⟩⟩ := j1
  · exact .inl hd
  · right
    have : ∃ s', Sys.step cfg.sys w1.sys .engConnectDone = some s' := by
      cases hf : w1.sys.replyDone.find? (fun p => p.1 == r) with
      | none =>
        have := List.find?_eq_none.mp hf _ hz
        simp at this
      | some p =>
        obtain ⟨k, y⟩ := p
        cases y with
        | resolved e => exact ⟨_, by simp only [Sys.step, Sys.engConnectDone, hm1, hf]; rfl⟩
        | cancelled => exact ⟨_, by simp only [Sys.step, Sys.engConnectDone, hm1, hf]; rfl⟩
    obtain ⟨s', hs'⟩ := this
    exact ⟨s', hs', connect_done i1.1 i1.2.1 ht ho hs'⟩

/-- C126. So the call that waits for that response goes on. -/
theorem C126_call_goes_on {cfg : World.Cfg T} {acts more1 more2 : List App.Act} {log log1 log2 : List World.Act} {a a1 a2 : App.State T}
    (h : App.Run cfg acts log a) (h1 : App.Run cfg (acts ++ more1) (log ++ log1) a1)
    (h2 : App.Run cfg (acts ++ more1 ++ more2) (log ++ log1 ++ log2) a2) {b b' : BrokerAddress}
    {pre post : List (MessageCommand × Bytes)} {v : MessageCommand} {bytes part : Bytes}
    (hsent : HasSent b log (pre ++ (v, bytes) :: post) part) (hnew : (a.world.rx b).out.length ≤ pre.length)
    {i t : Nat} {cmd : Sys.ClientCmd} (hc : (b', cmd) ∈ Sys.passedOn a.world.sys.sent i) (ht : cmd.tok = some t)
    {inb : Inbound} (hv : Inbound.ofCommand v = .ok inb) (ha : Sys.Answers cmd.out inb) (hn : inb ≠ .connected)
    (hpolls : pre.length < (a.world.rx b).out.length + log1.countP (World.Act.polls b))
    (hserved : (a1.world.sys.conns b).outbox.length ≤ log2.countP (World.Act.handles b))
    {k : Nat} {j : Job} (hk : a2.jobs[k]? = some j) (hl : j.live = true) (hj : j.Awaits t) :
    ∃ a3, App.step cfg a2 (.run k) = some a3 := by
  have w1 : worldSteps cfg a.world log1 = some a1.world := run_steps_of (run_world h) (run_world h1)
  have w2 : worldSteps cfg a1.world log2 = some a2.world := run_steps_of (run_world h1) (run_world h2)
  have hd := C126_completes (run_world h) w1 w2 hsent hnew hc ht hv ha hn hpolls hserved
  obtain ⟨core, call, q, q', hp⟩ := hj
  refine (C120_progress h2 hk hl (by unfold Job.ended; rw [hp])).mpr ?_
  rintro (⟨t', ⟨core', call', r, r', hp'⟩, hu⟩ | ⟨i', ⟨_, _, _, _, hp'⟩, _⟩)
  · rw [hp] at hp'
    cases hp'
    obtain ⟨res, hres⟩ := hd
    exact hu res hres
  · rw [hp] at hp'; cases hp'

end Neutron.Props
