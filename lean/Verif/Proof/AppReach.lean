import Verif.Spec.Reach
import Verif.Proof.AppLive
import Verif.Proof.AppOrder
import Verif.Proof.Framed
import Verif.Proof.WorldLog
import Verif.Props.Service
import Mathlib.Data.List.Induction

/-!
# From the socket to the engine
-/

namespace Neutron.Framed

/-- The results available to reads begin with these frames. -/
structure Front (s : ReadSide) (fs : List (MessageCommand × Bytes)) : Prop where
  running : s.stopped = false
  live : Live s.framed
  bytes : ∃ (datas x : List Read) (rest : Bytes), s.socket = datas ++ x ∧ (∀ r ∈ datas, IsData r) ∧
    s.framed.buf ++ bytesOf datas = stream fs ++ rest

theorem Front.arrive {s : ReadSide} {fs : List (MessageCommand × Bytes)} (h : Front s fs) (r : Read) : Front (s.step (.arrive r)) fs := by
  obtain ⟨datas, x, rest, h1, h2, h3⟩ := h.bytes
  exact ⟨h.running, h.live, datas, x ++ [r], rest, by simp [ReadSide.step, h1], h2, h3⟩

/-- A poll yields the first of the frames available, whatever comes behind. -/
theorem poll_front {f : MessageCommand × Bytes} (hf : IsFrame f) (x : List Read) (rest : Bytes) : ∀ (datas : List Read) (st : Framed),
    Live st → (∀ r ∈ datas, IsData r) → st.buf ++ bytesOf datas = f.2 ++ rest →
      ∃ st' datas', pollNext st (datas ++ x) = (.item f.1, st', datas' ++ x) ∧ Live st' ∧ (∀ r ∈ datas', IsData r) ∧
        st'.buf ++ bytesOf datas' = rest := by
  intro datas
  induction datas with
  | nil =>
    intro st hl _ hb
    have hd : Codec.decode st.buf = .ok (some (f.1, rest)) := by
      have : st.buf = f.2 ++ rest := by simpa [bytesOf] using hb
      rw [this]; exact hf.decode rest
    refine ⟨{ st with buf := rest }, [], ?_, ⟨hl.eof, hl.errored, ?_⟩, by simp, by simp [bytesOf]⟩
    · cases x with
      | nil =>
        have h1 : pollNext st [] = (.item f.1, { st with buf := rest }, []) := by
          rw [pollNext.eq_def, (attempt_live hl).2 _ _ hd]
        simpa using h1
      | cons r x => rw [List.nil_append, pollNext.eq_def]; simp only [ (attempt_live hl).2 _ _ hd]
    · intro hr; have := hl.unreadable hr; rw [hd] at this; simp at this
  | cons r datas ih =>
    intro st hl hd hb
    cases r with
    | eof => exact absurd (hd .eof (by simp)) (by simp [IsData])
    | ioErr => exact absurd (hd .ioErr (by simp)) (by simp [IsData])
    | data d =>
      have hcases : (∃ y, st.buf = f.2 ++ y ∧ y ++ bytesOf (.data d :: datas) = rest) ∨
          ∃ y, y ≠ [] ∧ st.buf ++ y = f.2 := by
        rcases List.append_eq_append_iff.mp hb with ⟨y, h1, h2⟩ | ⟨y, h1, h2⟩
        · by_cases hy : y = []
          · subst hy
            left
            exact ⟨[], by simpa using h1.symm, by simpa using h2⟩
          · exact .inr ⟨y, hy, h1.symm⟩
        · exact .inl ⟨y, h1, h2.symm⟩
      rcases hcases with ⟨y, h1, h2⟩ | ⟨y, hy, h1⟩
      · have hdec : Codec.decode st.buf = .ok (some (f.1, y)) := by rw [h1]; exact hf.decode y
        refine ⟨{ st with buf := y }, .data d :: datas, ?_, ⟨hl.eof, hl.errored, ?_⟩, hd, h2⟩
        · rw [List.cons_append, pollNext, (attempt_live hl).2 _ _ hdec]
        · intro hr; have := hl.unreadable hr; rw [hdec] at this; simp at this
      · have hn : Codec.decode st.buf = .ok none := hf.prefix_decode hy h1
        have hstep : pollNext st (.data d :: (datas ++ x)) =
            pollNext { st with buf := st.buf ++ d, eof := false, readable := true } (datas ++ x) := by
          rw [pollNext, (attempt_live hl).1 hn]
        rw [List.cons_append, hstep]
        exact ih _ ⟨rfl, hl.errored, by simp⟩ (fun r hr => hd r (List.mem_cons_of_mem _ hr)) (by simpa [bytesOf] using hb)

theorem Front.poll {s : ReadSide} {f : MessageCommand × Bytes} {fs : List (MessageCommand × Bytes)} (hf : IsFrame f) (h : Front s (f :: fs)) :
    (pollNext s.framed s.socket).1 = .item f.1 ∧ Front (s.step .poll) fs := by
  obtain ⟨datas, x, rest, h1, h2, h3⟩ := h.bytes
  rw [stream_cons, List.append_assoc] at h3
  obtain ⟨st', datas', h4, h5, h6, h7⟩ := poll_front hf x _ datas s.framed h.live h2 h3
  rw [← h1] at h4
  refine ⟨by rw [h4], ?_⟩
  have hs : s.step .poll = { s with framed := st', socket := datas' ++ x, out := s.out ++ [.item f.1] } := by
    simp only [ReadSide.step, h.running, Bool.false_eq_true, if_false, h4]
  rw [hs]
  exact ⟨h.running, h5, datas', x, rest, rfl, h6, h7⟩

end Neutron.Framed

namespace Neutron.App

open Neutron World

variable {T : Type}

/-- What a step does to the read side of a connection. -/
theorem rx_step {cfg : World.Cfg T} {w w' : World T} {x : World.Act} (hs : World.step cfg w x = some w') (b : BrokerAddress) :
    w'.rx b = (readEvents b [x]).foldl Framed.ReadSide.step (w.rx b) := by
  cases x with
  | arrive b' r =>
    simp only [World.step] at hs
    split at hs
    · cases hs
      simp only [readEvents]
      by_cases hb : b' = b
      · subst hb; simp
      · simp [hb, Ne.symm hb]
    · cases hs
  | poll b' ans =>
    simp only [World.step] at hs
    split at hs
    · split at hs
      · cases hs
        simp only [readEvents, sync]
        by_cases hb : b' = b
        · subst hb; simp
        · simp [hb, Ne.symm hb]
      · cases hs
    · cases hs
  | hold b' =>
    simp only [World.step] at hs
    split at hs
    · cases hs; rfl
    · cases hs
  | serve i' =>
    simp only [World.step] at hs
    split at hs
    · cases hs; rfl
    · cases hs
  | write b' now io =>
    simp only [World.step] at hs
    split at hs
    · split at hs
      · split at hs
        · cases hs; rfl
        · cases hs
      · split at hs
        · split at hs
          · cases hs; rfl
          · cases hs
        · cases hs
    · cases hs
  | sys a =>
    simp only [World.step] at hs
    split at hs
    · split at hs
      · cases hs; rfl
      · cases hs
    · cases hs
  | app a =>
    simp only [World.step] at hs
    split at hs
    · split at hs
      · split at hs
        · cases hs; rfl
        · cases hs
      · cases hs
    · cases hs

/-- A frame that is available is read once those before it are. -/
theorem polled {cfg : World.Cfg T} {b : BrokerAddress} {v : MessageCommand × Bytes} {post : List (MessageCommand × Bytes)} (hv : Framed.IsFrame v) :
    ∀ (l : List World.Act) (pre : List (MessageCommand × Bytes)) {w w' : World T}, (∀ f ∈ pre, Framed.IsFrame f) →
      Framed.Front (w.rx b) (pre ++ v :: post) → worldSteps cfg w l = some w' → pre.length < l.countP (World.Act.polls b) →
      ∃ (x : List World.Act) (ans : Option Sys.Tok) (y : List World.Act) (w1 w2 : World T), l = x ++ .poll b ans :: y ∧
        worldSteps cfg w x = some w1 ∧ World.step cfg w1 (.poll b ans) = some w2 ∧ worldSteps cfg w2 y = some w' ∧
        (Framed.pollNext (w1.rx b).framed (w1.rx b).socket).1 = .item v.1 := by
  intro l
  induction l with
  | nil => intro pre w w' _ _ _ hn; simp at hn
  | cons z l ih =>
    intro pre w w' hpre hfr hw hn
    simp only [worldSteps] at hw
    cases hz : World.step cfg w z with
    | none => rw [hz] at hw; cases hw
    | some w1 =>
      rw [hz] at hw
      have hrx := rx_step hz b
      have skip : ∀ pre', (∀ f ∈ pre', Framed.IsFrame f) → Framed.Front (w1.rx b) (pre' ++ v :: post) →
          pre'.length < l.countP (World.Act.polls b) →
          ∃ (x : List World.Act) (ans : Option Sys.Tok) (y : List World.Act) (w1 w2 : World T), z :: l = x ++ .poll b ans :: y ∧
            worldSteps cfg w x = some w1 ∧ World.step cfg w1 (.poll b ans) = some w2 ∧ worldSteps cfg w2 y = some w' ∧
            (Framed.pollNext (w1.rx b).framed (w1.rx b).socket).1 = .item v.1 := by
        intro pre' h1 h2 h3
        obtain ⟨x, ans, y, wa, wb, e1, e2, e3, e4, e5⟩ := ih pre' h1 h2 hw h3
        exact ⟨z :: x, ans, y, wa, wb, by rw [e1]; rfl, by simp only [worldSteps, hz, e2], e3, e4, e5⟩
      by_cases hp : World.Act.polls b z = true
      · cases z with
        | poll b' ans =>
          have hb : b' = b := by simpa [World.Act.polls] using hp
          subst hb
          have hrx' : w1.rx b' = (w.rx b').step .poll := by rw [hrx]; simp [readEvents]
          cases pre with
          | nil => exact ⟨[], ans, l, w, w1, rfl, rfl, hz, hw, (hfr.poll hv).1⟩
          | cons f pre =>
            refine skip pre (fun g hg => hpre g (List.mem_cons_of_mem _ hg)) ?_ ?_
            · rw [hrx']; exact (Framed.Front.poll (hpre f (by simp)) hfr).2
            · rw [List.countP_cons_of_pos hp] at hn; simpa using hn
        | _ => simp [World.Act.polls] at hp
      · refine skip pre hpre ?_ (by rwa [List.countP_cons_of_neg hp] at hn)
        rw [hrx]
        cases z with
        | arrive b' r =>
          simp only [readEvents]
          split
          · exact hfr.arrive r
          · exact hfr
        | poll b' ans =>
          simp only [World.Act.polls, decide_eq_true_eq] at hp
          simpa [readEvents, hp] using hfr
        | _ => exact hfr

theorem path_append {cfg : Sys.Cfg} {s s' s'' : Sys.State} {as bs : List Sys.Act} (h : Sys.Continues cfg s as s')
    (h' : Sys.Continues cfg s' bs s'') : Sys.Continues cfg s (as ++ bs) s'' := by
  induction h' with
  | nil => simpa using h
  | snoc _ hs _ ih => rw [← List.append_assoc]; exact .snoc ih hs trivial

theorem continues_sysSteps {cfg : Sys.Cfg} : ∀ (as : List Sys.Act) {s s' : Sys.State}, sysSteps cfg s as = some s' → Sys.Continues cfg s as s' := by
  intro as
  induction as with
  | nil => intro s s' h; cases h; exact .nil trivial
  | cons a as ih =>
    intro s s' h
    simp only [sysSteps] at h
    cases ha : Sys.step cfg s a with
    | none => rw [ha] at h; cases h
    | some s1 =>
      rw [ha] at h
      exact path_append (as := [a]) (.snoc (as := []) (.nil trivial) ha trivial) (ih h)

/-- What happens to the instance during a run of the whole. -/
theorem continues_world {cfg : World.Cfg T} : ∀ (l : List World.Act) {w w' : World T}, worldSteps cfg w l = some w' →
    ∃ as, Sys.Continues cfg.sys w.sys as w'.sys ∧ ∀ b, Sys.countActs (Sys.Act.servesReads b) as = l.countP (World.Act.handles b) := by
  intro l
  induction l with
  | nil => intro w w' h; cases h; exact ⟨[], .nil trivial, fun b => rfl⟩
  | cons z l ih =>
    intro w w' h
    simp only [worldSteps] at h
    cases hz : World.step cfg w z with
    | none => rw [hz] at h; cases h
    | some w1 =>
      rw [hz] at h
      obtain ⟨bs, h1, h2⟩ := ih h
      have hx : ∃ as, sysSteps cfg.sys w.sys as = some w1.sys ∧
          ∀ b, Sys.countActs (Sys.Act.servesReads b) as = if World.Act.handles b z = true then 1 else 0 := by
        by_cases hy : ∃ y, z = .sys y
        · obtain ⟨y, rfl⟩ := hy
          refine ⟨[y], worldSteps_sys (as := [y]) (by simp only [List.map_cons, List.map_nil, worldSteps, hz]), fun b => ?_⟩
          cases y <;> simp only [Sys.countActs, Sys.Act.servesReads, World.Act.handles, List.filter] <;> (try rfl)
          rename_i b'
          by_cases hb : b' = b <;> simp [hb]
        · obtain ⟨as, h3, h4⟩ := world_acts hz
          refine ⟨as, h3, fun b => ?_⟩
          have hh : World.Act.handles b z = false := by
            cases z with
            | sys y => exact absurd ⟨y, rfl⟩ hy
            | _ => rfl
          have hno : ∀ y ∈ as, Sys.Act.servesReads b y = false := by
            intro y hya
            rcases h4 with ⟨y', hy', _⟩ | h4 | rfl | ⟨n, rfl⟩
            · exact absurd ⟨y', hy'⟩ hy
            · obtain ⟨b', ⟨r, rfl⟩ | ⟨r, rfl⟩⟩ := h4 y hya <;> rfl
            · simp only [List.mem_singleton] at hya; subst hya; rfl
            · simp only [List.mem_cons, List.not_mem_nil, or_false] at hya
              rcases hya with rfl | rfl <;> rfl
          rw [hh]
          have : as.filter (Sys.Act.servesReads b) = [] := List.filter_eq_nil_iff.mpr fun y hya => by simp [hno y hya]
          simp [Sys.countActs, this]
      obtain ⟨as, h3, h4⟩ := hx
      refine ⟨as ++ bs, path_append (continues_sysSteps as h3) h1, fun b => ?_⟩
      have hsplit : Sys.countActs (Sys.Act.servesReads b) (as ++ bs) =
          Sys.countActs (Sys.Act.servesReads b) as + Sys.countActs (Sys.Act.servesReads b) bs := by
        simp [Sys.countActs]
      rw [hsplit, h2 b, List.countP_cons, Nat.add_comm]
      rw [h4 b]

/-- What was sent and not read yet is available. -/
theorem front_of {cfg : World.Cfg T} {log : List World.Act} {w : World T} (h : World.Run cfg log w) {b : BrokerAddress}
    {frames : List (MessageCommand × Bytes)} {part : Bytes} (hs : HasSent b log frames part) :
    ∃ done rem, frames = done ++ rem ∧ (w.rx b).out = done.map (fun f => Poll.item f.1) ∧ Framed.Front (w.rx b) rem := by
  obtain ⟨_, _, hp⟩ := proj h
  have h0 := Framed.inv_init (all := frames) (part := part) false (arrived b log) hs.reads.1 hs.reads.2
  have h1 := Framed.inv_run hs.whole hs.partial' (readEvents b log) [] {} (by simpa [arrived] using h0)
  rw [hp.rx b]
  change Framed.Inv frames part false [] (Framed.ReadSide.run (readEvents b log)) at h1
  cases h1 with
  | live done rem datas hall hout hstop hlive hd hsock hbytes =>
    refine ⟨done, rem, hall, hout, hstop, hlive, datas, [], part, ?_, hd, hbytes⟩
    simpa using hsock
  | failed hclosed => cases hclosed
  | stopped hclosed => cases hclosed

/-- A response read from a socket is passed to the engine, unless the engine is gone. -/
theorem read_forward {cfg : Sys.Cfg} {s s' : Sys.State} (hr : Sys.Reachable cfg s) {b : BrokerAddress} {v : MessageCommand} {ans : Option Sys.Tok}
    (hs : Sys.step cfg s (.connRead b (.command v ans)) = some s') {inb : Inbound} (hv : Inbound.ofCommand v = .ok inb)
    (hn : inb ≠ .connected) :
    (s.mode = .stopped ∧ s'.mode = .stopped) ∨ (s'.conns b).outbox = (s.conns b).outbox ++ [⟨inb, ans⟩] := by
  simp only [Sys.step, Sys.connRead] at hs
  split at hs
  · rw [hv] at hs
    simp only [] at hs
    split at hs
    · rename_i r res hres
      obtain ⟨k, h1, h2, _⟩ := Sys.tryResolve_some hres
      obtain ⟨h3, _⟩ := (Sys.rep hr).waiting b k r (Sys.mem_find h2)
      rw [h3] at h1
      exact absurd (by cases inb <;> simp_all [Inbound.tryKey]) hn
    · split at hs
      · rename_i hm
        cases hs
        exact .inl ⟨hm, by simpa using hm⟩
      · cases hs
        right
        simp [Sys.State.setConn]
  · cases hs

theorem reachable_world {cfg : World.Cfg T} {l : List World.Act} {w w' : World T} (hr : Sys.Reachable cfg.sys w.sys)
    (h : worldSteps cfg w l = some w') : Sys.Reachable cfg.sys w'.sys :=
  worldSteps_induct (fun s => Sys.Reachable cfg.sys s) (fun _ _ _ h hs => h.step hs) hr h

theorem sent_world {cfg : World.Cfg T} {l : List World.Act} {w w' : World T} (h : worldSteps cfg w l = some w') : w.sys.sent <+: w'.sys.sent :=
  worldSteps_induct (fun s => w.sys.sent <+: s.sent) (fun _ _ _ h hs => h.trans (Sys.sent_prefix hs)) List.prefix_rfl h

theorem done_world {cfg : World.Cfg T} {l : List World.Act} {w w' : World T} {t : Nat} (hd : Sys.Done w.sys t)
    (h : worldSteps cfg w l = some w') : Sys.Done w'.sys t :=
  worldSteps_induct (fun s => Sys.Done s t) (fun _ _ _ h hs => Props.done_step hs h) hd h

theorem run_steps_of {cfg : World.Cfg T} {pre : List World.Act} {w : World T} (h : World.Run cfg pre w) :
    ∀ {post : List World.Act} {w' : World T}, World.Run cfg (pre ++ post) w' → worldSteps cfg w post = some w' := by
  intro post
  induction post using List.reverseRecOn with
  | nil => intro w' h'; rw [List.append_nil] at h'; rw [World.run_unique h h']; rfl
  | append_singleton post x ih =>
    intro w' h'
    rw [← List.append_assoc] at h'
    obtain ⟨w1, h1, h2⟩ := World.run_last h'
    rw [worldSteps_append, ih h1]
    simp only [Option.bind_some, worldSteps, h2]

end Neutron.App

namespace Neutron.Props

open Neutron Sys

/-- When the engine's wait for the answer to a `Connect` is over, that request is completed. -/
theorem connect_done {cfg : Sys.Cfg} {s s' : Sys.State} (h : Reachable cfg s) {b : BrokerAddress} {i t : Nat} {cmd : ClientCmd}
    (hc : (b, cmd) ∈ passedOn s.sent i) (ht : cmd.tok = some t) {c : Connect} (ho : cmd.out = .connect c)
    (hs : step cfg s .engConnectDone = some s') : Done s' t := by
  rcases taken_pending h hc ht (k := .connect) (by rw [ho]; rfl) with hf | hd
  · have hst := step_cases hs
    generalize hx : Sys.Act.engConnectDone = x at hst
    cases hst with
    | connectOk r b' y e hm hf' =>
      obtain ⟨b2, c2, _, _, he⟩ := (rep h).done y e (List.mem_of_find?_eq_some hf')
      have hin := (rep h).connected b2 e he
      have : s.resolver.tryResolve e.inb = some (t, s.resolver.erase .connect) := by
        rw [hin]; simp [Resolver.tryResolve, Inbound.tryKey, hf]
      refine ⟨.resolved e, ?_⟩
      simp [managerSend, this]
    | connectLost r b' y hm hf' =>
      exact ⟨.cancelled, stop_cancels hs (by rw [hm]; simp) rfl (mem_find hf)⟩
    | _ => cases hx
  · exact done_step hs hd

/-- While the engine waits for the answer to a `Connect` it does nothing else. -/
theorem awaiting_step {cfg : Sys.Cfg} {s s' : Sys.State} {a : Sys.Act} (hs : step cfg s a = some s') {r : Nat} {b : BrokerAddress}
    (hm : s.mode = .awaitConnect r b) : a = .engConnectDone ∨ s'.mode = .awaitConnect r b ∧ s.replyDone <+: s'.replyDone ∧
      ∀ x c, c ∈ (s'.conns x).queue → c ∈ (s.conns x).queue := by
  have take : ∀ y c q, (s.conns y).queue = c :: q → ∀ x d, d ∈ ((connTake s y c q).conns x).queue → d ∈ (s.conns x).queue := by
    intro y c q hq x d hd
    unfold connTake at hd
    by_cases hx : x = y
    · subst hx; split at hd <;> simp [setConn_conns] at hd <;> rw [hq] <;> simp [hd]
    · split at hd <;> simpa [setConn_conns, hx] using hd
  have hend : ∀ (u : Sys.State) y x d, d ∈ ((endConn u y).conns x).queue → d ∈ (u.conns x).queue := by
    intro u y x d hd
    by_cases hx : x = y
    · subst hx; simpa [endConn, setConn_conns] using hd
    · simpa [endConn, setConn_conns, hx] using hd
  have hset : ∀ (u : Sys.State) y (k : ConnSt), k.queue = (u.conns y).queue → ∀ x d, d ∈ ((u.setConn y k).conns x).queue → d ∈ (u.conns x).queue := by
    intro u y k hk x d hd
    by_cases hx : x = y
    · subst hx; simpa [setConn_conns, hk] using hd
    · simpa [setConn_conns, hx] using hd
  have hmode : ∀ y c q, (connTake s y c q).mode = s.mode := by intro y c q; unfold connTake; split <;> rfl
  have hrep : ∀ y c q, s.replyDone <+: (connTake s y c q).replyDone := by intro y c q; unfold connTake; split <;> simp
  cases step_cases hs with
  | connectOk => exact .inl rfl
  | connectLost => exact .inl rfl
  | cmdOk y c q hl ha hq =>
    exact .inr ⟨by simp [hmode, hm], by simpa using hrep y c q, fun x d hd => take y c q hq x d (hset (connTake s y c q) y _ (by rfl) x d hd)⟩
  | cmdFail y c q hl ha hq => exact .inr ⟨by simp [hmode, hm], hrep y c q, take y c q hq⟩
  | cmdPanic y c q hl ha hq =>
    exact .inr ⟨by simp [endConn, hmode, hm], (hrep y c q).trans (by simp [endConn]), fun x d hd => take y c q hq x d (hend _ _ _ _ hd)⟩
  | readEnd y it => exact .inr ⟨by simp [endConn, hm], by simp [endConn], hend s y⟩
  | readConnected y v t inb r' res hl' ha hv hres => exact .inr ⟨hm, by simp, hset s y _ rfl⟩
  | readForward y v t inb => exact .inr ⟨hm, by simp, hset s y _ rfl⟩
  | readSkip => exact .inr ⟨hm, by simp, fun _ _ h => h⟩
  | _ => first
    | (exfalso; simp_all; done)
    | (right; simp [hm]; done)

end Neutron.Props
