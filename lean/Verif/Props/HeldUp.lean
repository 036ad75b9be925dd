import Verif.Proof.WorldHeld
import Verif.Proof.AppReach
import Verif.Props.OnTheWire

/-!
# C130: does a connection read while its writing is held up?
-/

namespace Neutron.Props

open Neutron World

variable {T : Type}

theorem exec_cons {cfg : World.Cfg T} {w w' : World T} {a : World.Act} {as : List World.Act} (h : World.exec cfg w (a :: as) = some w') :
    ∃ w1, World.step cfg w a = some w1 ∧ World.exec cfg w1 as = some w' := by
  simp only [World.exec] at h
  cases hs : World.step cfg w a with
  | none => rw [hs] at h; cases h
  | some w1 => rw [hs] at h; exact ⟨w1, rfl, h⟩

/-- C130, the part that holds: a connection whose task runs reads unless it is inside a write that the socket holds up. -/
theorem C130_reads {cfg : World.Cfg T} {w : World T} {b : BrokerAddress} (hr : running w b = true) (hh : w.held b = false)
    (ans : Option Sys.Tok) : ∃ w', World.step cfg w (.poll b ans) = some w' := by
  have hrd : World.reading w b = true := by simp [World.reading, hr, hh]
  simp only [running, Bool.and_eq_true, decide_eq_true_eq] at hr
  simp only [World.step, hrd, if_true]
  cases hi : item ans (Framed.pollNext (w.rx b).framed (w.rx b).socket).1 with
  | none => exact ⟨_, rfl⟩
  | some it =>
    have : ∃ s, Sys.step cfg.sys w.sys (.connRead b it) = some s := by
      simp only [Sys.step, Sys.connRead, hr, and_self, if_true]
      cases it with
      | closed | error | panicked => exact ⟨_, rfl⟩
      | command v t =>
        simp only
        split
        · exact ⟨_, rfl⟩
        · exact ⟨_, rfl⟩
        · split
          · exact ⟨_, rfl⟩
          · split <;> exact ⟨_, rfl⟩
    obtain ⟨s, hs⟩ := this
    simp only [Option.toList_some, List.map_cons, List.map_nil, sysSteps, hs]
    exact ⟨_, rfl⟩

/-- And if it is, it has a command to write; nothing but the socket keeps it from finishing, and once it has, it no longer waits. -/
theorem C130_or_writes {cfg : World.Cfg T} {acts : List World.Act} {w : World T} (h : World.Run cfg acts w) {b : BrokerAddress}
    (hh : w.held b = true) (now : UInt64) :
    running w b = true ∧ (w.sys.conns b).queue ≠ [] ∧ (∃ w', World.step cfg w (.write b now .ok) = some w') ∧
      ∀ io w', World.step cfg w (.write b now io) = some w' → w'.held b = false := by
  obtain ⟨hl, hq⟩ := held_busy h hh
  obtain ⟨log, appLog, hp⟩ := proj h
  have hr : Sys.Reachable cfg.sys w.sys := ⟨_, hp.sys⟩
  have ha : b ∈ w.sys.addrs := Classical.byContradiction fun hn => hq (by rw [(Sys.conn hr).unused b hn]; rfl)
  have hrun : running w b = true := by simp [running, hl, ha]
  refine ⟨hrun, hq, ?_, fun io w' hs => write_held hs hq⟩
  cases hc : (w.sys.conns b).queue with
  | nil => exact absurd hc hq
  | cons c q =>
    have hx : ∀ r, ∃ s, Sys.step cfg.sys w.sys (.connCmd b r) = some s := by
      intro r
      simp only [Sys.step, Sys.connCmd, hl, ha, and_self, if_true, hc]
      cases r <;> exact ⟨_, rfl⟩
    obtain ⟨t, r, ht⟩ : ∃ t r, (w.tx b).send cfg.overflowChecks now c.out .ok = some (t, r) := by
      simp only [Tx.send]
      split <;> exact ⟨_, _, rfl⟩
    obtain ⟨s, hs⟩ := hx r
    simp only [World.step, hrun, if_true, hc, ht, hs]
    exact ⟨_, rfl⟩

/-- Holding up one connection's writing changes nothing else: not the engine, the clients and the other connections, not the consumer's
calls, not what has been read and written; and every other connection reads if it did. -/
theorem C130_others_go_on {cfg : World.Cfg T} {w w' : World T} {b : BrokerAddress} (hs : World.step cfg w (.hold b) = some w') :
    w'.sys = w.sys ∧ w'.app = w.app ∧ w'.rx = w.rx ∧ w'.tx = w.tx ∧ ∀ b', b' ≠ b → w'.held b' = w.held b' := by
  simp only [World.step] at hs
  split at hs
  · cases hs
    exact ⟨rfl, rfl, rfl, rfl, fun b' hb => if_neg hb⟩
  · cases hs

/-- While the writing is held up nothing is read: as long as the connection's task does not finish its write, whatever happens, it reads
nothing from its socket, and passes nothing on to the engine. -/
theorem C130_held_reads_nothing {cfg : World.Cfg T} {acts : List World.Act} {w : World T} (h : World.Run cfg acts w) {b : BrokerAddress}
    (hh : w.held b = true) : ∀ (as : List World.Act) {w' : World T}, World.exec cfg w as = some w' → (∀ a ∈ as, Act.writes b a = false) →
      w'.held b = true ∧ (∀ ans, .poll b ans ∉ as) ∧ (w'.rx b).out = (w.rx b).out ∧ (w.rx b).socket <+: (w'.rx b).socket ∧
        (w'.sys.conns b).reads = (w.sys.conns b).reads := by
  intro as
  induction as generalizing acts w with
  | nil => intro w' he _; cases he; exact ⟨hh, by simp, rfl, List.prefix_rfl, rfl⟩
  | cons a as ih =>
    intro w' he hw
    obtain ⟨w1, h1, h2⟩ := exec_cons he
    obtain ⟨log, appLog, hp⟩ := proj h
    have hr : Sys.Reachable cfg.sys w.sys := ⟨_, hp.sys⟩
    have hw1 := hw a (by simp)
    have hh1 := (held_step hr h1 hw1 hh (held_busy h hh)).1
    obtain ⟨k1, k2, k3, k4, k5⟩ := ih (h.snoc h1) hh1 h2 (fun x hx => hw x (List.mem_cons_of_mem _ hx))
    have hnp : ∀ ans, a ≠ .poll b ans := by
      rintro ans rfl
      simp only [World.step, World.reading, hh, Bool.not_true, Bool.and_false] at h1
      cases h1
    have hrx := App.rx_step h1 b
    refine ⟨k1, ?_, ?_, ?_, ?_⟩
    · intro ans hm
      rcases List.mem_cons.mp hm with hm | hm
      · exact hnp ans hm.symm
      · exact k2 ans hm
    · rw [k3, hrx]
      cases a with
      | arrive b' r => simp only [readEvents]; split <;> rfl
      | poll b' ans =>
        have hb : b' ≠ b := by rintro rfl; exact hnp ans rfl
        simp [readEvents, hb]
      | _ => rfl
    · refine List.IsPrefix.trans ?_ k4
      rw [hrx]
      cases a with
      | arrive b' r =>
        simp only [readEvents]; split
        · exact List.prefix_append _ _
        · exact List.prefix_rfl
      | poll b' ans =>
        have hb : b' ≠ b := by rintro rfl; exact hnp ans rfl
        simp [readEvents, hb]
      | _ => exact List.prefix_rfl
    · rw [k5]
      exact (held_step hr h1 hw1 hh (held_busy h hh)).2.2.1

/-- So a broker that takes no more bytes before its own are read waits forever, and so does the client: in whatever happens next, the
connection finishes a write before it reads. -/
theorem C130_writes_first {cfg : World.Cfg T} {acts as : List World.Act} {w w' : World T} (h : World.Run cfg acts w) {b : BrokerAddress}
    (hh : w.held b = true) (he : World.exec cfg w as = some w') {ans : Option Sys.Tok} (hp : .poll b ans ∈ as) :
    ∃ pre now io post, as = pre ++ .write b now io :: post ∧ ∀ ans', .poll b ans' ∉ pre := by
  induction as generalizing acts w with
  | nil => cases hp
  | cons a as ih =>
    obtain ⟨w1, h1, h2⟩ := exec_cons he
    obtain ⟨log, appLog, hpr⟩ := proj h
    have hr : Sys.Reachable cfg.sys w.sys := ⟨_, hpr.sys⟩
    cases hw : Act.writes b a with
    | true =>
      cases a with
      | write b' now io =>
        have hb : b' = b := by simpa [Act.writes] using hw
        subst hb
        exact ⟨[], now, io, as, rfl, by simp⟩
      | _ => cases hw
    | false =>
      have hh1 := (held_step hr h1 hw hh (held_busy h hh)).1
      have hnp : ∀ ans, a ≠ .poll b ans := by
        rintro ans rfl
        simp only [World.step, World.reading, hh, Bool.not_true, Bool.and_false] at h1
        cases h1
      rcases List.mem_cons.mp hp with hp | hp
      · exact absurd hp.symm (hnp ans)
      · obtain ⟨pre, now, io, post, k1, k2⟩ := ih (h.snoc h1) hh1 h2 hp
        refine ⟨a :: pre, now, io, post, by rw [k1]; rfl, fun ans' hm => ?_⟩
        rcases List.mem_cons.mp hm with hm | hm
        · exact hnp ans' hm.symm
        · exact k2 ans' hm

end Neutron.Props

namespace Neutron.Props.HeldUpExample

open Neutron World Frame Trace EndToEndExample OnTheWireExample

/-- Two grants wait to be written, the socket takes nothing more, and a message arrives. -/
def stuck : List World.Act := asked ++ [.hold b0, .arrive b0 (.data (layout m1.parts.1 m1.parts.2))]

def h0 : World UInt8 := after (World.init wcfg) stuck

theorem stuck_run : World.Run wcfg stuck h0 := run_exec (as := []) .nil rfl

/-- C130 is false: the message that has arrived is not read, whatever happens, unless the broker takes more bytes first. -/
theorem C130_refuted : ¬ ∀ (cfg : World.Cfg UInt8) (acts : List World.Act) (w : World UInt8) (b : BrokerAddress), World.Run cfg acts w →
    running w b = true → (w.rx b).socket ≠ [] → ∃ (as : List World.Act) (w' : World UInt8), World.exec cfg w as = some w' ∧
      (∀ a ∈ as, Act.writes b a = false) ∧ ∃ ans, .poll b ans ∈ as := by
  intro hall
  obtain ⟨as, w', he, hw, ans, hp⟩ := hall wcfg stuck h0 b0 stuck_run rfl (by intro h; cases h)
  exact (C130_held_reads_nothing stuck_run rfl as he hw).2.1 ans hp

/-- The writing is held up, then ends, and the message is read. (The hypotheses of C130_others_go_on, C130_held_reads_nothing and
C130_writes_first are met.) -/
example : h0.held b0 = true ∧ h0.sys.mode = .idle ∧ (h0.sys.conns b0).queue.length = 2 ∧ (h0.rx b0).socket.length = 1 ∧
    (∃ w', World.step wcfg h0 (.write b0 0 .ok) = some w' ∧ w'.held b0 = false ∧ running w' b0 = true ∧
      ∃ w'', World.exec wcfg h0 [.write b0 0 .ok, .poll b0 none] = some w'') := by
  refine ⟨rfl, rfl, rfl, rfl, ?_⟩
  have hw : World.step wcfg h0 (.write b0 0 .ok) = some (wroteTo h0 ⟨[], [] ++ [] ++ bytes1⟩ .ok) := by
    refine do_write _ _ _ _ rfl rfl ?_ rfl
    show (Tx.send true 0 {} (.flow ⟨0, 5⟩) .ok) = _
    have : ((Outbound.flow ⟨0, 5⟩).toCommand 0).bind (Codec.encode true) = .ok bytes1 := enc1
    simp only [Tx.send, this]
  have hf := (C130_or_writes stuck_run (b := b0) rfl 0).2.2.2 _ _ hw
  refine ⟨_, hw, hf, rfl, ?_⟩
  obtain ⟨w'', h''⟩ := C130_reads (cfg := wcfg) (w := wroteTo h0 ⟨[], [] ++ [] ++ bytes1⟩ .ok) (b := b0) rfl hf none
  exact ⟨w'', by simp only [World.exec, hw, h'']⟩

end Neutron.Props.HeldUpExample
