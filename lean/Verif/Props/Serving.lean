import Verif.Proof.WorldServing
import Verif.Props.HeldUp

/-!
# C131: does a slow authentication or connection attempt for one client hold up the others?
-/

namespace Neutron.Props

open Neutron World

variable {T : Type}

/-- While the engine authenticates or dials for client `i` (`serving = some i`), and until it finishes, whatever happens: it does nothing
else.  No client's command is passed on to a broker and none is taken, no event is delivered to a client and no request is answered, no
ping is answered, no client is registered; new commands only queue up. -/
theorem C131_engine_waits {cfg : World.Cfg T} {acts : List World.Act} {w : World T} (h : World.Run cfg acts w) {i : Nat}
    (hv : w.serving = some i) : ∀ (as : List World.Act) {w' : World T}, World.exec cfg w as = some w' →
      (∀ a ∈ as, Act.finishes i a = false) → w'.serving = some i ∧ Sys.Unserved w.sys w'.sys ∧ ∀ x, .sys x ∈ as → engine x = false := by
  intro as
  induction as generalizing acts w with
  | nil => intro w' he _; cases he; exact ⟨hv, .refl _, by simp⟩
  | cons a as ih =>
    intro w' he hf
    obtain ⟨w1, h1, h2⟩ := exec_cons he
    have hm := (serving h hv).1
    obtain ⟨k1, k2, k3⟩ := serving_step h1 (hf a (by simp)) hv (by rw [hm]; intro h; cases h)
    obtain ⟨m1, m2, m3⟩ := ih (h.snoc h1) k1 h2 (fun x hx => hf x (List.mem_cons_of_mem _ hx))
    refine ⟨m1, k2.trans m2, fun x hx => ?_⟩
    rcases List.mem_cons.mp hx with hx | hx
    · exact k3 x hx.symm
    · exact m3 x hx

/-- Nothing but the plugin and the network keeps it from finishing: whatever they answer, it is done with it, and then is free again (or
waits for the broker's greeting, or has stopped). -/
theorem C131_ends {cfg : World.Cfg T} {acts : List World.Act} {w : World T} (h : World.Run cfg acts w) {i : Nat} (hv : w.serving = some i)
    (auth : Outcome Bytes) (net : Net) :
    ∃ w', World.step cfg w (.sys (.engOut i auth net)) = some w' ∧ w'.serving = none := by
  obtain ⟨k1, k2, k3, k4⟩ := serving h hv
  have : ∃ s, Sys.step cfg.sys w.sys (.engOut i auth net) = some s := by
    simp only [Sys.step, Sys.engOut, k1, k2, k3, ne_eq, not_false_eq_true, and_self, if_true]
    cases hq : (w.sys.clients i).queue with
    | nil => rw [hq] at k4; cases k4
    | cons c q => exact ⟨_, rfl⟩
  obtain ⟨s, hs⟩ := this
  have hf : free cfg w (.engOut i auth net) = true := by simp [free, turn, hv]
  refine ⟨sync cfg { w with serving := none } s, ?_, rfl⟩
  simp only [World.step, hf, if_true, hs, engine]

/-- When the engine has begun: it was idle, and the client's next command is a `Connect`. -/
theorem C131_begins {cfg : World.Cfg T} {acts : List World.Act} {w : World T} (h : World.Run cfg acts w) {i : Nat} (hv : w.serving = some i) :
    w.sys.mode = .idle ∧ i ∈ w.sys.vec ∧ ∃ c t q, (w.sys.clients i).queue = ⟨.connect c, t⟩ :: q := by
  obtain ⟨k1, k2, _, k4⟩ := serving h hv
  refine ⟨k1, k2, ?_⟩
  cases hq : (w.sys.clients i).queue with
  | nil => rw [hq] at k4; cases k4
  | cons c q =>
    obtain ⟨o, t⟩ := c
    rw [hq] at k4
    cases o <;> first | exact ⟨_, _, _, rfl⟩ | cases k4

/-- Meanwhile the connections go on: what has arrived is read as before, and what is queued is written as before. -/
theorem C131_connections_go_on {cfg : World.Cfg T} {w w' : World T} {i : Nat} (hs : World.step cfg w (.serve i) = some w')
    {b : BrokerAddress} (hr : running w b = true) (hh : w.held b = false) (ans : Option Sys.Tok) :
    (∃ w'', World.step cfg w' (.poll b ans) = some w'') ∧ w'.sys = w.sys ∧ w'.app = w.app ∧ w'.rx = w.rx ∧ w'.tx = w.tx ∧ w'.held = w.held := by
  have he : w' = { w with serving := some i } := by
    simp only [World.step] at hs
    split at hs
    · cases hs; rfl
    · cases hs
  subst he
  exact ⟨C130_reads (w := { w with serving := some i }) hr hh ans, rfl, rfl, rfl, rfl, rfl⟩

/-- The same holds after the dial, until the broker's greeting has come (`src/pulsar.rs:103-116`): of the engine's actions only the one
that has its answer is possible. -/
theorem C131_greeting {cfg : Sys.Cfg} {s : Sys.State} {r : Nat} {b : BrokerAddress} (hm : s.mode = .awaitConnect r b)
    {a : Sys.Act} {s' : Sys.State} (hs : Sys.step cfg s a = some s') :
    Sys.Unserved s s' ∨ (a = .engConnectDone ∧ ∃ x, (r, x) ∈ s.replyDone) := by
  cases ha : engine a with
  | false => exact .inl (Sys.idle_step hs ha (by rw [hm]; intro h; cases h))
  | true =>
    right
    cases a with
    | engConnectDone =>
      refine ⟨rfl, ?_⟩
      simp only [Sys.step, Sys.engConnectDone, hm] at hs
      cases hf : s.replyDone.find? (fun p => p.1 == r) with
      | none => rw [hf] at hs; cases hs
      | some p =>
        obtain ⟨r', x⟩ := p
        have h1 := List.mem_of_find?_eq_some hf
        have h2 := List.find?_some hf
        simp only [beq_iff_eq] at h2
        subst h2
        exact ⟨x, h1⟩
    | engStart net => simp [Sys.step, Sys.engStart, hm] at hs
    | engOut i x y => simp [Sys.step, Sys.engOut, hm] at hs
    | engIn i => simp [Sys.step, Sys.engIn, hm] at hs
    | engReg => simp [Sys.step, Sys.engReg, hm] at hs
    | engRegClosed => simp [Sys.step, Sys.engRegClosed, hm] at hs
    | engNoConn => simp [Sys.step, Sys.engNoConn, hm] at hs
    | _ => cases ha

end Neutron.Props

namespace Neutron.Props.ServingExample

open Neutron World Frame Trace EndToEndExample

/-- Two clients: the engine dials for the first while the second sends a message. -/
def busy : List World.Act := before ++ (join 1).map .sys ++ [.sys (.beginCall 0 .connect), .sys (.submit 0 0),
  .sys (.beginCall 1 (.sendMessage [1])), .serve 0, .sys (.submit 1 0)]

def g0 : World UInt8 := after (World.init wcfg) busy

theorem busy_run : World.Run wcfg busy g0 := run_exec (as := []) .nil rfl

/-- C131 is false: the message is not passed on, whatever happens, before the engine has finished with the other client. -/
theorem C131_refuted : ¬ ∀ (cfg : World.Cfg UInt8) (acts : List World.Act) (w : World UInt8) (i j : Nat), World.Run cfg acts w →
    w.serving = some i → j ≠ i → j ∈ w.sys.vec → (w.sys.clients j).queue ≠ [] →
    ∃ (as : List World.Act) (w' : World UInt8), World.exec cfg w as = some w' ∧ (∀ a ∈ as, Act.finishes i a = false) ∧
      (w'.sys.clients j).handled ≠ (w.sys.clients j).handled := by
  intro hall
  obtain ⟨as, w', he, hf, hp⟩ := hall wcfg busy g0 0 1 busy_run rfl (by decide) (by decide) (by intro h; cases h)
  exact hp (((C131_engine_waits busy_run (i := 0) rfl as he hf).2.1.clients 1 (by decide)).2.1)

/-- Once the engine has finished, it can pass the message on. (The hypotheses of C131_engine_waits, C131_ends, C131_begins,
C131_connections_go_on and C131_greeting are met.) -/
example : g0.serving = some 0 ∧ ((g0.sys.clients 1).queue.length = 1 ∧ g0.sys.sent.length = 0) ∧
    ((World.exec wcfg g0 [.sys (.engOut 0 (.ok []) net0)]).map fun w => (w.serving, w.sys.sent.length, w.sys.mode)) =
      some (none, 1, .awaitConnect 0 b0) := ⟨rfl, ⟨rfl, rfl⟩, rfl⟩

end Neutron.Props.ServingExample
