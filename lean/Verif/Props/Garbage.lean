import Verif.Props.OnTheWire

/-!
# Unreadable data on a socket (C108)
-/

namespace Neutron.Framed

/-- What a poll leaves behind: an error is remembered; anything else leaves no error behind; a remembered error ends the stream. -/
theorem poll_errored (st : Framed) (rs : List Read) :
    (st.errored = true → (pollNext st rs).1 = .ended) ∧
    (st.errored = false → ((pollNext st rs).2.1.errored = true ↔ (pollNext st rs).1 = .failed)) := by
  refine ⟨fun h => ?_, fun h => ?_⟩
  · have : attempt st = some (.ended, { st with readable := false, errored := false }) := by unfold attempt; rw [if_pos h]
    cases rs <;> simp [pollNext, this]
  · have key : ∀ st : Framed, st.errored = false → ∀ p st', attempt st = some (p, st') → (st'.errored = true ↔ p = .failed) := by
      intro st h p st' ha
      unfold attempt at ha
      rw [h] at ha
      simp only [Bool.false_eq_true, if_false] at ha
      split at ha
      · split at ha
        · simp only [Option.some.injEq] at ha
          unfold decodeEof at ha
          split at ha
          · cases ha; simp [h]
          · split at ha <;> (cases ha; simp [h])
          · cases ha; simp
          · cases ha; simp [h]
        · split at ha
          · cases ha; simp [h]
          · cases ha; simp
          · cases ha; simp [h]
          · cases ha
      · cases ha
    induction rs generalizing st with
    | nil =>
      simp only [pollNext]
      cases ha : attempt st with
      | none => simp [h]
      | some x => exact key st h _ _ ha
    | cons r rs ih =>
      simp only [pollNext]
      cases ha : attempt st with
      | some x => exact key st h _ _ ha
      | none =>
        cases r with
        | ioErr => simp
        | eof =>
          simp only
          split
          · simp [h]
          · exact ih _ h
        | data b => exact ih _ h

/-- What a read side has produced, in every history. -/
def Shape (s : ReadSide) : Prop :=
  ∃ ms : List MessageCommand,
    (s.stopped = false ∧ s.framed.errored = false ∧ s.out = ms.map .item) ∨
    (s.stopped = false ∧ s.framed.errored = true ∧ s.out = ms.map .item ++ [.failed]) ∨
    (s.stopped = true ∧ ∃ tail, s.out = ms.map .item ++ tail ∧ (tail = [.ended] ∨ tail = [.panicked] ∨ tail = [.failed, .ended]))

theorem shape (evs : List Ev) : Shape (ReadSide.run evs) := by
  have step : ∀ s e, Shape s → Shape (s.step e) := by
    rintro s e ⟨ms, h⟩
    cases e with
    | arrive r => exact ⟨ms, by simpa [ReadSide.step] using h⟩
    | poll =>
      obtain ⟨k1, k2⟩ := poll_errored s.framed s.socket
      unfold ReadSide.step
      rcases h with ⟨h1, h2, h3⟩ | ⟨h1, h2, h3⟩ | ⟨h1, h2⟩
      · have k2 := k2 h2
        generalize pollNext s.framed s.socket = r at k1 k2
        obtain ⟨p, f, rs⟩ := r
        simp only [h1, Bool.false_eq_true, if_false]
        simp only at k1 k2
        cases p with
        | pending => exact ⟨ms, .inl ⟨rfl, by simpa using k2, h3⟩⟩
        | item m => exact ⟨ms ++ [m], .inl ⟨rfl, by simpa using k2, by simp [h3]⟩⟩
        | failed => exact ⟨ms, .inr (.inl ⟨rfl, by simpa using k2, by simp [h3]⟩)⟩
        | ended => exact ⟨ms, .inr (.inr ⟨rfl, [.ended], by simp [h3], .inl rfl⟩)⟩
        | panicked => exact ⟨ms, .inr (.inr ⟨rfl, [.panicked], by simp [h3], .inr (.inl rfl)⟩)⟩
      · have k1 := k1 h2
        generalize pollNext s.framed s.socket = r at k1 k2
        obtain ⟨p, f, rs⟩ := r
        simp only [h1, Bool.false_eq_true, if_false]
        simp only at k1
        subst k1
        exact ⟨ms, .inr (.inr ⟨rfl, [.failed, .ended], by simp [h3], .inr (.inr rfl)⟩)⟩
      · simp only [h1, if_true]
        exact ⟨ms, .inr (.inr ⟨h1, h2⟩)⟩
  have : ∀ (evs : List Ev) s, Shape s → Shape (evs.foldl ReadSide.step s) := by
    intro evs
    induction evs with
    | nil => intro s h; exact h
    | cons e evs ih => intro s h; exact ih _ (step s e h)
  exact this evs _ ⟨[], .inl ⟨rfl, rfl, rfl⟩⟩

end Neutron.Framed

namespace Neutron.Props

open Neutron Neutron.World

variable {T : Type}

/-- What the connection task ever reads from a socket, whatever the broker or the network do: commands, then at most one error, then
at most one end (or a panic of the decoder).  Nothing is read behind an error; and with the end, the connection is gone. -/
theorem C108_read_side {cfg : World.Cfg T} {acts : List World.Act} {w : World T} (h : World.Run cfg acts w) (b : BrokerAddress) :
    ∃ (ms : List MessageCommand) (tail : List Poll), (w.rx b).out = ms.map .item ++ tail ∧
      (tail = [] ∨ tail = [.failed] ∨ (tail = [.ended] ∨ tail = [.panicked] ∨ tail = [.failed, .ended]) ∧ (w.sys.conns b).alive = false) := by
  obtain ⟨log, appLog, hp⟩ := proj h
  have hs := Framed.shape (readEvents b acts)
  rw [← hp.rx b] at hs
  obtain ⟨ms, ⟨_, _, h3⟩ | ⟨_, _, h3⟩ | ⟨h1, tail, h3, h4⟩⟩ := hs
  · exact ⟨ms, [], by simp [h3], .inl rfl⟩
  · exact ⟨ms, _, h3, .inr (.inl rfl)⟩
  · exact ⟨ms, tail, h3, .inr (.inr ⟨h4, hp.stopped b h1⟩)⟩

/-- The error by itself changes nothing anywhere in the instance: no request is completed or failed, no client notified, no
connection ended. -/
theorem C108_error_alone {cfg : World.Cfg T} {acts : List World.Act} {w w' : World T} (h : World.Run cfg acts w) {b : BrokerAddress}
    {ans : Option Sys.Tok} (hs : World.step cfg w (.poll b ans) = some w') (hf : (w'.rx b).out = (w.rx b).out ++ [.failed]) :
    w'.sys = w.sys := by
  obtain ⟨log, appLog, hp⟩ := proj h
  simp only [World.step] at hs
  split at hs
  · rename_i hrun
    split at hs
    · rename_i s' h1
      cases hs
      have hst : (w.rx b).stopped = false := by
        cases hx : (w.rx b).stopped with
        | false => rfl
        | true => unfold World.reading running at hrun; rw [hp.stopped b hx] at hrun; cases hrun
      have hout := (poll_out hst).1
      have hf' : ((w.rx b).step .poll).out = (w.rx b).out ++ [.failed] := by simpa [sync] using hf
      generalize hq : (Framed.pollNext (w.rx b).framed (w.rx b).socket).1 = p at h1 hout
      have hpf : p = .failed := by
        rw [hout] at hf'
        cases p <;> simp at hf' <;> rfl
      subst hpf
      simp only [item, Option.toList, List.map_cons, List.map_nil, sysSteps, Sys.step, Sys.connRead] at h1
      split at h1
      · rename_i s2 h2
        cases h1
        split at h2
        · cases h2; rfl
        · cases h2
      · cases h1
    · cases hs
  · cases hs

/-- The next poll after an error ends the connection, whatever else has arrived. -/
theorem C108_next_poll_ends {cfg : World.Cfg T} {acts : List World.Act} {w w' : World T} (h : World.Run cfg acts w) {b : BrokerAddress}
    {ans : Option Sys.Tok} (hs : World.step cfg w (.poll b ans) = some w') (hf : .failed ∈ (w.rx b).out) :
    (w'.sys.conns b).alive = false := by
  obtain ⟨log, appLog, hp⟩ := proj h
  obtain ⟨log', appLog', hp'⟩ := proj (h.snoc hs)
  have hsh := Framed.shape (readEvents b acts)
  rw [← hp.rx b] at hsh
  have hal : (w.sys.conns b).alive = true := by
    simp only [World.step] at hs
    split at hs
    · rename_i hrun; unfold World.reading running at hrun; simp only [Bool.and_eq_true] at hrun; exact hrun.1.1
    · cases hs
  refine hp'.stopped b ?_
  have hrx : w'.rx b = (w.rx b).step .poll := by
    rw [hp'.rx b, hp.rx b, readEvents_append]
    simp [readEvents, read_run]
  rw [hrx]
  obtain ⟨ms, ⟨_, _, h3⟩ | ⟨h1, h2, h3⟩ | ⟨h1, _⟩⟩ := hsh
  · rw [h3] at hf; simp at hf
  · have := (Framed.poll_errored (w.rx b).framed (w.rx b).socket).1 h2
    unfold Framed.ReadSide.step
    simp only [h1, Bool.false_eq_true, if_false]
    generalize Framed.pollNext (w.rx b).framed (w.rx b).socket = r at this
    obtain ⟨p, f, rs⟩ := r
    simp only at this
    subst this
    rfl
  · rw [hp.stopped b h1] at hal; cases hal

namespace GarbageExample

open Trace EndToEndExample

/-- A read of the socket of the connected broker fails, more bytes arrive. -/
def acts : List World.Act := before ++ [.arrive b0 .ioErr, .arrive b0 (.data [0, 0, 0, 8]), .poll b0 none]

/-- The hypotheses of C108 are met, and its cases are: the error alone, then the end. -/
example : ∃ w w', World.Run wcfg acts w ∧ World.step wcfg w (.poll b0 none) = some w' ∧ (w.rx b0).out = [.failed] ∧
    (w.sys.conns b0).alive = true ∧ (w'.rx b0).out = [.failed, .ended] ∧ (w'.sys.conns b0).alive = false := by
  have h0 : (World.exec wcfg (World.init wcfg) acts).isSome = true := by decide +kernel
  have h1 : (World.exec wcfg (after (World.init wcfg) acts) [.poll b0 none]).isSome = true := by decide +kernel
  obtain ⟨w, h0⟩ := Option.isSome_iff_exists.mp h0
  have hw : after (World.init wcfg) acts = w := by unfold after; rw [h0]; rfl
  rw [hw] at h1
  obtain ⟨w', h1⟩ := Option.isSome_iff_exists.mp h1
  have hs : World.step wcfg w (.poll b0 none) = some w' := by
    simp only [World.exec] at h1
    cases hx : World.step wcfg w (.poll b0 none) with
    | none => rw [hx] at h1; cases h1
    | some w2 => rw [hx] at h1; exact h1
  have hw' : after (after (World.init wcfg) acts) [.poll b0 none] = w' := by unfold after at hw ⊢; rw [hw, h1]; rfl
  refine ⟨w, w', run_exec .nil (bs := acts) h0, hs, ?_⟩
  rw [← hw', ← hw]
  refine ⟨rfl, ?_, rfl, ?_⟩
  · decide +kernel
  · decide +kernel

end GarbageExample

end Neutron.Props
