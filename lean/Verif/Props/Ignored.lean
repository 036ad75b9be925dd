import Verif.Props.EndToEnd
import Verif.Props.Commands

/-!
# Commands the client does not understand (C123, C124)
-/

namespace Neutron.Props

open Neutron World

variable {T : Type}

/-- Reading a command of a type the client does not understand has no effect but that it is gone from the socket: the instance, its
clients and connections, the consumer and its calls, everything written and to be written, and all other sockets are as before. -/
theorem C124_no_effect {cfg : World.Cfg T} {acts : List World.Act} {w w' : World T} (h : World.Run cfg acts w) {b : BrokerAddress}
    {answers : Option Sys.Tok} (hs : World.step cfg w (.poll b answers) = some w') {v : MessageCommand}
    (hv : (Framed.pollNext (w.rx b).framed (w.rx b).socket).1 = .item v) (ht : commandType v.command ∉ supportedTypes) :
    w'.sys = w.sys ∧ w'.app = w.app ∧ w'.tx = w.tx ∧ ∀ b', b' ≠ b → w'.rx b' = w.rx b' := by
  obtain ⟨log, appLog, hp⟩ := proj h
  have hu : Inbound.ofCommand v = .err .unsupportedCommand := (C17_classification v).2.1 ht
  simp only [World.step] at hs
  split at hs
  · rename_i hr
    simp only [World.reading, running, Bool.and_eq_true, decide_eq_true_eq] at hr
    replace hr := hr.1
    have hc : Sys.step cfg.sys w.sys (.connRead b (.command v answers)) = some w.sys := by
      simp [Sys.step, Sys.connRead, hr.1, hr.2, hu]
    rw [hv] at hs
    simp only [item, Option.toList, List.map_cons, List.map_nil, sysSteps, hc, Option.some.injEq] at hs
    subst hs
    refine ⟨rfl, ?_, rfl, fun b' hb => if_neg hb⟩
    have happ : ∀ (x : Consumer.State T) (l : List Inbound) (o : Bool), x.inbox = l → x.isOpen = o →
        ({ x with inbox := l, isOpen := o } : Consumer.State T) = x := by
      rintro x l o rfl rfl; rfl
    exact happ _ _ _ hp.inbox hp.isOpen
  · cases hs

/-- The command is the broker's notice that it has closed consumer (`16`) or producer (`15`) `id`. -/
def IsCloseNotice (v : MessageCommand) (id : UInt64) : Prop :=
  (commandType v.command = 16 ∧ ∃ m, getMsg .baseCommand v.command 16 = some m ∧ getU64 .commandCloseConsumer m 1 = id) ∨
  (commandType v.command = 15 ∧ ∃ m, getMsg .baseCommand v.command 15 = some m ∧ getU64 .commandCloseProducer m 1 = id)

/-- "A client whose consumer or producer was closed by the broker is told": it never is, the notice has no effect. -/
theorem C123_refuted {cfg : World.Cfg T} {acts : List World.Act} {w w' : World T} (h : World.Run cfg acts w) {b : BrokerAddress}
    {answers : Option Sys.Tok} (hs : World.step cfg w (.poll b answers) = some w') {v : MessageCommand} {id : UInt64}
    (hv : (Framed.pollNext (w.rx b).framed (w.rx b).socket).1 = .item v) (hc : IsCloseNotice v id) :
    w'.sys = w.sys ∧ w'.app = w.app ∧ w'.tx = w.tx := by
  have ht : commandType v.command ∉ supportedTypes := by
    rcases hc with ⟨h, _⟩ | ⟨h, _⟩ <;> rw [h] <;> decide
  obtain ⟨h1, h2, h3, _⟩ := C124_no_effect h hs hv ht
  exact ⟨h1, h2, h3⟩

namespace IgnoredExample

open Frame Trace Proto EndToEndExample

/-- The notice, for consumer 0. -/
def notice : MessageCommand :=
  ⟨Neutron.baseCommand 16 16 (Neutron.mkMsg .commandCloseConsumer [(1, Neutron.vU64 0), (2, Neutron.vU64 0)]), none⟩

theorem is_notice : IsCloseNotice notice 0 := .inl ⟨rfl, _, rfl, rfl⟩

theorem frame_notice : Framed.IsFrame (notice, layout notice.parts.1 notice.parts.2) := by
  refine Framed.isFrame_of (parts_sendable _ ?_ (by intro p hp; cases hp) (by decide +kernel))
  exact base_ser 100 16 16 _ .commandCloseConsumer (by decide) rfl (mk_ser 99 _ _ (by simp [pulsar])
    (fields_cons (ok_u64 1 _ _ rfl) (fields_cons (ok_u64 2 _ _ rfl) fields_nil)))

/-- A call waits for a message, and the notice arrives. -/
def v1 : World UInt8 := EndToEndExample.after w0 (.app (.spawn .message) :: (Consumer.go 0 2).map World.Act.app)
def v2 : World UInt8 := EndToEndExample.after v1 [.arrive b0 (.data (layout notice.parts.1 notice.parts.2))]
def v3 : World UInt8 := polled v2 (.item notice) { buf := [], readable := true } []

theorem to_v2 : World.Run wcfg (before ++ (.app (.spawn .message) :: (Consumer.go 0 2).map World.Act.app) ++
    [.arrive b0 (.data (layout notice.parts.1 notice.parts.2))]) v2 :=
  EndToEndExample.run_exec (w := v1) (EndToEndExample.run_exec run0 rfl) rfl

theorem poll_notice : Framed.pollNext (v2.rx b0).framed (v2.rx b0).socket = (.item notice, { buf := [], readable := true }, []) := by
  show Framed.pollNext {} [.data (layout notice.parts.1 notice.parts.2)] = _
  have hd := Framed.IsFrame.decode frame_notice []
  rw [List.append_nil] at hd
  simp [Framed.pollNext, Framed.attempt, hd]

theorem step_notice : World.step wcfg v2 (.poll b0 none) = some v3 := poll_step _ _ _ rfl rfl poll_notice rfl (.inr ⟨_, rfl⟩)

/-- A run in which it happens: the consumer waits for a message, the broker closes it and says so, the notice is read, and then the
consumer still waits and nothing in the instance has anything left to do. -/
theorem C123_refuted_run : ∃ acts w w' v, World.Run wcfg acts w ∧ World.step wcfg w (.poll b0 none) = some w' ∧
    (Framed.pollNext (w.rx b0).framed (w.rx b0).socket).1 = .item v ∧ IsCloseNotice v (w.sys.clients wcfg.me).core.clientId ∧
    w'.app.waiting 0 ∧ Consumer.step wcfg.app w'.app (.run 0) = none ∧ w'.sys.mode = .idle ∧
    (Framed.pollNext (w'.rx b0).framed (w'.rx b0).socket).1 = .pending ∧
    (∀ a, (∃ i auth net, a = Sys.Act.engOut i auth net) ∨ (∃ b, a = .engIn b) ∨ a = .engReg ∨ a = .engConnectDone ∨
      (∃ b r, a = .connCmd b r) → Sys.step wcfg.sys w'.sys a = none) := by
  refine ⟨_, v2, v3, notice, to_v2, step_notice, by rw [poll_notice], is_notice, ⟨_, _, rfl, rfl⟩, rfl, rfl, rfl, ?_⟩
  have hv : v3.sys.vec = [0] := rfl
  have ha : v3.sys.addrs = [b0] := rfl
  rintro a (⟨i, auth, net, rfl⟩ | ⟨b, rfl⟩ | rfl | rfl | ⟨b, r, rfl⟩)
  · by_cases hi : i = 0
    · subst hi; rfl
    · have : ¬ (v3.sys.mode = .idle ∧ i ∈ v3.sys.vec ∧ v3.sys.addrs ≠ []) := by rw [hv]; simp [hi]
      simp only [Sys.step, Sys.engOut, if_neg this]
  · by_cases hb : b = b0
    · subst hb; rfl
    · have : ¬ (v3.sys.mode = .idle ∧ b ∈ v3.sys.addrs ∧ v3.sys.vec ≠ []) := by rw [ha]; simp [hb]
      simp only [Sys.step, Sys.engIn, if_neg this]
  · rfl
  · rfl
  · by_cases hb : b = b0
    · subst hb; rfl
    · have : ¬ ((v3.sys.conns b).alive = true ∧ b ∈ v3.sys.addrs) := by rw [ha]; simp [hb]
      simp only [Sys.step, Sys.connCmd, if_neg this]

end IgnoredExample

end Neutron.Props
