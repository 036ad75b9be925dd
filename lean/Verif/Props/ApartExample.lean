import Verif.Props.Apart
import Verif.Props.StrayExample

/-!
# C157: an instance
-/

namespace Neutron.Props.ApartExample

open Neutron.World Neutron.App Neutron.Sys EndToEndExample AppExample Session Trace ConfirmedExample Frame Proto

/-- A second consumer is being made; its client is registered. -/
def second : List App.Act := .start (.consumer builder) :: joins 1
def f1 : App.State UInt8 := AppExample.after StrayExample.b1 second

/-- A message for the second consumer. -/
def theirs : MessageCommand := wireMessage 1 1 [104, 105]
def f2 : App.State UInt8 := heard f1 theirs
def f3 : App.State UInt8 := AppExample.after f2 [.world (.sys (.engIn b0))]

set_option maxRecDepth 20000

theorem second_exec : App.exec wcfg StrayExample.b1 second = some f1 := rfl
theorem theirs_exec : App.exec wcfg f1 (hear theirs) = some f2 :=
  hear_exec (wireMessage_frame 1 1 [104, 105] (by decide +kernel)) (by decide) rfl rfl true rfl rfl rfl

theorem handles_exec : App.exec wcfg f2 [.world (.sys (.engIn b0))] = some f3 := rfl

/-- The hypotheses of C157_unaffected and C157_same_future are met: the first consumer waits for a message, and one for the second consumer is
handled, which is queued there. -/
example : ∃ acts log e m, App.Run wcfg acts log f2 ∧ (f2.world.sys.conns b0).outbox = [e] ∧ e.inb = .message m ∧
    ¬ ((f2.world.sys.clients wcfg.me).broker = b0 ∧ (f2.world.sys.clients wcfg.me).core.clientId = m.consumerId) ∧
    App.step wcfg f2 (.world (.sys (.engIn b0))) = some f3 ∧ (f3.world.sys.clients 1).inbox = [e] ∧ f3.world.app.waiting 0 ∧
    AlikeFor wcfg f3 (without f2 b0) := by
  obtain ⟨log, hr⟩ := run_exec (as := []) .nil (exec_trans (exec_trans (exec_trans making_exec StrayExample.waits_exec) second_exec) theirs_exec)
  have he : (f2.world.sys.conns b0).outbox = [⟨.message (.single 1 (mkMsg .messageIdData [(1, vU64 5), (2, vU64 1)]) [104, 105]), none⟩] := rfl
  have hs : App.step wcfg f2 (.world (.sys (.engIn b0))) = some f3 := rfl
  have hn : ¬ ((f2.world.sys.clients wcfg.me).broker = b0 ∧ (f2.world.sys.clients wcfg.me).core.clientId = 1) := by
    rintro ⟨_, hc⟩
    have : (f2.world.sys.clients wcfg.me).core.clientId = 0 := rfl
    rw [this] at hc
    exact absurd hc (by decide)
  refine ⟨_, log, _, _, hr, he, rfl, hn, hs, rfl, ?_, C157_unaffected hr he rfl hn hs⟩
  exact ⟨_, _, rfl, rfl⟩

/-- The hypotheses of C157_others_reading are met: the second consumer takes it. -/
example : ∃ acts log x', App.Run wcfg acts log f3 ∧ OthersTake wcfg.me (.world (.sys (.clientNext 1))) ∧
    App.step wcfg f3 (.world (.sys (.clientNext 1))) = some x' ∧ (x'.world.sys.clients 1).inbox = [] ∧ AlikeFor wcfg x' f3 := by
  obtain ⟨log, hr⟩ := run_exec (as := []) .nil
    (exec_trans (exec_trans (exec_trans (exec_trans making_exec StrayExample.waits_exec) second_exec) theirs_exec) handles_exec)
  have ho : OthersTake wcfg.me (.world (.sys (.clientNext 1))) := ⟨1, by decide, rfl⟩
  have hs : App.step wcfg f3 (.world (.sys (.clientNext 1))) = some (AppExample.after f3 [.world (.sys (.clientNext 1))]) := rfl
  exact ⟨_, log, _, hr, ho, hs, rfl, C157_others_reading hr ho hs⟩

/-- Another one follows. -/
def more : MessageCommand := wireMessage 1 2 [104]
def g2 : App.State UInt8 := heard f2 more
def g3 : App.State UInt8 := AppExample.after g2 [.world (.sys (.engIn b0))]
def g4 : App.State UInt8 := AppExample.after g3 [.world (.sys (.engIn b0))]

theorem more_exec : App.exec wcfg f2 (hear more) = some g2 :=
  hear_exec (wireMessage_frame 1 2 [104] (by decide +kernel)) (by decide) rfl rfl true rfl rfl rfl

/-- The hypotheses of C157_backlog are met: both are handled. -/
example : ∃ acts log es, App.Run wcfg acts log g2 ∧ (g2.world.sys.conns b0).outbox = es ++ [] ∧ es.length = 2 ∧
    (∀ e ∈ es, ∃ m, e.inb = .message m ∧
      ¬ ((g2.world.sys.clients wcfg.me).broker = b0 ∧ (g2.world.sys.clients wcfg.me).core.clientId = m.consumerId)) ∧
    Handles wcfg b0 es.length g2 g4 ∧ (g4.world.sys.clients 1).inbox = es ∧ AlikeFor wcfg g4 (withoutFirst 2 g2 b0) := by
  obtain ⟨log, hr⟩ := run_exec (as := []) .nil
    (exec_trans (exec_trans (exec_trans (exec_trans making_exec StrayExample.waits_exec) second_exec) theirs_exec) more_exec)
  have he : (g2.world.sys.conns b0).outbox = [⟨.message (.single 1 (mkMsg .messageIdData [(1, vU64 5), (2, vU64 1)]) [104, 105]), none⟩,
      ⟨.message (.single 1 (mkMsg .messageIdData [(1, vU64 5), (2, vU64 2)]) [104]), none⟩] ++ [] := rfl
  have hid : (g2.world.sys.clients wcfg.me).core.clientId = 0 := rfl
  have hn : ∀ d bs, ¬ ((g2.world.sys.clients wcfg.me).broker = b0 ∧
      (g2.world.sys.clients wcfg.me).core.clientId = (Message.single 1 d bs).consumerId) := by
    rintro d bs ⟨_, hc⟩
    rw [hid, show (Message.single 1 d bs).consumerId = 1 from rfl] at hc
    exact absurd hc (by decide)
  have hs : Handles wcfg b0 2 g2 g4 := .succ (y := g3) rfl (.succ (y := g4) rfl (.zero _))
  have hall : ∀ e ∈ [(⟨.message (.single 1 (mkMsg .messageIdData [(1, vU64 5), (2, vU64 1)]) [104, 105]), none⟩ : Sys.Event),
      ⟨.message (.single 1 (mkMsg .messageIdData [(1, vU64 5), (2, vU64 2)]) [104]), none⟩], ∃ m, e.inb = .message m ∧
      ¬ ((g2.world.sys.clients wcfg.me).broker = b0 ∧ (g2.world.sys.clients wcfg.me).core.clientId = m.consumerId) := by
    intro e hm
    rcases List.mem_cons.mp hm with rfl | hm
    · exact ⟨_, rfl, hn _ _⟩
    · rw [List.mem_singleton] at hm
      subst hm
      exact ⟨_, rfl, hn _ _⟩
  exact ⟨_, log, _, hr, he, rfl, hall, hs, rfl, C157_backlog hr he hall hs⟩

end Neutron.Props.ApartExample
