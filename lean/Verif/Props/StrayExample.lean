import Verif.Props.Stray
import Verif.Props.AppExample

/-!
# C152, C153: instances
-/

namespace Neutron.Props.StrayExample

open Neutron.World Neutron.App Neutron.Sys EndToEndExample AppExample Session Trace ConfirmedExample Frame Proto

/-- The application waits for a message. -/
def waits : List App.Act := [.world (.app (.spawn .message)), .world (.app (.run 0)), .world (.app (.run 0))]
def b1 : App.State UInt8 := AppExample.after a7 waits
def b2 : App.State UInt8 := heard b1 (successC 1)
def b3 : App.State UInt8 := AppExample.after b2 [.world (.sys (.engIn b0))]

/-- An authentication challenge. -/
def challenge : MessageCommand := ⟨baseCommand 36 36 (mkMsg .commandAuthChallenge [(1, vStr "2.11")]), none⟩
def c2 : App.State UInt8 := heard b1 challenge
def c3 : App.State UInt8 := AppExample.after c2 [.world (.sys (.engIn b0))]

theorem frame_challenge : Framed.IsFrame (challenge, bytes challenge) := by
  refine Framed.isFrame_of (parts_sendable _ ?_ (by intro p hp; cases hp) (by decide +kernel))
  exact base_ser 100 36 36 _ .commandAuthChallenge (by decide) rfl (mk_ser 99 _ _ (by simp [pulsar]) (fields_cons (ok_str 1 _ _ rfl) fields_nil))

theorem frame_ping : Framed.IsFrame (pingCommand, bytes pingCommand) := by
  refine Framed.isFrame_of (parts_sendable _ ?_ (by intro p hp; cases hp) (by decide +kernel))
  exact base_ser 100 18 18 _ .commandPing (by decide) rfl (mk_ser 99 _ _ (by simp [pulsar]) fields_nil)

/-- A message for a consumer there is not. -/
def lost : MessageCommand := wireMessage 77 1 [104, 105]

theorem frame_lost : Framed.IsFrame (lost, bytes lost) := wireMessage_frame 77 1 [104, 105] (by decide +kernel)

def d2 : App.State UInt8 := heard b1 pingCommand
def d3 : App.State UInt8 := AppExample.after d2 [.world (.sys (.engIn b0))]
def e2 : App.State UInt8 := heard b1 lost
def e3 : App.State UInt8 := AppExample.after e2 [.world (.sys (.engIn b0))]

set_option maxRecDepth 20000

theorem waits_exec : App.exec wcfg a7 waits = some b1 := rfl
theorem again_exec : App.exec wcfg b1 (hear (successC 1)) = some b2 := hear_exec frame_success (by decide) rfl rfl true rfl rfl rfl
theorem challenge_exec : App.exec wcfg b1 (hear challenge) = some c2 := hear_exec frame_challenge (by decide) rfl rfl true rfl rfl rfl

theorem ping_exec : App.exec wcfg b1 (hear pingCommand) = some d2 := hear_exec frame_ping (by decide) rfl rfl true rfl rfl rfl
theorem lost_exec : App.exec wcfg b1 (hear lost) = some e2 := hear_exec frame_lost (by decide) rfl rfl true rfl rfl rfl

/-- All requests have completed. -/
theorem none_open : ∀ t, ¬ Sys.Outstanding b2.world.sys t := by
  have hi : b2.world.sys.issued.length = 3 := rfl
  have ho : b2.world.sys.outcomes.map (·.1) = [0, 1, 2] := rfl
  rintro t ⟨h1, h2⟩
  rw [hi] at h1
  have : t ∈ b2.world.sys.outcomes.map (·.1) := by rw [ho]; simp; omega
  obtain ⟨p, hp, rfl⟩ := List.mem_map.mp this
  exact h2 _ hp

/-- The hypotheses of C152_no_effect and C152_same_future are met: a consumer has been made and waits for a message; the broker repeats its answer to the
subscription, which is read and handled by the engine. -/
example : ∃ acts log e, App.Run wcfg acts log b2 ∧ (b2.world.sys.conns b0).outbox = [e] ∧ (∀ m, e.inb ≠ .message m) ∧ e.inb ≠ .ping ∧
    ¬ Awaited b2.world.sys e.inb ∧ App.step wcfg b2 (.world (.sys (.engIn b0))) = some b3 ∧
    (b3.world.sys.clients 0).inbox.length = 1 ∧ b3.world.app.waiting 0 ∧ Alike wcfg b3 (without b2 b0) := by
  obtain ⟨log, hr⟩ := run_exec (as := []) .nil (exec_trans (exec_trans making_exec waits_exec) again_exec)
  have he : (b2.world.sys.conns b0).outbox = [⟨.success 1, none⟩] := rfl
  have hs : App.step wcfg b2 (.world (.sys (.engIn b0))) = some b3 := rfl
  have hn : ¬ Awaited b2.world.sys (.success 1) := by
    rintro ⟨t, _, _, _, h, _⟩
    exact none_open t h
  refine ⟨_, log, _, hr, he, (by intro m h; cases h), (by intro h; cases h), hn, hs, rfl, ?_, C152_no_effect hr he (by intro m h; cases h)
    (by intro h; cases h) hn hs⟩
  exact ⟨_, _, rfl, rfl⟩

/-- The hypotheses of C153_refuted are met: the broker challenges the client to authenticate itself again, as it does when a token has expired. -/
example : ∃ acts log e, App.Run wcfg acts log c2 ∧ (c2.world.sys.conns b0).outbox = [e] ∧ e.inb = .authChallengeRequest ∧
    App.step wcfg c2 (.world (.sys (.engIn b0))) = some c3 ∧ (c3.world.sys.conns b0).queue = (c2.world.sys.conns b0).queue ∧
    Alike wcfg c3 (without c2 b0) := by
  obtain ⟨log, hr⟩ := run_exec (as := []) .nil (exec_trans (exec_trans making_exec waits_exec) challenge_exec)
  have he : (c2.world.sys.conns b0).outbox = [⟨.authChallengeRequest, none⟩] := rfl
  have hs : App.step wcfg c2 (.world (.sys (.engIn b0))) = some c3 := rfl
  exact ⟨_, log, _, hr, he, rfl, hs, rfl, C153_refuted hr he rfl hs⟩

/-- The hypotheses of C154_only_pong are met: the broker pings while the consumer waits. -/
example : ∃ acts log e, App.Run wcfg acts log d2 ∧ (d2.world.sys.conns b0).outbox = [e] ∧ e.inb = .ping ∧ (d2.world.sys.conns b0).alive = true ∧
    App.step wcfg d2 (.world (.sys (.engIn b0))) = some d3 ∧ (d3.world.sys.conns b0).queue = (d2.world.sys.conns b0).queue ++ [⟨.pong, none, none⟩] ∧
    Alike wcfg d3 (withPong (without d2 b0) b0) := by
  obtain ⟨log, hr⟩ := run_exec (as := []) .nil (exec_trans (exec_trans making_exec waits_exec) ping_exec)
  have he : (d2.world.sys.conns b0).outbox = [⟨.ping, none⟩] := rfl
  have hs : App.step wcfg d2 (.world (.sys (.engIn b0))) = some d3 := rfl
  exact ⟨_, log, _, hr, he, rfl, rfl, hs, rfl, C154_only_pong hr he rfl rfl hs⟩

/-- The hypotheses of C152_misdirected are met: a message for consumer 77, which there is not. -/
example : ∃ acts log e m, App.Run wcfg acts log e2 ∧ (e2.world.sys.conns b0).outbox = [e] ∧ e.inb = .message m ∧
    NoConsumer e2.world.sys b0 m.consumerId ∧ App.step wcfg e2 (.world (.sys (.engIn b0))) = some e3 ∧ Alike wcfg e3 (without e2 b0) := by
  obtain ⟨log, hr⟩ := run_exec (as := []) .nil (exec_trans (exec_trans making_exec waits_exec) lost_exec)
  have he : (e2.world.sys.conns b0).outbox = [⟨.message (.single 77 (mkMsg .messageIdData [(1, vU64 5), (2, vU64 1)]) [104, 105]), none⟩] := rfl
  have hs : App.step wcfg e2 (.world (.sys (.engIn b0))) = some e3 := rfl
  have hn : NoConsumer e2.world.sys b0 77 := by
    intro i hi _ hc
    have hv : e2.world.sys.vec = [0] := rfl
    rw [hv, List.mem_singleton] at hi
    subst hi
    have : (e2.world.sys.clients 0).core.clientId = 0 := rfl
    rw [this] at hc
    exact absurd hc (by decide)
  exact ⟨_, log, _, _, hr, he, rfl, hn, hs, C152_misdirected hr he rfl hn hs⟩

end Neutron.Props.StrayExample
