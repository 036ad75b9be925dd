import Verif.Props.AppSend
import Verif.Props.AppAsked

/-!
# C121: concrete runs
-/

namespace Neutron.Props.AppExample

open Neutron Neutron.World Neutron.App Frame Trace Proto EndToEndExample ConfirmedExample Session

set_option maxRecDepth 20000

theorem fits_sent : World.Fits p14.world := by
  obtain ⟨log, hr, _⟩ := reach_sent
  intro b c hc
  by_cases hb : b = Trace.b0
  · subst hb
    have : (p14.world.sys.conns Trace.b0).processed.map (·.out) = [connectOut, lookup0, registration0, .send ConfirmedExample.sent1] := rfl
    have hc' := List.mem_map_of_mem (f := (·.out)) hc
    rw [this] at hc'
    simp only [List.mem_cons, List.not_mem_nil, or_false] at hc'
    rcases hc' with h | h | h | h <;> rw [h] <;> exact ⟨trivial, by decide +kernel⟩
  · have h0 := (Sys.conn (reachable hr)).unused b (by show b ∉ [Trace.b0]; simpa using hb)
    rw [h0] at hc; cases hc

/-- The hypotheses of `C121_asked` and `C121_sends` are met: a producer was made and has sent a message; the broker has received it. -/
example : ∃ log, App.Run wcfg sending log p14 ∧ World.Fits p14.world ∧ p14.world.sys.nClients ≤ 2 ^ 64 ∧
    Received (p14.world.tx b0).sent command1 ∧ commandType command1.command = 6 := by
  obtain ⟨log, hr, _⟩ := reach_sent
  exact ⟨log, hr, fits_sent, by decide, received_send, commandType_base ..⟩

/-! A consumer is made, and acknowledges a message; everything is written to the broker. -/

def theId : MessageId := Neutron.mkMsg .messageIdData [(1, vU64 5), (2, vU64 1)]

theorem theId_valid : ValidId theId := by
  have h : Ser 99 .messageIdData theId := mk_ser 98 _ _ (by simp [pulsar]) (fields_cons (ok_u64 1 _ _ rfl) (fields_cons (ok_u64 2 _ _ rfl) fields_nil))
  exact ⟨h.1, (Proto.hasRequired_iff _ _ _).mp h.2⟩

def lookupA : Outbound := .lookupTopic ⟨0, "t"⟩
def subscribeA : Outbound := .subscribe ⟨"t", "s", 0, 1, .shared⟩
def flowA : Outbound := .flow ⟨0, 500⟩
def ackOut : Outbound := .ack [⟨0, theId, 2⟩]
def g1 : App.State UInt8 := t1 theId
def g2 : App.State UInt8 := wrote g1 (bytes (out lookupA))
def g3 : App.State UInt8 := wrote g2 (bytes (out subscribeA))
def g4 : App.State UInt8 := wrote g3 (bytes (out flowA))
def g5 : App.State UInt8 := wrote g4 (bytes (out ackOut))

theorem ack_valid : ackOut.Valid := ⟨by simp, by intro a ha; simp only [List.mem_singleton] at ha; subst ha; exact theId_valid⟩

theorem wrote2 : App.exec wcfg g1 write = some g2 :=
  write_exec (c := ⟨lookupA, none, some (0, ⟨lookupA, some 1⟩)⟩) (v := out lookupA) rfl trivial (by decide +kernel) rfl rfl rfl
theorem wrote3 : App.exec wcfg g2 write = some g3 :=
  write_exec (c := ⟨subscribeA, none, some (0, ⟨subscribeA, some 2⟩)⟩) (v := out subscribeA) rfl trivial (by decide +kernel) rfl rfl rfl
theorem wrote4 : App.exec wcfg g3 write = some g4 :=
  write_exec (c := ⟨flowA, none, some (0, ⟨flowA, none⟩)⟩) (v := out flowA) rfl trivial (by decide +kernel) rfl rfl rfl
theorem wrote5 : App.exec wcfg g4 write = some g5 :=
  write_exec (c := ⟨ackOut, none, some (0, ⟨ackOut, some 3⟩)⟩) (v := out ackOut) rfl ack_valid (by decide +kernel) rfl rfl rfl

def acking : List App.Act := making ++ (first theId ++ write ++ write ++ write ++ write)

theorem acking_run : ∃ log, App.Run wcfg acking log g5 := by
  obtain ⟨log, h⟩ := making_run
  exact run_exec h (exec_trans (exec_trans (exec_trans (exec_trans (two1 theId) wrote2) wrote3) wrote4) wrote5)

theorem received_ack : Received (g5.world.tx b0).sent (out ackOut) := by
  refine ⟨[(connectV, bytes connectV), (out lookupA, bytes (out lookupA)), (out subscribeA, bytes (out subscribeA)),
    (out flowA, bytes (out flowA)), (out ackOut, bytes (out ackOut))], ⟨?_, [], ?_⟩, by simp⟩
  · intro f hf
    simp only [List.mem_cons, List.not_mem_nil, or_false] at hf
    rcases hf with rfl | rfl | rfl | rfl | rfl
    · exact frame_out connectOut rfl trivial (by decide +kernel)
    · exact frame_out lookupA rfl trivial (by decide +kernel)
    · exact frame_out subscribeA rfl trivial (by decide +kernel)
    · exact frame_out flowA rfl trivial (by decide +kernel)
    · exact frame_out ackOut rfl ack_valid (by decide +kernel)
  · simp [Framed.stream, g5, wrote, OnTheWireExample.wroteTo]
    rfl

theorem fits_ack : World.Fits g5.world := by
  obtain ⟨log, hr⟩ := acking_run
  intro b c hc
  by_cases hb : b = Trace.b0
  · subst hb
    have : (g5.world.sys.conns Trace.b0).processed.map (·.out) = [connectOut, lookupA, subscribeA, flowA, ackOut] := rfl
    have hc' := List.mem_map_of_mem (f := (·.out)) hc
    rw [this] at hc'
    simp only [List.mem_cons, List.not_mem_nil, or_false] at hc'
    rcases hc' with h | h | h | h | h <;> rw [h] <;> first | exact ⟨trivial, by decide +kernel⟩ | exact ⟨ack_valid, by decide +kernel⟩
  · have h0 := (Sys.conn (reachable hr)).unused b (by show b ∉ [Trace.b0]; simpa using hb)
    rw [h0] at hc; cases hc

/-- The hypotheses of `C121_acks` are met. -/
example : ∃ log, App.Run wcfg acking log g5 ∧ World.Fits g5.world ∧ Received (g5.world.tx b0).sent (out ackOut) ∧
    commandType (out ackOut).command = 10 := by
  obtain ⟨log, hr⟩ := acking_run
  exact ⟨log, hr, fits_ack, received_ack, commandType_base ..⟩

end Neutron.Props.AppExample
