import Verif.Props.AppSend
import Verif.Props.AppOrder

/-!
# C119: concrete runs
-/

namespace Neutron.Props.AppExample

open Neutron Neutron.World Neutron.App Frame Trace Proto EndToEndExample ConfirmedExample Session

set_option maxRecDepth 20000

/-- The broker's receipt for a send of the first client. -/
def receiptOf (q : UInt64) : MessageCommand :=
  ⟨baseCommand 7 7 (Neutron.mkMsg .commandSendReceipt [(1, vU64 0), (2, vU64 q), (3, vMsg (Neutron.mkMsg .messageIdData [(1, vU64 5), (2, vU64 1)]))]), none⟩

theorem frame_receiptOf (q : UInt64) (hs : size (receiptOf q).parts.1 (receiptOf q).parts.2 < 4294967296) :
    Framed.IsFrame (receiptOf q, bytes (receiptOf q)) := by
  refine Framed.isFrame_of (parts_sendable _ ?_ (by intro p hp; cases hp) hs)
  exact base_ser 100 7 7 _ .commandSendReceipt (by decide) rfl (mk_ser 99 _ _ (by simp [pulsar])
      (fields_cons (ok_u64 1 _ _ rfl) (fields_cons (ok_u64 2 _ _ rfl) (fields_cons (ok_msg 3 _ .messageIdData _
        (mk_ser 98 _ _ (by simp [pulsar]) (fields_cons (ok_u64 1 _ _ rfl) (fields_cons (ok_u64 2 _ _ rfl) fields_nil))) rfl) fields_nil))))

/-! After the send of `AppSend`, another. -/

def next1 : List App.Act := [.start (.call 0 (Session.send some [33]))] ++ asks 2 0
def next2 : List App.Act := gets 2 ++ [.run 2]
def sent2 : Send := .single "c" 0 1 [33]
def command2 : MessageCommand := sent2.asCommand 0
theorem command2_to : (Outbound.send sent2).toCommand 0 = .ok command2 := Send.toCommand_eq ..
def q1 : App.State UInt8 := after p14 next1
def q2 : App.State UInt8 := wrote q1 (bytes command2)
def q3 : App.State UInt8 := heard q2 (receiptOf 1)
def q4 : App.State UInt8 := after q3 next2

theorem again1 : App.exec wcfg p14 next1 = some q1 := rfl
theorem again2 : App.exec wcfg q1 write = some q2 :=
  write_exec (c := ⟨.send sent2, none, some (0, ⟨.send sent2, some 4⟩)⟩) (v := command2) command2_to trivial (by decide +kernel) rfl rfl rfl
theorem again3 : App.exec wcfg q2 (AppExample.hear (receiptOf 1)) = some q3 :=
  hear_exec (frame_receiptOf 1 (by decide +kernel)) (by decide) rfl rfl true rfl rfl rfl
theorem again4 : App.exec wcfg q3 next2 = some q4 := rfl

def again : List App.Act := next1 ++ write ++ AppExample.hear (receiptOf 1) ++ next2

theorem again_exec : App.exec wcfg p14 again = some q4 := exec_trans (exec_trans (exec_trans again1 again2) again3) again4

/-- `C119_sends_in_order`'s hypotheses are met. -/
example : ∃ log1 log j1 j2, App.Run wcfg sending log1 p14 ∧ App.Run wcfg (sending ++ again) log q4 ∧ j1 ∈ p14.jobs ∧
    j1.made = .call 0 (Session.send some [104]) ∧ Sends (Session.send some [104]) (.sendMessage [104]) ∧
    j1.ended = some (.ok ()) ∧ p14.jobs.length ≤ 2 ∧ q4.jobs[2]? = some j2 ∧ j2.made = .call 0 (Session.send some [33]) ∧
    j2.ended = some (.ok ()) ∧ (Sys.idsOf Sys.sequenceIdOf q4.world.sys.issued 0).length ≤ 2 ^ 64 := by
  obtain ⟨log1, hr, _⟩ := reach_sent
  obtain ⟨log, hr2⟩ := run_exec hr again_exec
  exact ⟨log1, log, p14.jobs[1], q4.jobs[2]'(by decide), hr, hr2, List.getElem_mem (by decide), rfl,
    .inl ⟨_, _, _, _, rfl, rfl, rfl⟩, rfl, by decide, rfl, rfl, rfl, by decide⟩

/-! Or two at once, with `send_all`. -/

def all1 : List App.Act := [.start (.call 0 (sendAll some [[33], [34]])), .run 2, .run 2, .run 2, .run 2,
  .world (.sys (.engOut 0 (.ok []) net0)), .world (.sys (.engOut 0 (.ok []) net0))]
def sent3 : Send := .single "c" 0 2 [34]
def command3 : MessageCommand := sent3.asCommand 0
theorem command3_to : (Outbound.send sent3).toCommand 0 = .ok command3 := Send.toCommand_eq ..
def all2 : List App.Act := [.world (.sys (.engIn b0)), .world (.sys (.engIn b0)), .run 2, .run 2, .run 2]
def r1 : App.State UInt8 := after p14 all1
def r2 : App.State UInt8 := wrote r1 (bytes command2)
def r3 : App.State UInt8 := wrote r2 (bytes command3)
def r4 : App.State UInt8 := heard r3 (receiptOf 1)
def r5 : App.State UInt8 := heard r4 (receiptOf 2)
def r6 : App.State UInt8 := after r5 all2

theorem both1 : App.exec wcfg p14 all1 = some r1 := rfl
theorem both2 : App.exec wcfg r1 write = some r2 :=
  write_exec (c := ⟨.send sent2, none, some (0, ⟨.send sent2, some 4⟩)⟩) (v := command2) command2_to trivial (by decide +kernel) rfl rfl rfl
theorem both3 : App.exec wcfg r2 write = some r3 :=
  write_exec (c := ⟨.send sent3, none, some (0, ⟨.send sent3, some 5⟩)⟩) (v := command3) command3_to trivial (by decide +kernel) rfl rfl rfl
theorem both4 : App.exec wcfg r3 (AppExample.hear (receiptOf 1)) = some r4 :=
  hear_exec (frame_receiptOf 1 (by decide +kernel)) (by decide) rfl rfl true rfl rfl rfl
theorem both5 : App.exec wcfg r4 (AppExample.hear (receiptOf 2)) = some r5 :=
  hear_exec (frame_receiptOf 2 (by decide +kernel)) (by decide) rfl rfl true rfl rfl rfl
theorem both6 : App.exec wcfg r5 all2 = some r6 := rfl

/-- `C119_send_all`'s hypotheses are met. -/
example : ∃ acts log j, App.Run wcfg acts log r6 ∧ j ∈ r6.jobs ∧ j.made = .call 0 (sendAll some [[33], [34]]) ∧
    j.ended = some (.ok ()) ∧ r6.world.sys.mode = .idle := by
  obtain ⟨log1, hr, _⟩ := reach_sent
  obtain ⟨log, hr2⟩ := run_exec hr (exec_trans (exec_trans (exec_trans (exec_trans (exec_trans both1 both2) both3) both4) both5) both6)
  exact ⟨_, log, r6.jobs[2]'(by decide), hr2, List.getElem_mem _, rfl, rfl, rfl⟩

/-! A consumer acknowledges with `ack_all`. -/

theorem frame_ack : Framed.IsFrame (ackC 0 2, bytes (ackC 0 2)) := by
  refine Framed.isFrame_of (parts_sendable _ ?_ (by intro p hp; cases hp) (by decide +kernel))
  exact base_ser 100 38 38 _ .commandAckResponse (by decide) rfl (mk_ser 99 _ _ (by simp [pulsar])
    (fields_cons (ok_u64 1 _ _ rfl) (fields_cons (ok_u64 6 _ _ rfl) fields_nil)))

def ackAll1 : List App.Act := [.start (.call 0 (ackAll [ackA]))] ++ asks 1 0
def ackAll2 : List App.Act := gets 1 ++ [.run 1]
def v1 : App.State UInt8 := after a7 ackAll1
def v2 : App.State UInt8 := heard v1 (ackC 0 2)
def v3 : App.State UInt8 := after v2 ackAll2

theorem acks1 : App.exec wcfg a7 ackAll1 = some v1 := rfl
theorem acks2 : App.exec wcfg v1 (AppExample.hear (ackC 0 2)) = some v2 :=
  hear_exec frame_ack (by decide) rfl rfl true rfl rfl rfl
theorem acks3 : App.exec wcfg v2 ackAll2 = some v3 := rfl

/-- `C119_ack_all`'s hypotheses are met. -/
example : ∃ acts log j, App.Run wcfg acts log v3 ∧ j ∈ v3.jobs ∧ j.made = .call 0 (ackAll [ackA]) ∧
    j.ended = some (.ok ()) ∧ v3.world.sys.mode = .idle := by
  obtain ⟨log, hr⟩ := run_exec (as := []) .nil (exec_trans (exec_trans (exec_trans making_exec acks1) acks2) acks3)
  exact ⟨_, log, v3.jobs[1]'(by decide), hr, List.getElem_mem _, rfl, rfl, rfl⟩

end Neutron.Props.AppExample
