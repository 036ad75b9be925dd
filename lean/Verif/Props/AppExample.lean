import Verif.Props.App
import Verif.Props.Confirmed

/-!
# The application's calls: concrete runs
-/

namespace Neutron.App

variable {T : Type}

/-- Several actions in a row. -/
def exec (cfg : World.Cfg T) (a : State T) : List Act → Option (State T)
  | [] => some a
  | x :: xs => match step cfg a x with
    | some a' => exec cfg a' xs
    | none => none

theorem run_exec {cfg : World.Cfg T} {bs : List Act} : ∀ {as : List Act} {log : List World.Act} {a a' : State T}, Run cfg as log a →
    exec cfg a bs = some a' → ∃ log', Run cfg (as ++ bs) log' a' := by
  induction bs with
  | nil => intro as log a a' h hs; cases hs; exact ⟨log, by simpa using h⟩
  | cons x bs ih =>
    intro as log a a' h hs
    simp only [exec] at hs
    cases h1 : step cfg a x with
    | none => simp [h1] at hs
    | some v => simp only [h1] at hs; simpa using ih (h.snoc h1) hs

end Neutron.App

namespace Neutron.Props.AppExample

open Neutron Neutron.World Neutron.App Frame Trace Proto EndToEndExample

/-- The bytes of a command. -/
def bytes (v : MessageCommand) : Bytes := layout v.parts.1 v.parts.2

theorem frame_connected : Framed.IsFrame (connectedC, bytes connectedC) := by
  refine Framed.isFrame_of (parts_sendable _ ?_ (by intro p hp; cases hp) (by decide +kernel))
  exact base_ser 100 3 3 _ .commandConnected (by decide) rfl (mk_ser 99 _ _ (by simp [pulsar]) (fields_cons (ok_str 1 _ _ rfl) fields_nil))

/-- A broker's answer to a lookup: this broker (`ty` is 1), failed (2). -/
def found (ty : Int) : MessageCommand :=
  ⟨baseCommand 24 24 (mkMsg .commandLookupTopicResponse [(1, vStr "pulsar://a:6650"), (3, [.int ty]), (4, vU64 0)]), none⟩

theorem frame_found (ty : Int) (h : -2147483648 ≤ ty ∧ ty < 2147483648) (hs : size (found ty).parts.1 (found ty).parts.2 < 4294967296) :
    Framed.IsFrame (found ty, bytes (found ty)) := by
  refine Framed.isFrame_of (parts_sendable _ ?_ (by intro p hp; cases hp) hs)
  exact base_ser 100 24 24 _ .commandLookupTopicResponse (by decide) rfl (mk_ser 99 _ _ (by simp [pulsar])
    (fields_cons (ok_str 1 _ _ rfl) (fields_cons (ok_enum 3 _ _ h rfl) (fields_cons (ok_u64 4 _ _ rfl) fields_nil))))

theorem frame_success : Framed.IsFrame (successC 1, bytes (successC 1)) := by
  refine Framed.isFrame_of (parts_sendable _ ?_ (by intro p hp; cases hp) (by decide +kernel))
  exact base_ser 100 13 13 _ .commandSuccess (by decide) rfl (mk_ser 99 _ _ (by simp [pulsar]) (fields_cons (ok_u64 1 _ _ rfl) fields_nil))

theorem frame_producer : Framed.IsFrame (producerSuccessC 1, bytes (producerSuccessC 1)) := by
  refine Framed.isFrame_of (parts_sendable _ ?_ (by intro p hp; cases hp) (by decide +kernel))
  exact base_ser 100 17 17 _ .commandProducerSuccess (by decide) rfl (mk_ser 99 _ _ (by simp [pulsar])
    (fields_cons (ok_u64 1 _ _ rfl) (fields_cons (ok_str 2 _ _ rfl) fields_nil)))

/-- A whole command arrives at a connection that has read everything so far, and is read. -/
theorem poll_frame {v : MessageCommand} (h : Framed.IsFrame (v, bytes v)) (r : Bool) :
    Framed.pollNext { buf := [], readable := r } [.data (bytes v)] = (.item v, { buf := [], readable := true }, []) := by
  have hd : Codec.decode (bytes v) = .ok (some (v, [])) := by
    have := Framed.IsFrame.decode h []
    rwa [List.append_nil] at this
  have hn : Codec.decode [] = .ok none := rfl
  cases r <;> simp [Framed.pollNext, Framed.attempt, hd, hn]

/-- The command arrives at the connection to the broker and is read. -/
def hear (v : MessageCommand) : List App.Act := [.world (.arrive b0 (.data (bytes v))), .world (.poll b0 none)]

/-- The state after these actions. -/
def after (a : App.State UInt8) (as : List App.Act) : App.State UInt8 := (App.exec wcfg a as).getD a

/-- The state after the command is read. -/
def heard (a : App.State UInt8) (v : MessageCommand) : App.State UInt8 :=
  ⟨polled (after a [.world (.arrive b0 (.data (bytes v)))]).world (.item v) { buf := [], readable := true } [], a.jobs⟩

theorem exec_append {cfg : World.Cfg UInt8} (as bs : List App.Act) : ∀ (a : App.State UInt8),
    App.exec cfg a (as ++ bs) = (App.exec cfg a as).bind fun a' => App.exec cfg a' bs := by
  induction as with
  | nil => intro a; rfl
  | cons x as ih =>
    intro a
    simp only [List.cons_append, App.exec]
    cases App.step cfg a x with
    | none => rfl
    | some a' => exact ih a'

theorem exec_trans {cfg : World.Cfg UInt8} {as bs : List App.Act} {a a' a'' : App.State UInt8} (h : App.exec cfg a as = some a')
    (h' : App.exec cfg a' bs = some a'') : App.exec cfg a (as ++ bs) = some a'' := by
  rw [exec_append, h]; exact h'

theorem hear_exec {a : App.State UInt8} {v : MessageCommand} (h : Framed.IsFrame (v, bytes v)) (ha : b0 ∈ a.world.sys.addrs)
    (hr : (a.world.sys.conns b0).alive = true) (hst : (a.world.rx b0).stopped = false) (r : Bool)
    (hf : (a.world.rx b0).framed = { buf := [], readable := r }) (hs : (a.world.rx b0).socket = [])
    (hx : (sysSteps wcfg.sys a.world.sys [.connRead b0 (.command v none)]).isSome) (hn : a.world.held b0 = false := by rfl) :
    App.exec wcfg a (hear v) = some (heard a v) := by
  have h1 : App.step wcfg a (.world (.arrive b0 (.data (bytes v)))) = some (after a [.world (.arrive b0 (.data (bytes v)))]) := by
    simp only [after, App.exec, App.step, possible, App.free, if_true, App.induced, worldSteps, World.step, ha, jobsAfter, Option.getD_some]
  have hw : (after a [.world (.arrive b0 (.data (bytes v)))]).world.sys = a.world.sys := by
    simp only [after, App.exec, App.step, possible, App.free, if_true, App.induced, worldSteps, World.step, ha, jobsAfter, Option.getD_some]
  have hrx : (after a [.world (.arrive b0 (.data (bytes v)))]).world.rx b0 = (a.world.rx b0).step (.arrive (.data (bytes v))) := by
    simp only [after, App.exec, App.step, possible, App.free, if_true, App.induced, worldSteps, World.step, ha, jobsAfter, Option.getD_some]
  have hj : (after a [.world (.arrive b0 (.data (bytes v)))]).jobs = a.jobs := by
    simp only [after, App.exec, App.step, possible, App.free, if_true, App.induced, worldSteps, World.step, ha, jobsAfter, Option.getD_some]
  have h2 : World.step wcfg (after a [.world (.arrive b0 (.data (bytes v)))]).world (.poll b0 none) = some (heard a v).world := by
    refine poll_step _ _ _ ?_ ?_ ?_ ?_ (.inr ⟨_, rfl⟩)
    · have hh : (after a [.world (.arrive b0 (.data (bytes v)))]).world.held = a.world.held := by
        simp only [after, App.exec, App.step, possible, App.free, if_true, App.induced, worldSteps, World.step, ha, jobsAfter,
          Option.getD_some]
      simp only [World.reading, running, hw, hh, hn, hr, ha, decide_true, Bool.and_self, Bool.not_false]
    · rw [hrx]; exact hst
    · rw [hrx]
      simp only [Framed.ReadSide.step, hf, hs, List.nil_append]
      exact poll_frame h r
    · rw [hw]; exact hx
  have h3 : App.step wcfg (after a [.world (.arrive b0 (.data (bytes v)))]) (.world (.poll b0 none)) = some (heard a v) := by
    simp only [App.step, possible, App.free, if_true, App.induced, worldSteps, h2, jobsAfter, hj]
    rfl
  simp only [hear, App.exec, h1, h3]

/-- A call hands over a command, and the engine takes it from client `i`. -/
def asks (k i : Nat) : List App.Act := [.run k, .run k, .world (.sys (.engOut i (.ok []) net0))]
/-- The engine takes the response, and the call goes on. -/
def gets (k : Nat) : List App.Act := [.world (.sys (.engIn b0)), .run k]
/-- Client `i` is made and registered by call `k`. -/
def joins (k : Nat) : List App.Act := [.run k, .run k, .world (.sys .engReg), .run k]

/-- The next command is written to the broker. -/
def wrote (a : App.State UInt8) (bs : Bytes) : App.State UInt8 :=
  ⟨OnTheWireExample.wroteTo a.world ⟨[], (a.world.tx b0).sent ++ (a.world.tx b0).buffer ++ bs⟩ .ok, a.jobs⟩

theorem write_exec {a : App.State UInt8} {c : Sys.ConnCmd} {q : List Sys.ConnCmd} {v : MessageCommand} (ht : c.out.toCommand 0 = .ok v)
    (hv : c.out.Valid) (hs : size v.parts.1 v.parts.2 < 4294967296) (hr : running a.world b0 = true)
    (hq : (a.world.sys.conns b0).queue = c :: q) (hx : (Sys.step wcfg.sys a.world.sys (.connCmd b0 .ok)).isSome) :
    App.exec wcfg a [.world (.write b0 0 .ok)] = some (wrote a (bytes v)) := by
  have henc : (c.out.toCommand 0).bind (Codec.encode true) = .ok (bytes v) := by
    obtain ⟨item, h1, h2, h3⟩ := toCommand_ok 0 c.out hv
    rw [ht] at h1
    cases h1
    rw [ht]
    exact Codec.encode_layout _ _ _ _ (parts_sendable _ h2 h3 hs).serialises (parts_sendable _ h2 h3 hs).fits
  have h1 : World.step wcfg a.world (.write b0 0 .ok) = some (wrote a (bytes v)).world := by
    refine OnTheWireExample.do_write c q _ _ hr hq ?_ hx
    simp only [Tx.send, henc]
  simp only [App.exec, App.step, possible, App.free, if_true, App.induced, worldSteps, h1, jobsAfter]
  rfl

/-- The command that connects to the configured broker. -/
def connectOut : Outbound := .connect ⟨none, none, some b0⟩
def connectV : MessageCommand := match connectOut.toCommand 0 with
  | .ok v => v
  | _ => connectedC

/-! A consumer is made. -/

def builder : ConsumerBuilder Unit := ((ConsumerBuilder.new.withConsumerName "c").withTopic "t").withSubscription "s"

def part1 : List App.Act := [.world (.sys (.engStart net0)), .start (.consumer builder)] ++ joins 0 ++ asks 0 0
def a1 : App.State UInt8 := after (App.init wcfg) part1
def a1' : App.State UInt8 := wrote a1 (bytes connectV)
def a2 : App.State UInt8 := heard a1' connectedC
def part2 : List App.Act := [.world (.sys .engConnectDone), .run 0] ++ asks 0 0
def part3 : List App.Act := gets 0 ++ asks 0 0
def a3 : App.State UInt8 := after a2 part2
def a4 : App.State UInt8 := heard a3 (found 1)
def a5 : App.State UInt8 := after a4 part3
def a6 : App.State UInt8 := heard a5 (successC 1)
def part7 : List App.Act := gets 0 ++ asks 0 0 ++ [.run 0]
def a7 : App.State UInt8 := after a6 part7

theorem step1 : App.exec wcfg (App.init wcfg) part1 = some a1 := rfl
theorem step1' : App.exec wcfg a1 [.world (.write b0 0 .ok)] = some a1' :=
  write_exec (c := ⟨connectOut, some 0, some (0, ⟨.connect ⟨none, none, none⟩, some 0⟩)⟩) (q := []) rfl trivial (by decide +kernel) rfl rfl rfl
theorem step2 : App.exec wcfg a1' (hear connectedC) = some a2 := hear_exec frame_connected (by decide) rfl rfl false rfl rfl rfl
theorem step3 : App.exec wcfg a2 part2 = some a3 := rfl
theorem step4 : App.exec wcfg a3 (hear (found 1)) = some a4 :=
  hear_exec (frame_found 1 (by decide) (by decide +kernel)) (by decide) rfl rfl true rfl rfl rfl
theorem step5 : App.exec wcfg a4 part3 = some a5 := rfl
theorem step6 : App.exec wcfg a5 (hear (successC 1)) = some a6 := hear_exec frame_success (by decide) rfl rfl true rfl rfl rfl
theorem step7 : App.exec wcfg a6 part7 = some a7 := rfl

/-- All of it. -/
def making : List App.Act := part1 ++ [.world (.write b0 0 .ok)] ++ hear connectedC ++ part2 ++ hear (found 1) ++ part3 ++
  hear (successC 1) ++ part7

theorem making_exec : App.exec wcfg (App.init wcfg) making = some a7 :=
  exec_trans (exec_trans (exec_trans (exec_trans (exec_trans (exec_trans (exec_trans step1 step1') step2) step3) step4) step5) step6) step7

theorem making_run : ∃ log, App.Run wcfg making log a7 := run_exec (as := []) .nil making_exec

/-- C113 applies: a consumer is made, with four commands. -/
example : ∃ log j, App.Run wcfg making log a7 ∧ j ∈ a7.jobs ∧ j.made = .consumer builder ∧ j.ended = some (.ok ()) ∧
    (a7.world.sys.clients 0).submitted.map (·.out) = [.connect ⟨none, none, none⟩, .lookupTopic ⟨0, "t"⟩,
      .subscribe ⟨"t", "s", 0, 1, .shared⟩, .flow ⟨0, 500⟩] := by
  obtain ⟨log, h⟩ := making_run
  refine ⟨log, _, h, List.mem_of_getElem? (i := 0) rfl, rfl, rfl, rfl⟩

end Neutron.Props.AppExample
