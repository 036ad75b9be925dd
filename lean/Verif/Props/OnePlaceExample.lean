import Verif.Props.OnePlace

/-!
# A producer behind a proxy: a concrete case of C135

The configured broker says that the topic is to be reached through it; the producer connects again, to the target, registers there
and sends a message.
-/

namespace Neutron.Props.ProxyExample

open Neutron Neutron.World Proto Frame Trace EndToEndExample ConfirmedExample AppExample

/-- The world after a poll of the connection `b` that yields `v`. -/
def heardAt (b : BrokerAddress) (a : App.State UInt8) (v : MessageCommand) : App.State UInt8 :=
  ⟨sync wcfg { a.world with rx := fun x => if x = b then
      { a.world.rx b with framed := { buf := [], readable := true }, socket := [], out := (a.world.rx b).out ++ [.item v] } else a.world.rx x }
    ((sysSteps wcfg.sys a.world.sys [.connRead b (.command v none)]).getD a.world.sys), a.jobs⟩

def hearAt (b : BrokerAddress) (v : MessageCommand) : List App.Act := [.world (.arrive b (.data (bytes v))), .world (.poll b none)]

theorem hear_at {b : BrokerAddress} {a : App.State UInt8} {v : MessageCommand} (h : Framed.IsFrame (v, bytes v)) (ha : b ∈ a.world.sys.addrs)
    (hr : (a.world.sys.conns b).alive = true) (hst : (a.world.rx b).stopped = false) (r : Bool)
    (hf : (a.world.rx b).framed = { buf := [], readable := r }) (hs : (a.world.rx b).socket = [])
    (hx : (sysSteps wcfg.sys a.world.sys [.connRead b (.command v none)]).isSome) (hn : a.world.held b = false) :
    App.exec wcfg a (hearAt b v) = some (heardAt b a v) := by
  obtain ⟨s, hx⟩ := Option.isSome_iff_exists.mp hx
  have hi : ((item none (.item v)).toList.map (Sys.Act.connRead b)) = [.connRead b (.command v none)] := rfl
  simp only [hearAt, App.exec, App.step, App.possible, App.free, if_true, App.induced, App.worldSteps, World.step, ha, App.jobsAfter,
    World.reading, running, hr, hn, decide_true, Bool.and_self, Bool.not_false, Framed.ReadSide.step, hf, hs, List.nil_append,
    poll_frame h r, hi, hx, hst, heardAt, Option.getD_some]
  congr 1
  congr 1
  congr 1
  congr 1
  funext x
  split <;> rfl

def wroteAt (b : BrokerAddress) (a : App.State UInt8) (bs : Bytes) : App.State UInt8 :=
  ⟨sync wcfg { a.world with
      tx := fun x => if x = b then ⟨[], (a.world.tx b).sent ++ (a.world.tx b).buffer ++ bs⟩ else a.world.tx x
      held := fun x => if x = b then false else a.world.held x } ((Sys.step wcfg.sys a.world.sys (.connCmd b .ok)).getD a.world.sys), a.jobs⟩

theorem write_at {b : BrokerAddress} {a : App.State UInt8} {c : Sys.ConnCmd} {q : List Sys.ConnCmd} {v : MessageCommand} (ht : c.out.toCommand 0 = .ok v)
    (hv : c.out.Valid) (hs : size v.parts.1 v.parts.2 < 4294967296) (hr : running a.world b = true)
    (hq : (a.world.sys.conns b).queue = c :: q) (hx : (Sys.step wcfg.sys a.world.sys (.connCmd b .ok)).isSome) :
    App.exec wcfg a [.world (.write b 0 .ok)] = some (wroteAt b a (bytes v)) := by
  have henc : (c.out.toCommand 0).bind (Codec.encode true) = .ok (bytes v) := by
    obtain ⟨item, h1, h2, h3⟩ := toCommand_ok 0 c.out hv
    rw [ht] at h1
    cases h1
    rw [ht]
    exact Codec.encode_layout _ _ _ _ (parts_sendable _ h2 h3 hs).serialises (parts_sendable _ h2 h3 hs).fits
  obtain ⟨s, hx⟩ := Option.isSome_iff_exists.mp hx
  have hoc : wcfg.overflowChecks = true := rfl
  have hsend : (a.world.tx b).send true 0 c.out .ok = some (⟨[], (a.world.tx b).sent ++ (a.world.tx b).buffer ++ bytes v⟩, .ok) := by
    simp only [Tx.send, henc]
  simp only [App.exec, App.step, App.possible, App.free, if_true, App.induced, App.worldSteps, App.jobsAfter, World.step, hr, hq, hoc, hsend,
    hx, wroteAt, Option.getD_some]

/-- A lookup's answer: go through this broker to `z`. -/
def through : MessageCommand :=
  ⟨baseCommand 24 24 (mkMsg .commandLookupTopicResponse [(1, vStr "pulsar://z:1"), (3, [.int 1]), (4, vU64 0), (8, [.int 1])]), none⟩

theorem frame_through : Framed.IsFrame (through, bytes through) := by
  refine Framed.isFrame_of (parts_sendable _ ?_ (by intro p hp; cases hp) (by decide +kernel))
  exact base_ser 100 24 24 _ .commandLookupTopicResponse (by decide) rfl (mk_ser 99 _ _ (by simp [pulsar])
    (fields_cons (ok_str 1 _ _ rfl) (fields_cons (ok_enum 3 _ _ (by decide) rfl) (fields_cons (ok_u64 4 _ _ rfl)
      (fields_cons ⟨_, rfl, by simp [Proto.wtField, Proto.wtVal], by simp, by simp [Proto.initVals, Proto.initVal]⟩ fields_nil)))))

theorem frame_registered : Framed.IsFrame (producerSuccessC 2, bytes (producerSuccessC 2)) := by
  refine Framed.isFrame_of (parts_sendable _ ?_ (by intro p hp; cases hp) (by decide +kernel))
  exact base_ser 100 17 17 _ .commandProducerSuccess (by decide) rfl (mk_ser 99 _ _ (by simp [pulsar])
    (fields_cons (ok_u64 1 _ _ rfl) (fields_cons (ok_str 2 _ _ rfl) fields_nil)))

/-- The engine takes the response that arrived at `b`, and call 0 goes on. -/
def getsAt (b : BrokerAddress) : List App.Act := [.world (.sys (.engIn b)), .run 0]

def q1 : App.State UInt8 := heardAt b0 p5 through
def moves : List App.Act := getsAt b0 ++ asks 0 0
def q2 : App.State UInt8 := after q1 moves
def connectThrough : Outbound := .connect ⟨none, none, some b1⟩
def connectW : MessageCommand := match connectThrough.toCommand 0 with
  | .ok v => v
  | _ => connectedC
def q3 : App.State UInt8 := wroteAt b1 q2 (bytes connectW)
def q4 : App.State UInt8 := heardAt b1 q3 connectedC
def q5 : App.State UInt8 := after q4 part2
def lookup1 : Outbound := .lookupTopic ⟨1, "t"⟩
def q6 : App.State UInt8 := wroteAt b1 q5 (bytes (out lookup1))
def q7 : App.State UInt8 := heardAt b1 q6 (found 1)
def registers : List App.Act := getsAt b1 ++ asks 0 0
def q8 : App.State UInt8 := after q7 registers
def registration : Outbound := .producer ⟨"t", 0, 2, "c"⟩
def q9 : App.State UInt8 := wroteAt b1 q8 (bytes (out registration))
def q10 : App.State UInt8 := heardAt b1 q9 (producerSuccessC 2)
def made : List App.Act := getsAt b1 ++ [.run 0]
def q11 : App.State UInt8 := after q10 made
def q12 : App.State UInt8 := after q11 sends
def q13 : App.State UInt8 := wroteAt b1 q12 (bytes command1)

/-- The next command is written to `b1`. -/
def writeThere : List App.Act := [.world (.write b1 0 .ok)]

set_option maxRecDepth 20000

theorem go1 : App.exec wcfg p5 (hearAt b0 through) = some q1 :=
  hear_at frame_through (by decide) rfl rfl true rfl rfl rfl rfl
theorem go2 : App.exec wcfg q1 moves = some q2 := rfl
theorem go3 : App.exec wcfg q2 writeThere = some q3 :=
  write_at (c := ⟨connectThrough, _, _⟩) (q := []) rfl trivial (by decide +kernel) rfl rfl rfl
theorem go4 : App.exec wcfg q3 (hearAt b1 connectedC) = some q4 :=
  hear_at frame_connected (by decide) rfl rfl false rfl rfl rfl rfl
theorem go5 : App.exec wcfg q4 part2 = some q5 := rfl
theorem go6 : App.exec wcfg q5 writeThere = some q6 :=
  write_at (c := ⟨lookup1, _, _⟩) (q := []) rfl trivial (by decide +kernel) rfl rfl rfl
theorem go7 : App.exec wcfg q6 (hearAt b1 (found 1)) = some q7 :=
  hear_at (frame_found 1 (by decide) (by decide +kernel)) (by decide) rfl rfl true rfl rfl rfl rfl
theorem go8 : App.exec wcfg q7 registers = some q8 := rfl
theorem go9 : App.exec wcfg q8 writeThere = some q9 :=
  write_at (c := ⟨registration, _, _⟩) (q := []) rfl trivial (by decide +kernel) rfl rfl rfl
theorem go10 : App.exec wcfg q9 (hearAt b1 (producerSuccessC 2)) = some q10 :=
  hear_at frame_registered (by decide) rfl rfl true rfl rfl rfl rfl
theorem go11 : App.exec wcfg q10 made = some q11 := rfl
theorem go12 : App.exec wcfg q11 sends = some q12 := rfl
theorem go13 : App.exec wcfg q12 writeThere = some q13 :=
  write_at (c := ⟨.send ConfirmedExample.sent1, _, _⟩) (q := []) rfl trivial (by decide +kernel) rfl rfl rfl

theorem run13 : ∃ acts log, App.Run wcfg acts log q13 := by
  obtain ⟨log, hr, _⟩ := reach_init.quiet (quiet_of made1 rfl) psent1 |>.quiet (quiet_of write rfl) psent2
    |>.hear frame_connected (by decide) rfl rfl false rfl rfl rfl (no_receipt (by decide) _)
    |>.quiet (quiet_of part2 rfl) psent4 |>.quiet (quiet_of write rfl) psent5
  obtain ⟨log', h⟩ := App.run_exec hr (exec_trans (exec_trans (exec_trans (exec_trans (exec_trans (exec_trans (exec_trans (exec_trans
    (exec_trans (exec_trans (exec_trans (exec_trans go1 go2) go3) go4) go5) go6) go7) go8) go9) go10) go11) go12) go13)
  exact ⟨_, log', h⟩

def there : List (MessageCommand × Bytes) := [(connectW, bytes connectW), (out lookup1, bytes (out lookup1)),
  (out registration, bytes (out registration)), (command1, bytes command1)]

theorem whole : BeginsWith (q13.world.tx b1).sent there := by
  refine ⟨?_, [], ?_⟩
  · intro f hf
    simp only [there, List.mem_cons, List.not_mem_nil, or_false] at hf
    rcases hf with rfl | rfl | rfl | rfl
    · exact frame_out connectThrough rfl trivial (by decide +kernel)
    · exact frame_out lookup1 rfl trivial (by decide +kernel)
    · exact frame_out registration rfl trivial (by decide +kernel)
    · exact frame_send
  · have : (q13.world.tx b1).sent = ((([] ++ [] ++ bytes connectW) ++ [] ++ bytes (out lookup1)) ++ [] ++ bytes (out registration)) ++ [] ++
        bytes command1 := rfl
    rw [this]
    simp [Framed.stream, there]

theorem fits : Fits q13.world := by
  obtain ⟨acts, log, hr⟩ := run13
  intro b c hc
  have all : ∀ (b : BrokerAddress) (l : List Outbound), (q13.world.sys.conns b).processed.map (·.out) = l → c ∈ (q13.world.sys.conns b).processed →
      (∀ x ∈ l, x.Valid ∧ x.volume + 300 < 4294967296) → c.out.Valid ∧ c.out.volume + 300 < 4294967296 := by
    intro b l h1 h2 h3
    exact h3 _ (h1 ▸ List.mem_map_of_mem (f := (·.out)) h2)
  by_cases hb : b = b0
  · subst hb
    refine all b0 [connectOut, lookup0] rfl hc ?_
    intro x hx
    simp only [List.mem_cons, List.not_mem_nil, or_false] at hx
    rcases hx with h | h <;> rw [h] <;> exact ⟨trivial, by decide +kernel⟩
  by_cases hb1 : b = b1
  · subst hb1
    refine all b1 [connectThrough, lookup1, registration, .send ConfirmedExample.sent1] rfl hc ?_
    intro x hx
    simp only [List.mem_cons, List.not_mem_nil, or_false] at hx
    rcases hx with h | h | h | h <;> rw [h] <;> exact ⟨trivial, by decide +kernel⟩
  · have h0 := (Sys.conn (App.reachable hr)).unused b (by show b ∉ [b0, b1]; simp [hb, hb1])
    rw [h0] at hc; cases hc

/-- The hypotheses of C135 are met, with two connections: the producer's registration and its first message are both on the socket of
the target behind the proxy, not on that of the configured broker. -/
example : (∃ acts log, App.Run wcfg acts log q13) ∧ App.Offers q13 ∧ Fits q13.world ∧ q13.world.sys.nClients = 1 ∧
    q13.world.sys.addrs = [b0, b1] ∧
    Received (q13.world.tx b1).sent (out registration) ∧ NamesClient (out registration) 0 ∧
    Received (q13.world.tx b1).sent command1 ∧ NamesClient command1 0 := by
  refine ⟨run13, ?_, fits, rfl, rfl, ⟨there, whole, by simp [there]⟩, ?_, ⟨there, whole, by simp [there]⟩, ?_⟩
  · intro j hj i p hm
    have : q13.jobs.map (·.made) = [.producer sender, .call 0 (Session.send some [104])] := rfl
    have hj' := List.mem_map_of_mem (f := (·.made)) hj
    rw [this, hm] at hj'
    simp only [List.mem_cons, List.not_mem_nil, or_false, reduceCtorEq, false_or, App.Start.call.injEq] at hj'
    rw [hj'.2]
    exact .send _ _
  · refine .inl ⟨commandType_base .., mkMsg .commandProducer ([(2, vU64 0), (3, vU64 2), (1, vStr "t")] ++ [(4, vStr "c")]), ?_, u64_of rfl rfl⟩
    show getMsg .baseCommand (baseCommand 5 5 _) 5 = _
    unfold getMsg baseCommand
    rw [getF_mk _ _ _ rfl]
    rfl
  · obtain ⟨h, m, h1, h2, _⟩ := isSend1
    exact .inr (.inr (.inr (.inl ⟨h, m, h1, h2⟩)))

end Neutron.Props.ProxyExample
