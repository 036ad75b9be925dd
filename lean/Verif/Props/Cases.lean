import Verif.Props.Calls
import Verif.Props.Acks
import Verif.Props.Progress
import Verif.Props.Rest
import Verif.Props.Setup
import Verif.Props.Builder
import Verif.Props.Receive
import Verif.Props.Plugins
import Verif.Props.AppFail
import Verif.Props.Ignored

/-!
# Concrete cases

For theorems whose own module shows no case of exactly their form: a concrete run, or data, that meets their hypotheses.
-/

namespace Neutron.Props.Cases

open Neutron Neutron.Prog Neutron.Session Neutron.Sys Neutron.Trace

theorem run_of_go {as : List Act} {s : State} (h : Trace.go as = some s) : Run cfg0 as s := by
  simpa using run_of_exec Run.nil h

/-! ## Requests and the end of the engine -/

/-- C31_waiting_fail and C45_lost_while_waiting: a send waits for its receipt, the connection is lost, and the engine notices. -/
example : ∃ s s1 : State, Reachable cfg0 s ∧ s.mode ≠ .stopped ∧ AwaitingResponse s 0 ∧ step cfg0 s (.engIn b0) = some s1 ∧
    s1.mode = .stopped ∧ Fits s1 0 (.waited 0 (.sendMessage [1]) (.err .channelTerminated)) := by
  have h : Trace.go (boot ++ join 0 ++ ask 0 (.sendMessage [1]) ++ [.connRead b0 .closed]) = some _ := rfl
  exact ⟨_, _, ⟨_, run_of_go h⟩, by decide, ⟨_, List.mem_cons_self⟩, rfl, rfl, .cancelled, List.mem_cons_self, rfl⟩

/-- C31_none_waiting, C31_final, C31_refused, C31_reads and C78_others_complete: the engine has stopped, and a registered client has a
request still to be handed over. -/
example : ∃ (s : State) (cmd : ClientCmd), Reachable cfg0 s ∧ s.mode = .stopped ∧ 0 ∈ s.vec ∧ (s.clients 0).starting[0]? = some cmd ∧ cmd.tok = some 0 := by
  have h : Trace.go (boot ++ join 0 ++ [.beginCall 0 (.sendMessage [1]), .connRead b0 .closed, .engIn b0]) = some _ := rfl
  exact ⟨_, _, ⟨_, run_of_go h⟩, rfl, by decide, rfl, rfl⟩

/-- C78_others_complete, its second part: the request is in the channel of a client that is then dropped. -/
example : ∃ (s : State) (cmd : ClientCmd), Reachable cfg0 s ∧ s.mode = .stopped ∧ 0 ∈ s.vec ∧ cmd ∈ (s.clients 0).queue ∧ cmd.tok = some 0 ∧
    (s.clients 0).phase = .gone := by
  have h : Trace.go (boot ++ join 0 ++ [.beginCall 0 (.sendMessage [1]), .submit 0 0, .connRead b0 .closed, .engIn b0, .dropClient 0]) = some _ := rfl
  exact ⟨_, _, ⟨_, run_of_go h⟩, rfl, by decide, List.mem_cons_self, rfl, rfl⟩

/-- C31_register and C85_gone: a client is created after the engine stopped, one before it was told to register; and one waits. -/
example : ∃ s s' s'' : State, Reachable cfg0 s ∧ s.mode = .stopped ∧ s.managerAlive = true ∧ s.replies = 0 ∧ (s.clients 2).phase = .fresh ∧
    (s.clients 1).phase = .waiting ∧ step cfg0 s (.sendReg 2) = some s' ∧ step cfg0 s (.recvReply 1) = some s'' := by
  have h : Trace.go (boot ++ join 0 ++ [.newClient "b", .sendReg 1, .connRead b0 .closed, .engIn b0, .newClient "c"]) = some _ := rfl
  exact ⟨_, _, _, ⟨_, run_of_go h⟩, rfl, rfl, rfl, rfl, rfl, rfl, rfl⟩

/-- C79_drop_is_local: two clients, one with a command in its channel is dropped. -/
example : ∃ s s' : State, Reachable cfg0 s ∧ step cfg0 s (.dropClient 1) = some s' ∧ s.nClients = 2 ∧ (s.clients 1).queue ≠ [] := by
  have h : Trace.go (boot ++ join 0 ++ join 1 ++ [.beginCall 1 (.flow 5), .submit 1 0]) = some _ := rfl
  exact ⟨_, _, ⟨_, run_of_go h⟩, rfl, rfl, (by intro h; cases h)⟩

/-- C95_flush and C95_order: the engine has stopped (a proxied broker cannot be dialled), two commands wait at the first connection. -/
example : ∃ s : State, Reachable cfg0 s ∧ s.mode = .stopped ∧ b0 ∈ s.addrs ∧ (s.conns b0).alive = true ∧ (s.conns b0).queue.length = 2 ∧
    ∃ s', step cfg0 s (.connCmd b0 .ok) = some s' := by
  have h : Trace.go (boot ++ join 0 ++ ask 0 (.flow 5) ++ ask 0 (.flow 6) ++
    [.beginCall 0 (.connectToProxy "pulsar://z:1"), .submit 0 0, .engOut 0 (.ok []) netDown]) = some _ := rfl
  exact ⟨_, ⟨_, run_of_go h⟩, rfl, by decide, rfl, rfl, _, rfl⟩

/-! ## Service by the engine -/

/-- C83_stays_servable: two clients have commands in their channels, the engine is between two events. -/
example : ∃ (s : State) (cmd : ClientCmd), Reachable cfg0 s ∧ s.mode = .idle ∧ 1 ∈ s.vec ∧ s.addrs ≠ [] ∧ (s.clients 1).queue = [cmd] ∧
    (s.clients 0).queue.length = 1 := by
  have h : Trace.go (boot ++ join 0 ++ join 1 ++ [.beginCall 0 (.flow 5), .submit 0 0, .beginCall 1 (.lookupTopic "t"), .submit 1 0]) = some _ := rfl
  exact ⟨_, _, ⟨_, run_of_go h⟩, rfl, by decide, (by intro h; cases h), rfl, rfl⟩

/-- C84_outbound: the authentication plugin panics on a `connect`. -/
example : ∃ (s : State) (cmd : ClientCmd), Reachable cfgA s ∧ 0 ∈ s.vec ∧ (s.clients 0).queue = [cmd] ∧
    (handleOutbound cfgA (takeCmd s 0 cmd []) 0 cmd .panic net0).2 = .panic := by
  have h : exec cfgA (init cfgA) (boot ++ join 0 ++ [.beginCall 0 .connect, .submit 0 0]) = some _ := rfl
  exact ⟨_, _, ⟨_, run_of_exec Run.nil h⟩, by decide, rfl, rfl⟩

/-- C84_after_start: the configured broker can be dialled at first, and later not. -/
example : openConnection net0 b0 = .ok .tcp ∧ netDown.parseUrl = net0.parseUrl ∧ netDown.serverName = net0.serverName ∧
    openConnection netDown b0 = .err .connectionFailed := ⟨by rfl, rfl, rfl, by rfl⟩

/-- C85_can_create: the engine has stopped, the manager is kept. -/
example : ∃ as s, Run cfg0 as s ∧ .dropManager ∉ as ∧ s.mode = .stopped ∧ s.nClients = 1 := by
  have h : Trace.go (boot ++ join 0 ++ [.connRead b0 .closed, .engIn b0]) = some _ := rfl
  exact ⟨_, _, run_of_go h, by simp [boot, join], rfl, rfl⟩

/-! ## Public calls -/

/-- C45_send_batch: a batch of two is sent and confirmed. -/
example : ∃ as s, Run cfg0 as s ∧ Runs (sendBatch some [[1], [2]])
      [.handed (.sendBatch [[1], [2]]) (.ok 0),
       .waited 0 (.sendBatch [[1], [2]]) (.ok (.receipt ⟨0, 0, Proto.newMsg Proto.pulsar .messageIdData⟩))] (.ok ()) ∧
    Fits s 0 (.handed (.sendBatch [[1], [2]]) (.ok 0)) ∧
    Fits s 0 (.waited 0 (.sendBatch [[1], [2]]) (.ok (.receipt ⟨0, 0, Proto.newMsg Proto.pulsar .messageIdData⟩))) := by
  obtain ⟨s, hr, ho⟩ := reachable_obs (f := fun s => (s.outcomes, s.issued))
    (as := boot ++ join 0 ++ ask 0 (.sendBatch [[1], [2]]) ++ say b0 (receiptC 0 0) (some 0))
    (x := ([(0, .resolved ⟨.sendReceipt ⟨0, 0, Proto.newMsg Proto.pulsar .messageIdData⟩, some 0⟩)],
           [(0, .send (.batch "c" 0 0 [[1], [2]]))])) (by rfl)
  simp only [Prod.mk.injEq] at ho
  refine ⟨_, s, hr, ?_, fun _ => ⟨⟨0, "c", 0, 0⟩, by rw [ho.2]; rfl⟩,
    ⟨.resolved ⟨.sendReceipt ⟨0, 0, Proto.newMsg Proto.pulsar .messageIdData⟩, some 0⟩, by rw [ho.1]; exact List.mem_cons_self, rfl⟩⟩
  exact .hand _ _ _ _ _ (.handed _ 0) <| .wait _ _ _ _ _ _ (.waited 0 _ (some (.sendReceipt _))) <| .ret _

/-- C69_answered: an acknowledgement is made and answered. -/
example : ∃ as s, Run cfg0 as s ∧ Runs (ack []) [.handed (.ack []) (.ok 0), .waited 0 (.ack []) (.ok (.ack ⟨0, 0⟩))] (.ok ()) ∧
    Fits s 0 (.handed (.ack []) (.ok 0)) ∧ Fits s 0 (.waited 0 (.ack []) (.ok (.ack ⟨0, 0⟩))) := by
  obtain ⟨s, hr, ho⟩ := reachable_obs (f := fun s => (s.outcomes, s.issued))
    (as := boot ++ join 0 ++ ask 0 (.ack []) ++ say b0 (ackC 0 0) (some 0))
    (x := ([(0, .resolved ⟨.ackReciept ⟨0, 0⟩, some 0⟩)], [(0, .ack [⟨0, [], 0⟩])])) (by rfl)
  simp only [Prod.mk.injEq] at ho
  refine ⟨_, s, hr, ?_, fun _ => ⟨⟨0, "c", 0, 0⟩, by rw [ho.2]; rfl⟩,
    ⟨.resolved ⟨.ackReciept ⟨0, 0⟩, some 0⟩, by rw [ho.1]; exact List.mem_cons_self, rfl⟩⟩
  exact .hand _ _ _ _ _ (.handed _ 0) <| .wait _ _ _ _ _ _ (.waited 0 _ (some (.ackReciept _))) <| .ret _

/-- C86_send_all: three messages, one that cannot be serialised; the other two are handed over and confirmed. -/
example : ∃ as s tr, Run cfg0 as s ∧ Runs (sendAll (fun n => if n = 0 then none else some [n]) [1, 0, 2]) tr (.ok ()) ∧
    (∀ ev, ev ∈ tr → Fits s 0 ev) ∧ calls tr = [.sendMessage [1], .sendMessage [2]] := by
  obtain ⟨s, hr, ho⟩ := reachable_obs (f := fun s => (s.outcomes, s.issued))
    (as := boot ++ join 0 ++ ask 0 (.sendMessage [1]) ++ ask 0 (.sendMessage [2]) ++ say b0 (receiptC 0 1) (some 1) ++
      say b0 (receiptC 0 0) (some 0))
    (x := ([(1, .resolved ⟨.sendReceipt ⟨0, 1, Proto.newMsg Proto.pulsar .messageIdData⟩, some 1⟩),
            (0, .resolved ⟨.sendReceipt ⟨0, 0, Proto.newMsg Proto.pulsar .messageIdData⟩, some 0⟩)],
           [(0, .send (.single "c" 0 0 [1])), (0, .send (.single "c" 0 1 [2]))])) (by rfl)
  simp only [Prod.mk.injEq] at ho
  refine ⟨_, s, _, hr, .hand _ _ _ _ _ (.handed _ 0) <| .hand _ _ _ _ _ (.handed _ 1) <|
    .wait _ _ _ _ _ _ (.waited 0 _ (some (.sendReceipt ⟨0, 0, Proto.newMsg Proto.pulsar .messageIdData⟩))) <|
    .wait _ _ _ _ _ _ (.waited 1 _ (some (.sendReceipt ⟨0, 1, Proto.newMsg Proto.pulsar .messageIdData⟩))) <| .ret _, ?_, rfl⟩
  intro ev hev
  simp only [List.mem_cons, List.not_mem_nil, or_false] at hev
  rcases hev with rfl | rfl | rfl | rfl
  · exact fun _ => ⟨⟨0, "c", 0, 0⟩, by rw [ho.2]; rfl⟩
  · exact fun _ => ⟨⟨0, "c", 0, 1⟩, by rw [ho.2]; rfl⟩
  · exact ⟨_, by rw [ho.1]; exact List.mem_cons_of_mem _ List.mem_cons_self, rfl⟩
  · exact ⟨_, by rw [ho.1]; exact List.mem_cons_self, rfl⟩

/-- C87_ack_all (C47_refuted shows two acknowledgements in progress together): two, the second taken after the first was answered. -/
example : ∃ as s tr, Run cfg0 as s ∧ Runs (ackAll [[], []]) tr (.ok ()) ∧ (∀ ev, ev ∈ tr → Fits s 0 ev) ∧ calls tr = [.ack [], .ack []] := by
  obtain ⟨s, hr, ho⟩ := reachable_obs (f := fun s => (s.outcomes, s.issued))
    (as := boot ++ join 0 ++ [.beginCall 0 (.ack []), .submit 0 0, .beginCall 0 (.ack []), .submit 0 0, .engOut 0 (.ok []) net0] ++
      say b0 (ackC 0 0) (some 0) ++ [.engOut 0 (.ok []) net0] ++ say b0 (ackC 0 1) (some 1))
    (x := ([(0, .resolved ⟨.ackReciept ⟨0, 0⟩, some 0⟩), (1, .resolved ⟨.ackReciept ⟨0, 1⟩, some 1⟩)],
      [(0, .ack [⟨0, [], 0⟩]), (0, .ack [⟨0, [], 1⟩])])) (by rfl)
  simp only [Prod.mk.injEq] at ho
  refine ⟨_, s, _, hr, .hand _ _ _ _ _ (.handed _ 0) <| .hand _ _ _ _ _ (.handed _ 1) <|
    .wait _ _ _ _ _ _ (.waited 0 _ (some (.ackReciept ⟨0, 0⟩))) <| .wait _ _ _ _ _ _ (.waited 1 _ (some (.ackReciept ⟨0, 1⟩))) <| .ret _, ?_, rfl⟩
  intro ev hev
  simp only [List.mem_cons, List.not_mem_nil, or_false] at hev
  rcases hev with rfl | rfl | rfl | rfl
  · exact fun _ => ⟨⟨0, "c", 0, 0⟩, by rw [ho.2]; rfl⟩
  · exact fun _ => ⟨⟨0, "c", 1, 0⟩, by rw [ho.2]; rfl⟩
  · exact ⟨_, by rw [ho.1]; exact List.mem_cons_self, rfl⟩
  · exact ⟨_, by rw [ho.1]; exact List.mem_cons_of_mem _ List.mem_cons_self, rfl⟩

/-- C81_consumer: a consumer on the configured broker, its subscription passed on. -/
example : ∃ s cm, Reachable cfg0 s ∧ s.nClients = 1 ∧ Steps (consumerConnect "t" "s" 250)
      [.handed .connect (.ok 0), .waited 0 .connect (.ok .connected), .handed (.lookupTopic "t") (.ok 1),
       .waited 1 (.lookupTopic "t") (.ok (.lookup ⟨0, "pulsar://a:6650", "", .connect, false, false⟩)),
       .handed (.subscribe "t" "s") (.ok 2)] ∧
    Submitted s 0 [.connect, .lookupTopic "t", .subscribe "t" "s"] ∧ Registers cm.out ∧ (b0, cm) ∈ passedOn s.sent 0 := by
  obtain ⟨s, hr, ho⟩ := reachable_obs
    (f := fun s => (s.nClients, (s.clients 0).submitted.map (·.out), (passedOn s.sent 0).getLast?))
    (as := boot ++ join 0 ++ shakeHands 0 0 ++ ask 0 (.lookupTopic "t") ++ say b0 (lookupC 0 "pulsar://a:6650" 1 false) (some 1) ++
      ask 0 (.subscribe "t" "s"))
    (x := (1, [.connect ⟨none, none, none⟩, .lookupTopic ⟨0, "t"⟩, .subscribe ⟨"t", "s", 0, 1, .shared⟩],
      some (b0, ⟨.subscribe ⟨"t", "s", 0, 1, .shared⟩, some 2⟩))) (by rfl)
  simp only [Prod.mk.injEq] at ho
  exact ⟨s, ⟨.subscribe ⟨"t", "s", 0, 1, .shared⟩, some 2⟩, ⟨_, hr⟩, ho.1,
    .hand _ _ _ _ (.handed _ 0) <| .wait _ _ _ _ _ (.waited 0 _ (some .connected)) <|
    .hand _ _ _ _ (.handed _ 1) <| .wait _ _ _ _ _ (.waited 1 _ (some (.lookupTopicResponse ⟨0, "pulsar://a:6650", "", .connect, false, false⟩))) <|
    .hand _ _ _ _ (.handed _ 2) <| .nil _, ⟨⟨0, "c", 0, 0⟩, ho.2.1⟩, trivial, List.mem_of_getLast? ho.2.2⟩

/-- C106_instance: an instance configured twice. -/
example (c c' : PulsarConfig) (x : Nat) : (PulsarSetting.configs [.config c, .auth x, .config c']).getLast? = some c' ∧ (PulsarSetting.auths [.config c, .auth x, .config c']).getLast? = some x :=
  ⟨rfl, rfl⟩

/-- C61_huge_lifetime_panics: a token valid for longer than the clock can count. -/
example : (⟨0, 1000000000000⟩ : Auth.Clock).maxTime < 0 + (1001 : Int) * 1000000000 := by decide

end Neutron.Props.Cases

namespace Neutron.Props.Cases

open Neutron Neutron.Consumer

/-! ## Receiving -/

/-- C48_waits_only_at_the_end: one message, two calls; the second waits. -/
example : ∃ s : State UInt8, Run (byteCfg 250 0) ([one 5 [1], .spawn .message] ++ go 0 6 ++ [.spawn .message] ++ go 1 2) s ∧
    (∀ n, Job.batch n ∉ jobs ([one 5 [1], .spawn .message] ++ go 0 6 ++ [.spawn .message] ++ go 1 2)) ∧ s.waiting 1 ∧
    step (byteCfg 250 0) s (.run 1) = none ∧ s.handedOut = [.ok ⟨1, msgId 5⟩] :=
  ⟨_, run_exec rfl, (by intro n; simp [jobs, one, go]), ⟨_, _, rfl, rfl⟩, rfl, rfl⟩

/-- C89_failed: a `next_batch` waits, the engine goes away, and it fails. -/
example : ∃ s s' : State UInt8, Run (byteCfg 250 0) ([.spawn (.batch 3)] ++ go 0 3 ++ [.close, .run 0]) s ∧
    step (byteCfg 250 0) s (.run 0) = some s' ∧ s'.results = s.results ++ [(0, .err .channelTerminated)] :=
  ⟨_, _, run_exec rfl, rfl, rfl⟩

/-- C59_first_failure and C115_at_most_the_last: a `consume` with two plugins has received two messages, and the first plugin works on
the second one. -/
example : ∃ (as : List Act) (s : State UInt8) (t : Consumer.Task UInt8), Run (byteCfg 250 2) as s ∧ s.tasks[0]? = some t ∧ t.job = .consume ∧
    t.stage ≠ .ended ∧ s.handedTo 0 = [⟨1, msgId 5⟩] ++ [⟨2, msgId 6⟩] ∧ s.offers.length = 3 := by
  exact ⟨_, _, _, atMost_run (n := 1) (as := [one 5 [1], one 6 [2], .spawn .consume] ++ go 0 7 ++ [.offer 0 (.ok ()), .offer 0 (.ok ())] ++ go 0 8 ++
    [.offer 0 (.ok ())]) (atMost_of rfl), rfl, rfl, (by intro h; cases h), rfl, rfl⟩

end Neutron.Props.Cases

namespace Neutron.Props.Cases

open Neutron Neutron.World Neutron.App AppExample EndToEndExample IgnoredExample

/-! ## The application and the sockets -/

set_option maxRecDepth 20000 in
/-- C116_client_dropped and C120_returns: the failed `connect` of the run of C116_refuted. -/
example : ∃ acts log a j, App.Run wcfg acts log a ∧ a.jobs[1]? = some j ∧ j ∈ a.jobs ∧ (∃ b, j.made = .producer b) ∧ j.live = true ∧
    j.ended = some (.err .connectionFailed) ∧ j.client = some 1 := by
  obtain ⟨log, h⟩ := App.run_exec (as := []) .nil failing_exec
  exact ⟨_, log, f9, f9.jobs[1]'(by decide), h, rfl, List.getElem_mem _, ⟨_, rfl⟩, rfl, rfl, rfl⟩

/-- C116_missing_value: `connect` on a builder without a topic. -/
example : ∃ acts log a j, App.Run wcfg acts log a ∧ j ∈ a.jobs ∧ ∃ b : ProducerBuilder, j.made = .producer b ∧ b.producerName = some "p" ∧ b.topic = none := by
  obtain ⟨log, h⟩ := App.run_exec (cfg := wcfg) (as := []) (bs := [.start (.producer ⟨some "p", none⟩)]) .nil rfl
  exact ⟨_, log, _, _, h, List.mem_cons_self, _, rfl, rfl, rfl⟩

/-- C124_no_effect: a notice that the consumer was closed, of a type the client does not understand, is read. -/
example : ∃ acts w w', World.Run wcfg acts w ∧ World.step wcfg w (.poll Trace.b0 none) = some w' ∧
    (Framed.pollNext (w.rx Trace.b0).framed (w.rx Trace.b0).socket).1 = .item notice ∧ commandType notice.command ∉ supportedTypes :=
  ⟨_, v2, v3, to_v2, step_notice, by rw [poll_notice], by decide⟩

end Neutron.Props.Cases
