import Verif.Props.AppReach
import Verif.Props.AppSend

/-!
# C126: an instance
-/

namespace Neutron.Props.AppExample

open Neutron Neutron.World Neutron.App Frame Trace Proto EndToEndExample ConfirmedExample

/-- What arrives on a socket, of what the application and its surroundings do. -/
def arrivals (b : BrokerAddress) : List App.Act → List Read
  | [] => []
  | .world (.arrive b' r) :: as => if b' = b then r :: arrivals b as else arrivals b as
  | _ :: as => arrivals b as

theorem arrivals_append (b : BrokerAddress) (as bs : List App.Act) : arrivals b (as ++ bs) = arrivals b as ++ arrivals b bs := by
  induction as with
  | nil => rfl
  | cons x as ih =>
    cases x with
    | world y => cases y <;> simp only [List.cons_append, arrivals, ih] <;> split <;> simp
    | _ => simp only [List.cons_append, arrivals, ih]

theorem arrivals_sys (b : BrokerAddress) (l : List Sys.Act) : readEvents b (l.map World.Act.sys) = [] := by
  induction l with
  | nil => rfl
  | cons x l ih => simpa only [List.map_cons, readEvents] using ih

theorem arrived_run {cfg : World.Cfg UInt8} {acts : List App.Act} {log : List World.Act} {a : App.State UInt8} (h : App.Run cfg acts log a)
    (b : BrokerAddress) : World.arrived b log = arrivals b acts := by
  induction h with
  | nil => rfl
  | @snoc as log a a' x h hs ih =>
    unfold World.arrived at ih ⊢
    have happ : ∀ l l' : List Framed.Ev, Framed.arrivals (l ++ l') = Framed.arrivals l ++ Framed.arrivals l' := by
      intro l l'
      induction l with
      | nil => rfl
      | cons e l ih => cases e <;> simp [Framed.arrivals, ih]
    rw [readEvents_append, happ, ih, arrivals_append]
    congr 1
    cases x with
    | world y =>
      cases y <;> simp only [App.induced, readEvents, arrivals] <;> (try split) <;> rfl
    | start c => rfl
    | run k =>
      simp only [App.induced, arrivals]
      split
      · rw [arrivals_sys]; rfl
      · rfl
    | drop k =>
      simp only [App.induced, arrivals]
      split
      · rw [arrivals_sys]; rfl
      · rfl

/-- A producer is made and has sent a message; then the receipt arrives. -/
def upTo : List App.Act := made1 ++ write ++ AppExample.hear connectedC ++ part2 ++ write ++ AppExample.hear (found 1) ++ part3 ++ write ++
    AppExample.hear (producerSuccessC 1) ++ made7 ++ sends ++ write

def receiptArrives : List App.Act := [.world (.arrive b0 (.data (bytes receipt1)))]
def p12a : App.State UInt8 := after p12 receiptArrives
def p13a : App.State UInt8 := after p13 [.world (.sys (.engIn b0))]

end Neutron.Props.AppExample

namespace Neutron.Props

open Neutron.World Neutron.App EndToEndExample AppExample Session Trace ConfirmedExample

set_option maxRecDepth 20000 in
/-- The receipt has arrived as the fourth command of the broker, three having been read; it is polled, and the engine handles it. -/
theorem receipt_read : ∃ (acts : List App.Act) (log : List World.Act) (frames : List (MessageCommand × Bytes)),
    App.Run wcfg acts log p12a ∧ App.Run wcfg (acts ++ [.world (.poll b0 none)]) (log ++ [.poll b0 none]) p13 ∧
    App.Run wcfg (acts ++ [.world (.poll b0 none)] ++ [.world (.sys (.engIn b0))]) (log ++ [.poll b0 none] ++ [.sys (.engIn b0)]) p13a ∧
    frames.length = 3 ∧ HasSent b0 log (frames ++ [(receipt1, bytes receipt1)]) [] := by
  obtain ⟨l0, hr0, _⟩ := (reach_made.quiet (quiet_of sends rfl) psent11).quiet (quiet_of write rfl) psent12
  have he := hear_exec (a := p12) frame_receipt (by decide) rfl rfl true rfl rfl rfl
  rw [show AppExample.hear receipt1 = receiptArrives ++ [.world (.poll b0 none)] from rfl, exec_append] at he
  have h1 : App.exec wcfg p12 receiptArrives = some p12a := rfl
  rw [h1, Option.bind_some] at he
  obtain ⟨log, hra⟩ := run_exec hr0 h1
  have hs1 : App.step wcfg p12a (.world (.poll b0 none)) = some p13 := by
    simp only [App.exec] at he
    cases hx : App.step wcfg p12a (.world (.poll b0 none)) with
    | none => simp [hx] at he
    | some y => simp only [hx, Option.some.injEq] at he; rw [he]; rfl
  have hs2 : App.step wcfg p13 (.world (.sys (.engIn b0))) = some p13a := rfl
  have hrb := hra.snoc hs1
  have hrc := hrb.snoc hs2
  have harr := arrived_run hra b0
  have hall : HasSent b0 log ([(connectedC, bytes connectedC), (found 1, bytes (found 1)), (producerSuccessC 1, bytes (producerSuccessC 1))] ++
      [(receipt1, bytes receipt1)]) [] := by
    refine ⟨?_, Framed.partial_nil, ?_⟩
    · intro f hf
      simp only [List.cons_append, List.nil_append, List.mem_cons, List.not_mem_nil, or_false] at hf
      rcases hf with rfl | rfl | rfl | rfl
      · exact frame_connected
      · exact frame_found 1 (by decide) (by decide +kernel)
      · exact frame_producer
      · exact frame_receipt
    · rw [harr]
      have : arrivals b0 (made1 ++ write ++ AppExample.hear connectedC ++ part2 ++ write ++ AppExample.hear (found 1) ++ part3 ++ write ++
          AppExample.hear (producerSuccessC 1) ++ made7 ++ sends ++ write ++ receiptArrives) =
          [.data (bytes connectedC), .data (bytes (found 1)), .data (bytes (producerSuccessC 1)), .data (bytes receipt1)] := rfl
      rw [this]
      constructor
      · intro r hr
        simp only [List.mem_cons, List.not_mem_nil, or_false] at hr
        rcases hr with rfl | rfl | rfl | rfl
        · trivial
        · trivial
        · trivial
        · trivial
      · simp [Framed.bytesOf, Framed.stream]
  exact ⟨_, _, _, hra, hrb, hrc, rfl, hall⟩

set_option maxRecDepth 20000 in
/-- The hypotheses of `C126_call_goes_on` are met: a producer has sent a message, and the receipt has arrived as the fourth command
of the broker, three having been read.  After one poll and one step of the engine, the send, which waited, returns. -/
example : ∃ (acts : List App.Act) (log log1 log2 : List World.Act) (frames : List (MessageCommand × Bytes)) (cmd : Sys.ClientCmd) (j : Job) (m : MessageCommand) (r : Inbound),
    App.Run wcfg acts log p12a ∧ App.Run wcfg (acts ++ [.world (.poll b0 none)]) (log ++ log1) p13 ∧
    App.Run wcfg (acts ++ [.world (.poll b0 none)] ++ [.world (.sys (.engIn b0))]) (log ++ log1 ++ log2) p13a ∧
    frames.length = 3 ∧ HasSent b0 log (frames ++ [(m, bytes m)]) [] ∧ (p12a.world.rx b0).out.length = 3 ∧
    (b0, cmd) ∈ Sys.passedOn p12a.world.sys.sent 0 ∧ cmd.tok = some 3 ∧ Inbound.ofCommand m = .ok r ∧ Sys.Answers cmd.out r ∧
    log1.countP (World.Act.polls b0) = 1 ∧ (p13.world.sys.conns b0).outbox.length = 1 ∧ log2.countP (World.Act.handles b0) = 1 ∧
    p13a.jobs[1]? = some j ∧ j.live = true ∧ j.Awaits 3 ∧ (∃ a3, App.step wcfg p13a (.run 1) = some a3) := by
  obtain ⟨acts, log, frames, hra, hrb, hrc, hlen, hall⟩ := receipt_read
  have hcm : (Trace.b0, (⟨.send sent1, some 3⟩ : Sys.ClientCmd)) ∈ Sys.passedOn p12a.world.sys.sent 0 := by
    show _ ∈ [(b0, (⟨.connect ⟨none, none, none⟩, some 0⟩ : Sys.ClientCmd)), (b0, ⟨lookup0, some 1⟩), (b0, ⟨registration0, some 2⟩), (b0, ⟨.send sent1, some 3⟩)]
    simp
  have hin : Inbound.ofCommand receipt1 = .ok (.sendReceipt ⟨0, 0, Neutron.mkMsg .messageIdData [(1, vU64 5), (2, vU64 1)]⟩) := rfl
  have hn3 : (p12a.world.rx b0).out.length = 3 := rfl
  have haw : (p13a.jobs[1]'(by decide)).Awaits 3 := ⟨_, _, _, _, rfl⟩
  have hgo := C126_call_goes_on (more1 := [.world (.poll b0 none)]) (more2 := [.world (.sys (.engIn b0))]) hra hrb hrc (post := []) hall (by rw [hn3, hlen]) hcm rfl hin rfl (by simp)
    (by rw [hn3, hlen]; decide) (by decide) (k := 1) (j := p13a.jobs[1]'(by decide)) rfl rfl haw
  exact ⟨_, _, _, _, _, _, _, _, _, hra, hrb, hrc, hlen, hall, hn3, hcm, rfl, hin, rfl, by decide, rfl, by decide, rfl, rfl, haw, hgo⟩

set_option maxRecDepth 20000 in
/-- The hypotheses of `C126_connect` are met: the `Connect` of a producer being made is written, and the broker's `CONNECTED` arrives. -/
example : ∃ (log : List World.Act) (w : World UInt8) (cmd : Sys.ClientCmd) (c : Connect), World.Run wcfg log w ∧
    HasSent b0 log ([] ++ (connectedC, bytes connectedC) :: []) [] ∧ (w.rx b0).out = [] ∧ w.sys.mode = .awaitConnect 0 b0 ∧ (w.sys.conns b0).queue = [] ∧
    (b0, cmd) ∈ Sys.passedOn w.sys.sent 0 ∧ cmd.tok = some 0 ∧ cmd.out = .connect c ∧ Inbound.ofCommand connectedC = .ok .connected ∧
    ∃ w', worldSteps wcfg w [.poll b0 none] = some w' := by
  obtain ⟨l0, hr0, _⟩ := (reach_init.quiet (quiet_of made1 rfl) psent1).quiet (quiet_of write rfl) psent2
  have he := hear_exec (a := p2) frame_connected (by decide) rfl rfl false rfl rfl rfl
  rw [show AppExample.hear connectedC = [.world (.arrive b0 (.data (bytes connectedC)))] ++ [.world (.poll b0 none)] from rfl, exec_append] at he
  have h1 : App.exec wcfg p2 [.world (.arrive b0 (.data (bytes connectedC)))] = some (after p2 [.world (.arrive b0 (.data (bytes connectedC)))]) := rfl
  rw [h1, Option.bind_some] at he
  obtain ⟨log, hra⟩ := run_exec hr0 h1
  refine ⟨log, _, ⟨.connect ⟨none, none, none⟩, some 0⟩, ⟨none, none, none⟩, run_world hra, ?_, rfl, rfl, rfl, ?_, rfl, rfl, rfl, ?_⟩
  · refine ⟨?_, Framed.partial_nil, ?_⟩
    · intro f hf
      simp only [List.nil_append, List.mem_cons, List.not_mem_nil, or_false] at hf
      rw [hf]; exact frame_connected
    · rw [arrived_run hra b0]
      have : arrivals b0 ([] ++ made1 ++ write ++ [.world (.arrive b0 (.data (bytes connectedC)))]) = [.data (bytes connectedC)] := rfl
      rw [this]
      refine ⟨?_, by simp [Framed.bytesOf, Framed.stream]⟩
      intro r hr
      rw [List.mem_singleton] at hr; subst hr; trivial
  · show _ ∈ [(b0, (⟨.connect ⟨none, none, none⟩, some 0⟩ : Sys.ClientCmd))]
    simp
  · simp only [App.exec] at he
    cases hx : App.step wcfg (after p2 [.world (.arrive b0 (.data (bytes connectedC)))]) (.world (.poll b0 none)) with
    | none => simp [hx] at he
    | some y =>
      have := (step_some hx).2.1
      exact ⟨_, this⟩

end Neutron.Props
