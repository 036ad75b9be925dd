import Verif.Props.ConnectReturns
import Verif.Props.AppReachExample

/-!
# C133: an instance
-/

namespace Neutron.Props

open Neutron.World Neutron.App EndToEndExample AppExample Session Trace ConfirmedExample

def successArrives : List App.Act := [.world (.arrive b0 (.data (bytes (successC 1))))]
def a5a : App.State UInt8 := after a5 successArrives
def a6a : App.State UInt8 := after a6 [.world (.sys (.engIn b0))]

set_option maxRecDepth 20000 in
/-- The hypotheses of `C133_consumer` are met: a consumer has subscribed, and the `SUCCESS` has arrived as the third command of the broker.
After one poll and one step of the engine, the `connect` returns `Ok` in four steps. -/
example : ∃ (acts : List App.Act) (log : List World.Act) (frames : List (MessageCommand × Bytes)) (j j2 : Job),
    App.Run wcfg acts log a5a ∧ App.Run wcfg (acts ++ [.world (.poll b0 none)]) (log ++ [.poll b0 none]) a6 ∧
    App.Run wcfg (acts ++ [.world (.poll b0 none)] ++ [.world (.sys (.engIn b0))]) (log ++ [.poll b0 none] ++ [.sys (.engIn b0)]) a6a ∧
    a5a.jobs[0]? = some j ∧ j.made = .consumer builder ∧ j.client = some 0 ∧ .handed (.subscribe "t" "s") (.ok 2) ∈ j.events ∧
    (a5a.world.sys.clients 0).queue = [] ∧ frames.length = 2 ∧ HasSent b0 log (frames ++ (successC 1, bytes (successC 1)) :: []) [] ∧
    (a5a.world.rx b0).out.length = 2 ∧ Inbound.ofCommand (successC 1) = .ok (.success 1) ∧ (a6.world.sys.conns b0).outbox.length = 1 ∧
    a6a.jobs[0]? = some j2 ∧ j2.live = true ∧ a6a.world.sys.mode ≠ .stopped ∧
    (∀ i', ¬ DisplacedBy wcfg (log ++ [.poll b0 none] ++ [.sys (.engIn b0)]) a6a.world.sys 2 i') ∧
    ∃ n, n ≤ 4 ∧ ∃ log' a' j', App.Run wcfg (acts ++ [.world (.poll b0 none)] ++ [.world (.sys (.engIn b0))] ++ List.replicate n (.run 0)) log' a' ∧
      a'.jobs[0]? = some j' ∧ j'.made = j.made ∧ j'.ended = some (.ok ()) := by
  obtain ⟨l0, hr0⟩ := run_exec (as := []) .nil (exec_trans (exec_trans (exec_trans (exec_trans (exec_trans step1 step1') step2) step3) step4) step5)
  have he := AppExample.step6
  rw [show AppExample.hear (successC 1) = successArrives ++ [.world (.poll b0 none)] from rfl, exec_append] at he
  have h1 : App.exec wcfg a5 successArrives = some a5a := rfl
  rw [h1, Option.bind_some] at he
  obtain ⟨log, hra⟩ := run_exec hr0 h1
  have hs1 : App.step wcfg a5a (.world (.poll b0 none)) = some a6 := by
    simp only [App.exec] at he
    cases hx : App.step wcfg a5a (.world (.poll b0 none)) with
    | none => simp [hx] at he
    | some y => simp only [hx, Option.some.injEq] at he; rw [he]
  have hs2 : App.step wcfg a6 (.world (.sys (.engIn b0))) = some a6a := rfl
  have hrb := hra.snoc hs1
  have hrc := hrb.snoc hs2
  have harr := arrived_run hra b0
  have hall : HasSent b0 log ([(connectedC, bytes connectedC), (found 1, bytes (found 1))] ++ (successC 1, bytes (successC 1)) :: []) [] := by
    refine ⟨?_, Framed.partial_nil, ?_⟩
    · intro f hf
      simp only [List.cons_append, List.nil_append, List.mem_cons, List.not_mem_nil, or_false] at hf
      rcases hf with rfl | rfl | rfl
      · exact frame_connected
      · exact frame_found 1 (by decide) (by decide +kernel)
      · exact frame_success
    · rw [harr]
      have : arrivals b0 ([] ++ (part1 ++ [.world (.write b0 0 .ok)] ++ AppExample.hear connectedC ++ part2 ++ AppExample.hear (found 1) ++ part3) ++ successArrives) =
          [.data (bytes connectedC), .data (bytes (found 1)), .data (bytes (successC 1))] := rfl
      rw [this]
      constructor
      · intro r hr
        simp only [List.mem_cons, List.not_mem_nil, or_false] at hr
        rcases hr with rfl | rfl | rfl
        · trivial
        · trivial
        · trivial
      · simp [Framed.bytesOf, Framed.stream]
  have hev : .handed (.subscribe "t" "s") (.ok 2) ∈ (a5a.jobs[0]'(by decide)).events := by
    show _ ∈ [Ev.handed .connect (.ok 0), .waited 0 _ _, .handed _ (.ok 1), .waited 1 _ _, .handed (.subscribe "t" "s") (.ok 2)]
    simp
  have hmode : a6a.world.sys.mode ≠ .stopped := by
    show Sys.Mode.idle ≠ _
    intro h; cases h
  have hin : Inbound.ofCommand (successC 1) = .ok (.success 1) := rfl
  have hn2 : (a5a.world.rx b0).out.length = 2 := rfl
  have hother : ∀ i', ¬ DisplacedBy wcfg (log ++ [.poll b0 none] ++ [.sys (.engIn b0)]) a6a.world.sys 2 i' := by
    rintro i' ⟨t', i, out, out', h1, h2, h3, ⟨inb, h4, h5⟩, _⟩
    have hiss : ∃ c0 c1 c2, a6a.world.sys.issued = [(0, .connect c0), (0, .lookupTopic c1), (0, .subscribe c2)] := ⟨_, _, _, rfl⟩
    obtain ⟨c0, c1, c2, hiss⟩ := hiss
    rw [hiss] at h2 h3
    cases h2
    match t', h1, h3 with
    | 0, _, h3 => cases h3; cases inb <;> simp [Sys.Answers] at h4 h5
    | 1, _, h3 => cases h3; cases inb <;> simp [Sys.Answers] at h4 h5
    | 2, h1, _ => exact h1 rfl
    | n + 3, _, h3 => simp at h3
  refine ⟨_, _, _, a5a.jobs[0]'(by decide), a6a.jobs[0]'(by decide), hra, hrb, hrc, rfl, rfl, rfl, hev, rfl, rfl, hall, hn2, hin, rfl, rfl, rfl,
    hmode, hother, ?_⟩
  exact C133_consumer (more1 := [.world (.poll b0 none)]) (more2 := [.world (.sys (.engIn b0))]) hra hrb hrc (k := 0)
    (j := a5a.jobs[0]'(by decide)) (j2 := a6a.jobs[0]'(by decide)) (bld := builder) rfl rfl rfl rfl rfl hev rfl (by decide) hall
    (by rw [hn2]; decide) hin (by rw [hn2]; decide) (by decide) rfl rfl hmode hother

def producerArrives : List App.Act := [.world (.arrive b0 (.data (bytes (producerSuccessC 1))))]
def p8a : App.State UInt8 := after p8 producerArrives
def p9a : App.State UInt8 := after p9 [.world (.sys (.engIn b0))]

set_option maxRecDepth 20000 in
/-- The hypotheses of `C133_producer` are met in the same way. -/
example : ∃ (acts : List App.Act) (log : List World.Act) (frames : List (MessageCommand × Bytes)) (j j2 : Job) (r : ProducerSuccess),
    App.Run wcfg acts log p8a ∧ App.Run wcfg (acts ++ [.world (.poll b0 none)]) (log ++ [.poll b0 none]) p9 ∧
    App.Run wcfg (acts ++ [.world (.poll b0 none)] ++ [.world (.sys (.engIn b0))]) (log ++ [.poll b0 none] ++ [.sys (.engIn b0)]) p9a ∧
    p8a.jobs[0]? = some j ∧ j.made = .producer sender ∧ j.client = some 0 ∧ .handed (.producer "t") (.ok 2) ∈ j.events ∧
    (p8a.world.sys.clients 0).queue = [] ∧ frames.length = 2 ∧ HasSent b0 log (frames ++ (producerSuccessC 1, bytes (producerSuccessC 1)) :: []) [] ∧
    (p8a.world.rx b0).out.length = 2 ∧ Inbound.ofCommand (producerSuccessC 1) = .ok (.producerSuccess r) ∧
    (p9.world.sys.conns b0).outbox.length = 1 ∧ p9a.jobs[0]? = some j2 ∧ j2.live = true ∧ p9a.world.sys.mode ≠ .stopped ∧
    (∀ i', ¬ DisplacedBy wcfg (log ++ [.poll b0 none] ++ [.sys (.engIn b0)]) p9a.world.sys 2 i') ∧
    (requests j2.events = [0, 1, 2] ∧ ∀ t ∈ requests j2.events, Sys.Done p9a.world.sys t) ∧
    ∃ n, n ≤ 2 ∧ ∃ log' a' j', App.Run wcfg (acts ++ [.world (.poll b0 none)] ++ [.world (.sys (.engIn b0))] ++ List.replicate n (.run 0)) log' a' ∧
      a'.jobs[0]? = some j' ∧ j'.made = j.made ∧ j'.ended = some (.ok ()) := by
  have r1 := reach_init.quiet (quiet_of made1 rfl) psent1
  have r2 := r1.quiet (quiet_of write rfl) psent2
  have r3 := r2.hear frame_connected (by decide) rfl rfl false rfl rfl rfl (no_receipt (by decide) _)
  have r4 := r3.quiet (quiet_of part2 rfl) psent4
  have r5 := r4.quiet (quiet_of write rfl) psent5
  have r6 := r5.hear (frame_found 1 (by decide) (by decide +kernel)) (by decide) rfl rfl true rfl rfl rfl (no_receipt (by decide) _)
  have r7 := r6.quiet (quiet_of part3 rfl) psent7
  obtain ⟨l0, hr0, _⟩ := r7.quiet (quiet_of write rfl) psent8
  have he := hear_exec (a := p8) frame_producer (by decide) rfl rfl true rfl rfl rfl
  rw [show AppExample.hear (producerSuccessC 1) = producerArrives ++ [.world (.poll b0 none)] from rfl, exec_append] at he
  have h1 : App.exec wcfg p8 producerArrives = some p8a := rfl
  rw [h1, Option.bind_some] at he
  obtain ⟨log, hra⟩ := run_exec hr0 h1
  have hs1 : App.step wcfg p8a (.world (.poll b0 none)) = some p9 := by
    simp only [App.exec] at he
    cases hx : App.step wcfg p8a (.world (.poll b0 none)) with
    | none => simp [hx] at he
    | some y => simp only [hx, Option.some.injEq] at he; rw [he]; rfl
  have hs2 : App.step wcfg p9 (.world (.sys (.engIn b0))) = some p9a := rfl
  have hrb := hra.snoc hs1
  have hrc := hrb.snoc hs2
  have harr := arrived_run hra b0
  have hall : HasSent b0 log ([(connectedC, bytes connectedC), (found 1, bytes (found 1))] ++ (producerSuccessC 1, bytes (producerSuccessC 1)) :: []) [] := by
    refine ⟨?_, Framed.partial_nil, ?_⟩
    · intro f hf
      simp only [List.cons_append, List.nil_append, List.mem_cons, List.not_mem_nil, or_false] at hf
      rcases hf with rfl | rfl | rfl
      · exact frame_connected
      · exact frame_found 1 (by decide) (by decide +kernel)
      · exact frame_producer
    · rw [harr]
      have : arrivals b0 ([] ++ made1 ++ write ++ AppExample.hear connectedC ++ part2 ++ write ++ AppExample.hear (found 1) ++ part3 ++ write ++ producerArrives) =
          [.data (bytes connectedC), .data (bytes (found 1)), .data (bytes (producerSuccessC 1))] := rfl
      rw [this]
      constructor
      · intro r hr
        simp only [List.mem_cons, List.not_mem_nil, or_false] at hr
        rcases hr with rfl | rfl | rfl
        · trivial
        · trivial
        · trivial
      · simp [Framed.bytesOf, Framed.stream]
  have hev : .handed (.producer "t") (.ok 2) ∈ (p8a.jobs[0]'(by decide)).events := by
    show _ ∈ [Ev.handed .connect (.ok 0), .waited 0 _ _, .handed _ (.ok 1), .waited 1 _ _, .handed (.producer "t") (.ok 2)]
    simp
  have hmode : p9a.world.sys.mode ≠ .stopped := by
    show Sys.Mode.idle ≠ _
    intro h; cases h
  have hin : ∃ r, Inbound.ofCommand (producerSuccessC 1) = .ok (.producerSuccess r) := ⟨_, rfl⟩
  obtain ⟨r, hin⟩ := hin
  have hn2 : (p8a.world.rx b0).out.length = 2 := rfl
  have hother : ∀ i', ¬ DisplacedBy wcfg (log ++ [.poll b0 none] ++ [.sys (.engIn b0)]) p9a.world.sys 2 i' := by
    rintro i' ⟨t', i, out, out', h1, h2, h3, ⟨inb, h4, h5⟩, _⟩
    have hiss : ∃ c0 c1 c2, p9a.world.sys.issued = [(0, .connect c0), (0, .lookupTopic c1), (0, .producer c2)] := ⟨_, _, _, rfl⟩
    obtain ⟨c0, c1, c2, hiss⟩ := hiss
    rw [hiss] at h2 h3
    cases h2
    match t', h1, h3 with
    | 0, _, h3 => cases h3; cases inb <;> simp [Sys.Answers] at h4 h5
    | 1, _, h3 => cases h3; cases inb <;> simp [Sys.Answers] at h4 h5
    | 2, h1, _ => exact h1 rfl
    | n + 3, _, h3 => simp at h3
  have hreq : requests (p9a.jobs[0]'(by decide)).events = [0, 1, 2] := rfl
  have hout : ∃ x y z, p9a.world.sys.outcomes = [(0, x), (1, y), (2, z)] := ⟨_, _, _, rfl⟩
  refine ⟨_, _, _, p8a.jobs[0]'(by decide), p9a.jobs[0]'(by decide), r, hra, hrb, hrc, rfl, rfl, rfl, hev, rfl, rfl, hall, hn2, hin, rfl, rfl, rfl,
    hmode, hother, ⟨hreq, ?_⟩, ?_⟩
  · obtain ⟨x, y, z, hout⟩ := hout
    rw [hreq]
    intro t ht
    simp only [List.mem_cons, List.not_mem_nil, or_false] at ht
    unfold Sys.Done
    rw [hout]
    rcases ht with rfl | rfl | rfl
    · exact ⟨x, by simp⟩
    · exact ⟨y, by simp⟩
    · exact ⟨z, by simp⟩
  · exact C133_producer (more1 := [.world (.poll b0 none)]) (more2 := [.world (.sys (.engIn b0))]) hra hrb hrc (k := 0)
      (j := p8a.jobs[0]'(by decide)) (j2 := p9a.jobs[0]'(by decide)) (bld := sender) rfl rfl rfl rfl hev rfl (by decide) hall
      (by rw [hn2]; decide) hin (by rw [hn2]; decide) (by decide) rfl rfl hmode hother

end Neutron.Props
