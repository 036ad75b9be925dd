import Verif.Props.Permits
import Verif.Props.AppReachExample
import Verif.Props.ReachExample

/-!
# C129: an instance
-/

namespace Neutron.Props.AppExample

open Neutron Neutron.World Neutron.App Frame Trace Proto EndToEndExample ConfirmedExample

/-- A consumer has been made (`a7`).  The connection writes what is left, the broker sends a message, which the application takes; then it
asks for another one. -/
def c1 : App.State UInt8 := wrote a7 (bytes (out lookup0))
def c2 : App.State UInt8 := wrote c1 (bytes (out subscribe0))
def c3 : App.State UInt8 := wrote c2 (bytes (out flow0))
def c4 : App.State UInt8 := heard c3 m1
def heardW : List World.Act := [.arrive b0 (.data (bytes m1)), .poll b0 none]
def polls : List World.Act := [.poll b0 none]
def takes : List World.Act := [.sys (.engIn b0)] ++ asking ++ asking'
def c5 : App.State UInt8 := ⟨polled c4.world .pending { buf := [], readable := false } [], c4.jobs⟩
def c6 : App.State UInt8 := after c5 (takes.map .world)

set_option maxRecDepth 20000 in
theorem csent1 : App.exec wcfg a7 write = some c1 :=
  write_exec (c := ⟨lookup0, none, some (0, ⟨lookup0, some 1⟩)⟩) rfl trivial (by decide +kernel) rfl rfl rfl
set_option maxRecDepth 20000 in
theorem csent2 : App.exec wcfg c1 write = some c2 :=
  write_exec (c := ⟨subscribe0, none, some (0, ⟨subscribe0, some 2⟩)⟩) rfl trivial (by decide +kernel) rfl rfl rfl
set_option maxRecDepth 20000 in
theorem csent3 : App.exec wcfg c2 write = some c3 :=
  write_exec (c := ⟨flow0, none, some (0, ⟨flow0, none⟩)⟩) rfl trivial (by decide +kernel) rfl rfl rfl
set_option maxRecDepth 20000 in
theorem csent4 : App.exec wcfg c3 (AppExample.hear m1) = some c4 := hear_exec frame1 (by decide) rfl rfl true rfl rfl rfl
set_option maxRecDepth 20000 in
theorem cpoll5 : World.step wcfg c4.world (.poll b0 none) = some c5.world := poll_step _ _ _ rfl rfl poll7 rfl (.inl rfl)
theorem csent5 : App.exec wcfg c4 (polls.map .world) = some c5 := by
  simp only [polls, List.map_cons, List.map_nil, App.exec, App.step, possible, App.free, if_true, App.induced, worldSteps, cpoll5, jobsAfter]
  rfl
set_option maxRecDepth 20000 in
theorem csent6 : App.exec wcfg c5 (takes.map .world) = some c6 := rfl

/-- What the surroundings do is recorded as such. -/
theorem world_exec {cfg : World.Cfg UInt8} : ∀ {l : List World.Act} {as : List App.Act} {log : List World.Act} {a a' : App.State UInt8},
    App.Run cfg as log a → App.exec cfg a (l.map .world) = some a' →
    App.Run cfg (as ++ l.map .world) (log ++ l) a' ∧ World.exec cfg a.world l = some a'.world := by
  intro l
  induction l with
  | nil => intro as log a a' h hs; cases hs; exact ⟨by simpa using h, rfl⟩
  | cons x l ih =>
    intro as log a a' h hs
    simp only [List.map_cons, App.exec] at hs
    cases h1 : App.step cfg a (.world x) with
    | none => rw [h1] at hs; cases hs
    | some a1 =>
      rw [h1] at hs
      have h2 := h.snoc h1
      simp only [App.induced] at h2
      obtain ⟨g1, g2⟩ := ih h2 hs
      refine ⟨by simpa using g1, ?_⟩
      have := (step_some h1).2.1
      simp only [App.induced, worldSteps] at this
      simp only [World.exec]
      cases hx : World.step cfg a.world x with
      | none => rw [hx] at this; cases this
      | some w1 =>
        rw [hx] at this
        cases this
        exact g2

/-- Every call on the consumer is one of what the surroundings do. -/
theorem calls_run {cfg : World.Cfg UInt8} {acts : List App.Act} {log : List World.Act} {a : App.State UInt8} (h : App.Run cfg acts log a)
    {y : Consumer.Act} (hm : .app y ∈ log) : .world (.app y) ∈ acts := by
  induction h with
  | nil => cases hm
  | @snoc as log a a' x h hs ih =>
    rcases List.mem_append.mp hm with hm | hm
    · exact List.mem_append_left _ (ih hm)
    · refine List.mem_append_right _ ?_
      cases x with
      | world y => simp only [App.induced, List.mem_singleton] at hm; rw [hm]; simp
      | start c => simp [App.induced] at hm
      | run k =>
        simp only [App.induced] at hm
        split at hm
        · simp at hm
        · cases hm
      | drop k =>
        simp only [App.induced] at hm
        split at hm
        · simp at hm
        · cases hm

theorem no_calls {log : List World.Act} (h : ∀ y, World.Act.app y ∉ log) : callsMade log = [] := by
  induction log with
  | nil => rfl
  | cons x log ih =>
    have ih := ih fun y hy => h y (List.mem_cons_of_mem _ hy)
    cases x with
    | app y => exact absurd (List.mem_cons_self ..) (h y)
    | _ => exact ih

theorem tasks_jobs {T : Type} {cfg : Consumer.Cfg T} {l : List Consumer.Act} {s : Consumer.State T} (h : Consumer.Run cfg l s) :
    s.tasks.length = (Consumer.jobs l).length := by
  induction h with
  | nil => rfl
  | snoc _ hs ih =>
    rw [Consumer.jobs_append]
    cases Consumer.step_cases hs <;> simp_all [Consumer.jobs, Consumer.State.goto, Consumer.finish]

/-- There are no more calls in progress than calls made. -/
theorem atMost_made {T : Type} {cfg : World.Cfg T} {log : List World.Act} {n : Nat} (h : (callsMade log).length ≤ n) :
    CallsAtMost cfg n log := by
  intro l w hl hr
  obtain ⟨lg, al, hp⟩ := proj hr
  obtain ⟨l', rfl⟩ := hl
  rw [callsMade_append, List.length_append, ← hp.jobs, ← tasks_jobs hp.app] at h
  have : w.app.live ≤ w.app.tasks.length := List.countP_le_length
  omega

theorem frames_whole : ∀ f ∈ [(connectedC, bytes connectedC), (found 1, bytes (found 1)), (successC 1, bytes (successC 1))], Framed.IsFrame f := by
  intro f hf
  simp only [List.mem_cons, List.not_mem_nil, or_false] at hf
  rcases hf with rfl | rfl | rfl
  · exact frame_connected
  · exact frame_found 1 (by decide) (by decide +kernel)
  · exact frame_success

theorem path_hear {w w' : World UInt8} {r : Read} (h : World.exec wcfg w [.arrive b0 r, .poll b0 none] = some w') (h1 : att w = true)
    (h2 : att w' = true) : World.Path wcfg (fun w => Attached wcfg.me b0 w.sys) w [.arrive b0 r, .poll b0 none] w' := by
  simp only [World.exec] at h
  cases hs : World.step wcfg w (.arrive b0 r) with
  | none => rw [hs] at h; cases h
  | some w1 =>
    rw [hs] at h
    simp only [] at h
    cases hs2 : World.step wcfg w1 (.poll b0 none) with
    | none => rw [hs2] at h; cases h
    | some w2 =>
      rw [hs2] at h
      cases h
      have hsys : w1.sys = w.sys := by
        simp only [World.step] at hs
        split at hs
        · cases hs; rfl
        · cases hs
      have p1 : World.Path wcfg (fun w => Attached wcfg.me b0 w.sys) w ([] ++ [.arrive b0 r]) w1 :=
        .snoc (.nil (att_iff h1)) hs (by rw [hsys]; exact att_iff h1)
      exact .snoc p1 hs2 (att_iff h2)

end Neutron.Props.AppExample

namespace Neutron.Props

open Neutron.World Neutron.App EndToEndExample AppExample Session Trace ConfirmedExample

set_option maxRecDepth 20000 in
/-- The hypotheses of `C129_given` and `C129_not_starved` are met: a consumer is made, gets a message, and asks for the next. -/
example : ∃ (acts : List App.Act) (l1 l2 : List World.Act) (j : Job) (w : World UInt8), App.Run wcfg acts (l1 ++ l2) c6 ∧
    wcfg.app.permits = 250 ∧ j ∈ c6.jobs ∧ j.made = .consumer builder ∧ j.client = some wcfg.me ∧ j.ended = some (.ok ()) ∧
    c6.world.sys.nClients ≤ 2 ^ 64 ∧ CallsAtMost wcfg 251 (l1 ++ l2) ∧ World.Run wcfg l1 w ∧ wcfg.me < w.sys.nClients ∧
    (∀ b', readFor w wcfg.me b' = []) ∧ World.Path wcfg (fun w => Attached wcfg.me b0 w.sys) w l2 c6.world ∧
    HasSent b0 (l1 ++ l2) [(connectedC, bytes connectedC), (found 1, bytes (found 1)), (successC 1, bytes (successC 1)), (m1, bytes m1)] [] ∧
    (Sys.addressedTo 0 (messagesOf [connectedC, found 1, successC 1, m1])).length = 1 ∧
    (∀ m ∈ Sys.addressedTo (UInt64.ofNat wcfg.me) (messagesOf [connectedC, found 1, successC 1, m1]),
      Consumer.isSingle m = true ∧ Consumer.decodable wcfg.app.decode m) ∧
    (Framed.pollNext (c6.world.rx b0).framed (c6.world.rx b0).socket).1 = .pending ∧ (c6.world.sys.conns b0).outbox = [] ∧
    (c6.world.sys.clients wcfg.me).queue = [] ∧
    (∀ b' cmd, (b', cmd) ∈ Sys.passedOn c6.world.sys.sent wcfg.me → (∃ f, cmd.out = .flow f) → b' = b0) ∧
    WritesSucceed b0 (l1 ++ l2) ∧ (c6.world.sys.conns b0).alive = true ∧ (c6.world.sys.conns b0).queue = [] ∧ Fits c6.world ∧
    c6.world.app.waiting 1 ∧ Consumer.step wcfg.app c6.world.app (.run 1) = none := by
  obtain ⟨l0, hr3⟩ := App.run_exec (as := []) .nil (exec_trans (exec_trans (exec_trans making_exec csent1) csent2) csent3)
  rw [List.nil_append] at hr3
  have hc36 : App.exec wcfg c3 ((heardW ++ polls ++ takes).map .world) = some c6 := by
    rw [List.map_append, List.map_append]
    exact exec_trans (exec_trans csent4 csent5) csent6
  obtain ⟨hr6, _⟩ := world_exec hr3 hc36
  have hno : ∀ y, World.Act.app y ∉ l0 := by
    intro y hy
    have := calls_run hr3 hy
    simp [making, part1, part2, part3, part7, AppExample.hear, asks, gets, joins, write] at this
  refine ⟨_, l0, _, c6.jobs[0], c3.world, hr6, rfl, List.getElem_mem (by decide), rfl, rfl, rfl, by decide, ?_, run_world hr3, by decide, ?_, ?_, ?_, ?_⟩
  · refine atMost_made ?_
    rw [callsMade_append, no_calls hno]
    decide
  · intro b'
    obtain ⟨lg, al, hp⟩ := proj (run_world hr3)
    have harr := arrived_run hr3 b'
    by_cases hb : b' = b0
    · subst hb
      have hs : Sends b0 l0 [(connectedC, bytes connectedC), (found 1, bytes (found 1)), (successC 1, bytes (successC 1))] [] false := by
        refine ⟨frames_whole, Framed.partial_nil, _, ?_, ?_, by rw [harr]; simp; exact List.prefix_rfl⟩
        · simp [making, part1, part2, part3, part7, AppExample.hear, asks, gets, joins, write, arrivals, Framed.IsData]
        · simp [making, part1, part2, part3, part7, AppExample.hear, asks, gets, joins, write, arrivals, Framed.bytesOf, Framed.stream]
      exact List.prefix_nil.mp (readFor_prefix hp hs 0)
    · have hs : Sends b' l0 [] [] false := by
        refine ⟨fun f hf => (by cases hf), Framed.partial_nil, [], fun r hr => (by cases hr), rfl, ?_⟩
        rw [harr]
        simp [making, part1, part2, part3, part7, AppExample.hear, asks, gets, joins, write, arrivals, Ne.symm hb]
      exact List.prefix_nil.mp (readFor_prefix hp hs 0)
  · have hc45 : App.exec wcfg c3 ((heardW ++ polls).map .world) = some c5 := by
      rw [List.map_append]; exact exec_trans csent4 csent5
    have hc56 : World.exec wcfg c5.world takes = some c6.world := (world_exec (world_exec hr3 hc45).1 csent6).2
    have h34 : World.exec wcfg c3.world heardW = some c4.world := (world_exec hr3 (l := heardW) csent4).2
    exact path_steps (path_poll (path_hear h34 rfl rfl) cpoll5 rfl) hc56 rfl
  · refine ⟨?_, Framed.partial_nil, ?_⟩
    · intro f hf
      rcases List.mem_append.mp (show f ∈ [(connectedC, bytes connectedC), (found 1, bytes (found 1)), (successC 1, bytes (successC 1))] ++
        [(m1, bytes m1)] from hf) with hf | hf
      · exact frames_whole f hf
      · rw [List.mem_singleton.mp hf]; exact frame1
    · rw [arrived_run hr6 b0]
      simp [making, part1, part2, part3, part7, AppExample.hear, asks, gets, joins, write, heardW, polls, takes, asking, asking',
        arrivals, Framed.IsData, Framed.bytesOf, Framed.stream, Consumer.go]
  · refine ⟨rfl, ?_, rfl, rfl, rfl, ?_, ?_, rfl, rfl, ?_, ?_, rfl⟩
    · intro m hm
      obtain ⟨x, y, hx⟩ : ∃ x y, Sys.addressedTo (UInt64.ofNat wcfg.me) (messagesOf [connectedC, found 1, successC 1, m1]) =
        [.single x y [104]] := ⟨_, _, rfl⟩
      rw [hx, List.mem_singleton] at hm
      subst hm
      exact ⟨rfl, rfl⟩
    · intro b' cmd hm _
      have : (Sys.passedOn c6.world.sys.sent wcfg.me).map (·.1) = [b0, b0, b0, b0] := rfl
      have hm' := List.mem_map_of_mem (f := (·.1)) hm
      rw [this] at hm'
      simpa using hm'
    · intro now io hm
      have hw := write_run hr6 hm
      simp [making, part1, part2, part3, part7, AppExample.hear, asks, gets, joins, write, heardW, polls, takes, asking, asking',
        Consumer.go] at hw
      exact hw.2
    · intro b c hc
      by_cases hb : b = b0
      · subst hb
        have hpr : (c6.world.sys.conns b0).processed.map (·.out) = [connectOut, lookup0, subscribe0, flow0] := rfl
        have hc' := List.mem_map_of_mem (f := (·.out)) hc
        rw [hpr] at hc'
        simp only [List.mem_cons, List.not_mem_nil, or_false] at hc'
        rcases hc' with h | h | h | h <;> rw [h] <;> exact ⟨trivial, by decide +kernel⟩
      · have h0 := (Sys.conn (⟨_, (proj (run_world hr6)).choose_spec.choose_spec.sys⟩ : Sys.Reachable wcfg.sys c6.world.sys)).unused b
          (by show b ∉ [b0]; simpa using hb)
        rw [h0] at hc; cases hc
    · exact ⟨_, _, rfl, rfl⟩

end Neutron.Props
