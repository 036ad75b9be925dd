import Verif.Proof.AppConnect
import Verif.Props.AppAnswered
import Verif.Props.ConnectFails

/-!
# C133: a `connect` whose responses arrive returns `Ok`
-/

namespace Neutron.Props

open Neutron App World Session

variable {T : Type}

/-- A `connect` that has done something on its client is at the place in its program that what it did leads to. -/
theorem connect_place {cfg : World.Cfg T} {acts : List App.Act} {log : List World.Act} {a : App.State T} (h : App.Run cfg acts log a)
    {j : Job} (hj : j ∈ a.jobs) {name topic : String} {p : Prog Unit} (hst : j.start = setup name topic p) (hs : Stage name topic p j)
    (hev : j.events ≠ []) :
    ∃ q, Within p j.events q ∧ ((∃ core, j.prog = .session core q .ret) ∨ ∃ o, q = .ret o ∧ j.prog = .ret o) := by
  cases hs with
  | new _ _ ht => exact absurd (by simp [Job.events, ht]) hev
  | registering _ _ ht => exact absurd (by simp [Job.events, ht]) hev
  | refused _ _ _ ht => exact absurd (by simp [Job.events, ht]) hev
  | calls i evs hc hp ht =>
    cases hp with
    | over o hp =>
      have hr := runs_of h hj (ended_ret.mpr hp)
      rw [hst, ht] at hr
      have he : j.events = evs := events_of (pre := [_, _]) ht (by simp)
      rw [he]
      exact ⟨.ret o, within_of_runs (setup_ran hr), .inr ⟨o, rfl, hp⟩⟩
    | running q hp => exact ⟨q, within_connect h j hj name topic p hst _ q hp, .inl ⟨_, hp⟩⟩

/-- Where the `connect` of a producer is once it has handed over the command that creates the producer. -/
theorem producer_place {topic : String} {evs : List Ev} {q : Prog Unit} (h : Within (producerConnect topic) evs q) {t : Nat}
    (hh : .handed (.producer topic) (.ok t) ∈ evs) :
    (q = .wait t (.producer topic) fun r => (Prog.ret r >>= fun _ => pure ())) ∨
      ∃ r, .waited t (.producer topic) r ∈ evs ∧ q = (Prog.ret r >>= fun _ => pure ()) := by
  have no1 : ∀ {e q}, Within (Session.call .connect) e q → .handed (.producer topic) (.ok t) ∉ e := fun hw hm => by
    cases (within_only hw (onlyHands_call (P := fun c => c = .connect) rfl)).2 _ _ hm
  have no2 : ∀ {e q}, Within (lookupTopic topic) e q → .handed (.producer topic) (.ok t) ∉ e := fun hw hm => by
    rcases (within_only hw (onlyHands_lookup topic)).2 _ _ hm with ⟨_, h⟩ | ⟨_, h⟩ <;> cases h
  rcases within_bind h with ⟨_, h1, rfl⟩ | ⟨_, e1, e2, rfl, h1, h2⟩
  · exact absurd hh (no1 h1)
  rcases within_bind h2 with ⟨_, h3, rfl⟩ | ⟨_, e3, e4, rfl, h3, h4⟩
  · rcases List.mem_append.mp hh with hh | hh
    · exact absurd hh (no1 h1)
    · exact absurd hh (no2 h3)
  have hh4 : .handed (.producer topic) (.ok t) ∈ e4 := by
    rcases List.mem_append.mp hh with hh | hh
    · exact absurd hh (no1 h1)
    · rcases List.mem_append.mp hh with hh | hh
      · exact absurd hh (no2 h3)
      · exact hh
  have sub : ∀ {x}, x ∈ e4 → x ∈ e1 ++ (e3 ++ e4) := fun hx => List.mem_append_right _ (List.mem_append_right _ hx)
  rcases within_called h4 hh4 (fun _ => trivial) with h5 | ⟨r, h5, h6 | ⟨x, e5, e6, rfl, _, h6⟩⟩
  · exact .inl h5
  · exact .inr ⟨r, sub h5, h6⟩
  · refine .inr ⟨.ok x, sub h5, ?_⟩
    exact (within_nothing h6).2

/-- Where the program that hands over one command is. -/
theorem within_flow {c : Call} {e : List Ev} {q : Prog Unit} (h : Within (handOver c >>= fun _ => pure () : Prog Unit) e q) :
    (e = [] ∧ q = (handOver c >>= fun _ => pure () : Prog Unit)) ∨ ∃ r', e = [.handed c r'] ∧ q = (Prog.ret r' >>= fun _ => pure ()) := by
  have hd : (handOver c >>= fun _ => pure () : Prog Unit) = .hand c fun r => (Prog.ret r >>= fun _ => pure ()) := rfl
  generalize hp : (handOver c >>= fun _ => pure () : Prog Unit) = p at h
  induction h with
  | here => exact .inl ⟨rfl, rfl⟩
  | @hand evs c k r hw ih =>
    rcases ih with ⟨rfl, h8⟩ | ⟨r', _, h8⟩
    · rw [← hp, hd] at h8
      cases h8
      exact .inr ⟨r, rfl, rfl⟩
    · cases r' <;> cases h8
  | @wait evs t' c k r hw ih =>
    rcases ih with ⟨rfl, h8⟩ | ⟨r', _, h8⟩
    · rw [← hp, hd] at h8
      cases h8
    · cases r' <;> cases h8

/-- Where the `connect` of a consumer is once it has handed over the subscription. -/
theorem consumer_place {topic subscription : String} {n : UInt32} {evs : List Ev} {q : Prog Unit}
    (h : Within (consumerConnect topic subscription n) evs q) {t : Nat} (hh : .handed (.subscribe topic subscription) (.ok t) ∈ evs) :
    (q = .wait t (.subscribe topic subscription) fun r => (Prog.ret r >>= fun _ => handOver (.flow (n * 2)) >>= fun _ => pure ())) ∨
      ∃ r, .waited t (.subscribe topic subscription) r ∈ evs ∧ ((q = (Prog.ret r >>= fun _ => handOver (.flow (n * 2)) >>= fun _ => pure ())) ∨
        ∃ r', .handed (.flow (n * 2)) r' ∈ evs ∧ q = (Prog.ret r' >>= fun _ => pure ())) := by
  have no1 : ∀ {e q}, Within (Session.call .connect) e q → .handed (.subscribe topic subscription) (.ok t) ∉ e := fun hw hm => by
    cases (within_only hw (onlyHands_call (P := fun c => c = .connect) rfl)).2 _ _ hm
  have no2 : ∀ {e q}, Within (lookupTopic topic) e q → .handed (.subscribe topic subscription) (.ok t) ∉ e := fun hw hm => by
    rcases (within_only hw (onlyHands_lookup topic)).2 _ _ hm with ⟨_, h⟩ | ⟨_, h⟩ <;> cases h
  rcases within_bind h with ⟨_, h1, rfl⟩ | ⟨_, e1, e2, rfl, h1, h2⟩
  · exact absurd hh (no1 h1)
  rcases within_bind h2 with ⟨_, h3, rfl⟩ | ⟨_, e3, e4, rfl, h3, h4⟩
  · rcases List.mem_append.mp hh with hh | hh
    · exact absurd hh (no1 h1)
    · exact absurd hh (no2 h3)
  have hh4 : .handed (.subscribe topic subscription) (.ok t) ∈ e4 := by
    rcases List.mem_append.mp hh with hh | hh
    · exact absurd hh (no1 h1)
    · rcases List.mem_append.mp hh with hh | hh
      · exact absurd hh (no2 h3)
      · exact hh
  have sub : ∀ {x}, x ∈ e4 → x ∈ e1 ++ (e3 ++ e4) := fun hx => List.mem_append_right _ (List.mem_append_right _ hx)
  have hfl : OnlyHands (fun c' => c' ≠ Call.subscribe topic subscription) (handOver (.flow (n * 2)) >>= fun _ => pure ()) := by
    refine ⟨by simp, fun r => ?_⟩
    cases r <;> exact trivial
  rcases within_called h4 hh4 (fun _ => hfl) with h5 | ⟨r, h5, h6 | ⟨x, e5, e6, rfl, rfl, h6⟩⟩
  · exact .inl h5
  · exact .inr ⟨r, sub h5, .inl h6⟩
  · refine .inr ⟨.ok x, sub h5, ?_⟩
    rcases within_flow h6 with ⟨_, h7⟩ | ⟨r', rfl, h7⟩
    · exact .inl (by rw [h7]; rfl)
    · exact .inr ⟨r', by simp, h7⟩

/-- What was handed over has been answered, on the wire and by the engine. -/
theorem answered_done {cfg : World.Cfg T} {acts more1 more2 : List App.Act} {log log1 log2 : List World.Act} {a a1 a2 : App.State T}
    (h : App.Run cfg acts log a) (h1 : App.Run cfg (acts ++ more1) (log ++ log1) a1)
    (h2 : App.Run cfg (acts ++ more1 ++ more2) (log ++ log1 ++ log2) a2) {k i t : Nat} {j : Job} {c : Call}
    (hk : a.jobs[k]? = some j) (hc : j.client = some i) (hh : .handed c (.ok t) ∈ j.events) (hx : c.expectsResponse = true)
    (hq : (a.world.sys.clients i).queue = []) (hn : a.world.sys.nClients ≤ 2 ^ 64) {b : BrokerAddress}
    {pre post : List (MessageCommand × Bytes)} {v : MessageCommand}
    {bytes part : Bytes} (hsent : HasSent b log (pre ++ (v, bytes) :: post) part) (hnew : (a.world.rx b).out.length ≤ pre.length)
    {inb : Inbound} (hv : Inbound.ofCommand v = .ok inb) (ha : ∀ core : Client, Sys.Answers (core.issue c).2 inb) (hne : inb ≠ .connected)
    (hpolls : pre.length < (a.world.rx b).out.length + log1.countP (World.Act.polls b))
    (hserved : (a1.world.sys.conns b).outbox.length ≤ log2.countP (World.Act.handles b)) (hstop : a2.world.sys.mode ≠ .stopped) :
    Sys.Done a2.world.sys t := by
  have w1 : worldSteps cfg a.world log1 = some a1.world := run_steps_of (run_world h) (run_world h1)
  have w2 : worldSteps cfg a1.world log2 = some a2.world := run_steps_of (run_world h1) (run_world h2)
  have hs0 := steps_stopped w1 (steps_stopped w2 hstop)
  have hj := List.mem_of_getElem? hk
  obtain ⟨b', cmd, p1, p2, p3⟩ := handed_passed h hj hc hh hx hs0 hn hq
  obtain ⟨core, hcore⟩ : ∃ core : Client, a.world.sys.issued[t]? = some (i, (core.issue c).2) := by
    obtain ⟨ev, hev, he⟩ := List.mem_filterMap.mp hh
    split at he
    · cases he
      exact (seen h j hj).events i hc _ _ hev hx
    · cases he
  rw [hcore] at p3
  have hco : (core.issue c).2 = cmd.out := (Prod.mk.inj (Option.some.inj p3)).2
  exact C126_completes (run_world h) w1 w2 hsent hnew p1 p2 hv (hco ▸ ha core) hne hpolls hserved

theorem fits_events {cfg : World.Cfg T} {acts : List App.Act} {log : List World.Act} {a : App.State T} (h : App.Run cfg acts log a)
    {j : Job} (hj : j ∈ a.jobs) {i : Nat} (hc : j.client = some i) {ev : Ev} (hev : ev ∈ j.events) : Sys.Fits a.world.sys i ev := by
  obtain ⟨ev', hev, he⟩ := List.mem_filterMap.mp hev
  split at he
  · cases he
    exact (seen h j hj).events i hc _ _ hev
  · cases he

/-- A request that is settled, was not taken for another and is not one of a stopped instance has been answered with a response the call takes. -/
theorem settled_answered {cfg : World.Cfg T} {acts : List App.Act} {log : List World.Act} {a : App.State T} (h : App.Run cfg acts log a)
    {j : Job} (hj : j ∈ a.jobs) {i : Nat} (hc : j.client = some i) {c : Call} {t : Nat} (hh : .handed c (.ok t) ∈ j.events)
    (hx : c.expectsResponse = true) (hd : Sys.Done a.world.sys t) (hstop : a.world.sys.mode ≠ .stopped)
    (hother : ∀ i', ¬ DisplacedBy cfg log a.world.sys t i') : Answered a.world.sys t c := by
  obtain ⟨core, hcore⟩ := fits_events h hj hc hh hx
  obtain ⟨res, hres⟩ := hd
  cases res with
  | cancelled =>
    rcases C118_request (run_world h) hres with hst | ⟨i', hd⟩
    · exact absurd hst hstop
    · exact absurd hd (hother i')
  | resolved e =>
    obtain ⟨r, hok, _⟩ := C19_never_unresolvable (App.reachable h) hres hcore hx
    exact ⟨e, hres, r, hok⟩

/-- What such a call got when it waited is that response. -/
theorem waited_answered {cfg : World.Cfg T} {acts : List App.Act} {log : List World.Act} {a : App.State T} (h : App.Run cfg acts log a)
    {j : Job} (hj : j ∈ a.jobs) {i : Nat} (hc : j.client = some i) {c : Call} {t : Nat} (ha : Answered a.world.sys t c) {r : Outcome Response}
    (hw : .waited t c r ∈ j.events) : ∃ x, r = .ok x := by
  obtain ⟨e, he, x, hx⟩ := ha
  obtain ⟨res, hres, rfl⟩ := fits_events h hj hc hw
  have := outcome_unique (App.reachable h) hres he
  subst this
  exact ⟨x, hx⟩

/-- A `connect` at a place where it will end well. -/
theorem connect_ends {cfg : World.Cfg T} {acts : List App.Act} {log : List World.Act} {a : App.State T} (h : App.Run cfg acts log a) {k : Nat}
    {j : Job} (hk : a.jobs[k]? = some j) (hl : j.live = true) (hstop : a.world.sys.mode ≠ .stopped) {q : Prog Unit} {n t : Nat} {c : Call}
    (ha : Answered a.world.sys t c) (hw : WillOk (fun t' c' => t' = t ∧ c' = c) n q)
    (hp : (∃ core, j.prog = .session core q .ret) ∨ ∃ o, q = .ret o ∧ j.prog = .ret o) :
    ∃ m, m ≤ n ∧ ∃ log' a' j', App.Run cfg (acts ++ List.replicate m (.run k)) log' a' ∧ a'.jobs[k]? = some j' ∧ j'.made = j.made ∧
      j'.ended = some (.ok ()) := by
  rcases hp with ⟨core, hp⟩ | ⟨o, rfl, hp⟩
  · exact will_ok hw h hk hl hp hstop (fun t' c' ⟨h1, h2⟩ => h1 ▸ h2 ▸ ha)
  · cases hw
    exact ⟨0, by omega, log, a, j, by simpa using h, hk, rfl, ended_ret.mpr hp⟩

/-- **C133.**  The `connect` of a producer has handed over its last command, the one that creates the producer, and the engine has taken it.
The broker has sent a `PRODUCER_SUCCESS`, not read yet (`pre` is what it sent before).  Once the connection has polled its socket often
enough to read it, and the engine has handled what was passed to it, the `connect` returns `Ok` in at most two steps of its own, whatever
else happened meanwhile: provided it was not dropped, the instance has not stopped, and no other client of the instance was creating a
producer while this one was. -/
theorem C133_producer {cfg : World.Cfg T} {acts more1 more2 : List App.Act} {log log1 log2 : List World.Act} {a a1 a2 : App.State T}
    (h : App.Run cfg acts log a) (h1 : App.Run cfg (acts ++ more1) (log ++ log1) a1)
    (h2 : App.Run cfg (acts ++ more1 ++ more2) (log ++ log1 ++ log2) a2) {k i t : Nat} {j j2 : Job} {bld : ProducerBuilder} {topic : String}
    (hk : a.jobs[k]? = some j) (hm : j.made = .producer bld) (hc : j.client = some i) (ht : bld.topic = some topic)
    (hh : .handed (.producer topic) (.ok t) ∈ j.events) (hq : (a.world.sys.clients i).queue = []) (hn : a.world.sys.nClients ≤ 2 ^ 64)
    {b : BrokerAddress} {pre post : List (MessageCommand × Bytes)} {v : MessageCommand} {bytes part : Bytes}
    (hsent : HasSent b log (pre ++ (v, bytes) :: post) part) (hnew : (a.world.rx b).out.length ≤ pre.length)
    {r : ProducerSuccess} (hv : Inbound.ofCommand v = .ok (.producerSuccess r))
    (hpolls : pre.length < (a.world.rx b).out.length + log1.countP (World.Act.polls b))
    (hserved : (a1.world.sys.conns b).outbox.length ≤ log2.countP (World.Act.handles b))
    (hk2 : a2.jobs[k]? = some j2) (hl : j2.live = true) (hstop : a2.world.sys.mode ≠ .stopped)
    (hother : ∀ i', ¬ DisplacedBy cfg (log ++ log1 ++ log2) a2.world.sys t i') :
    ∃ n, n ≤ 2 ∧ ∃ log' a' j', App.Run cfg (acts ++ more1 ++ more2 ++ List.replicate n (.run k)) log' a' ∧ a'.jobs[k]? = some j' ∧
      j'.made = j.made ∧ j'.ended = some (.ok ()) := by
  have hd := answered_done h h1 h2 hk hc hh rfl hq hn hsent hnew hv (fun _ => trivial) (by simp) hpolls hserved hstop
  obtain ⟨j', g1, g2, g3⟩ := stays h hk (post := more1 ++ more2) (by rw [← List.append_assoc]; exact h2)
  rw [hk2] at g1
  cases g1
  have hj2 := List.mem_of_getElem? hk2
  have hh2 := g3.subset hh
  have hm2 : j2.made = .producer bld := g2.trans hm
  obtain ⟨hst, hown⟩ := (start_of h2 j2 hj2).2.1 bld hm2
  cases kind h2 j2 hj2 with
  | missing _ _ ht' => simp [Job.events, ht'] at hh2
  | consumer b' name topic subscription hb hm' => rw [hm2] at hm'; cases hm'
  | call i p core evs hm' => rw [hm2] at hm'; cases hm'
  | producer b' name topic' hb hm' hn' hs =>
    rw [hm2] at hm'
    cases hm'
    rw [ht] at hb
    obtain ⟨hb1, hb2⟩ := hb
    cases hb2
    rw [producer_setup bld hb1 ht] at hst
    obtain ⟨q, hw, hp⟩ := connect_place h2 hj2 hst hs (by intro hx; rw [hx] at hh2; cases hh2)
    have hc2 : ∃ i2, j2.client = some i2 := by
      cases hs with
      | new _ _ ht' => simp [Job.events, ht'] at hh2
      | registering i' hc' _ => exact ⟨i', hc'⟩
      | refused i' hc' _ => exact ⟨i', hc'⟩
      | calls i' _ hc' => exact ⟨i', hc'⟩
    obtain ⟨i2, hc2⟩ := hc2
    have ha := settled_answered h2 hj2 hc2 hh2 rfl hd hstop hother
    have hwill : ∃ n, n ≤ 2 ∧ WillOk (fun t' c' => t' = t ∧ c' = .producer topic) n q := by
      rcases producer_place hw hh2 with rfl | ⟨r, hr, rfl⟩
      · exact ⟨2, Nat.le_refl _, .wait ⟨rfl, rfl⟩ fun r => .ret⟩
      · obtain ⟨x, rfl⟩ := waited_answered h2 hj2 hc2 ha hr
        exact ⟨1, by omega, .ret⟩
    obtain ⟨n, hn2, hwill⟩ := hwill
    obtain ⟨m, hm1, log', a', j', r1, r2, r3, r4⟩ := connect_ends h2 hk2 hl hstop ha hwill hp
    exact ⟨m, by omega, log', a', j', r1, r2, r3.trans g2, r4⟩

/-- C133 for a consumer: the last response is the `SUCCESS` to its subscription, after which it hands over its first permits (at most four
steps of its own). -/
theorem C133_consumer {cfg : World.Cfg T} {acts more1 more2 : List App.Act} {log log1 log2 : List World.Act} {a a1 a2 : App.State T}
    (h : App.Run cfg acts log a) (h1 : App.Run cfg (acts ++ more1) (log ++ log1) a1)
    (h2 : App.Run cfg (acts ++ more1 ++ more2) (log ++ log1 ++ log2) a2) {k i t : Nat} {j j2 : Job} {bld : ConsumerBuilder Unit}
    {topic subscription : String} (hk : a.jobs[k]? = some j) (hm : j.made = .consumer bld) (hc : j.client = some i)
    (ht : bld.topic = some topic) (hsub : bld.subscription = some subscription)
    (hh : .handed (.subscribe topic subscription) (.ok t) ∈ j.events) (hq : (a.world.sys.clients i).queue = [])
    (hn : a.world.sys.nClients ≤ 2 ^ 64)
    {b : BrokerAddress} {pre post : List (MessageCommand × Bytes)} {v : MessageCommand} {bytes part : Bytes}
    (hsent : HasSent b log (pre ++ (v, bytes) :: post) part) (hnew : (a.world.rx b).out.length ≤ pre.length)
    {r : UInt64} (hv : Inbound.ofCommand v = .ok (.success r))
    (hpolls : pre.length < (a.world.rx b).out.length + log1.countP (World.Act.polls b))
    (hserved : (a1.world.sys.conns b).outbox.length ≤ log2.countP (World.Act.handles b))
    (hk2 : a2.jobs[k]? = some j2) (hl : j2.live = true) (hstop : a2.world.sys.mode ≠ .stopped)
    (hother : ∀ i', ¬ DisplacedBy cfg (log ++ log1 ++ log2) a2.world.sys t i') :
    ∃ n, n ≤ 4 ∧ ∃ log' a' j', App.Run cfg (acts ++ more1 ++ more2 ++ List.replicate n (.run k)) log' a' ∧ a'.jobs[k]? = some j' ∧
      j'.made = j.made ∧ j'.ended = some (.ok ()) := by
  have hd := answered_done h h1 h2 hk hc hh rfl hq hn hsent hnew hv (fun _ => trivial) (by simp) hpolls hserved hstop
  obtain ⟨j', g1, g2, g3⟩ := stays h hk (post := more1 ++ more2) (by rw [← List.append_assoc]; exact h2)
  rw [hk2] at g1
  cases g1
  have hj2 := List.mem_of_getElem? hk2
  have hh2 := g3.subset hh
  have hm2 : j2.made = .consumer bld := g2.trans hm
  obtain ⟨hst, hown⟩ := (start_of h2 j2 hj2).1 bld hm2
  cases kind h2 j2 hj2 with
  | missing _ _ ht' => simp [Job.events, ht'] at hh2
  | producer b' name topic hb hm' => rw [hm2] at hm'; cases hm'
  | call i p core evs hm' => rw [hm2] at hm'; cases hm'
  | consumer b' name topic' subscription' hb hm' hn' hs =>
    rw [hm2] at hm'
    cases hm'
    rw [ht, hsub] at hb
    obtain ⟨hb1, hb2, hb3⟩ := hb
    cases hb2
    cases hb3
    rw [consumer_setup bld hb1 ht hsub] at hst
    obtain ⟨q, hw, hp⟩ := connect_place h2 hj2 hst hs (by intro hx; rw [hx] at hh2; cases hh2)
    have hc2 : ∃ i2, j2.client = some i2 := by
      cases hs with
      | new _ _ ht' => simp [Job.events, ht'] at hh2
      | registering i' hc' _ => exact ⟨i', hc'⟩
      | refused i' hc' _ => exact ⟨i', hc'⟩
      | calls i' _ hc' => exact ⟨i', hc'⟩
    obtain ⟨i2, hc2⟩ := hc2
    have ha := settled_answered h2 hj2 hc2 hh2 rfl hd hstop hother
    have hwill : ∃ n, n ≤ 4 ∧ WillOk (fun t' c' => t' = t ∧ c' = .subscribe topic subscription) n q := by
      rcases consumer_place hw hh2 with rfl | ⟨r, hr, rfl | ⟨r', hr', rfl⟩⟩
      · exact ⟨4, Nat.le_refl _, .wait ⟨rfl, rfl⟩ fun r => .hand fun t => .ret⟩
      · obtain ⟨x, rfl⟩ := waited_answered h2 hj2 hc2 ha hr
        exact ⟨3, by omega, .hand fun t => .ret⟩
      · cases r' with
        | ok t => exact ⟨1, by omega, .ret⟩
        | err e =>
          obtain ⟨ev', hev, he⟩ := List.mem_filterMap.mp hr'
          split at he
          · cases he
            exact absurd (refused_stopped h2 j2 hj2 _ _ _ hev) hstop
          · cases he
        | panic => exact (fits_events h2 hj2 hc2 hr').elim
    obtain ⟨n, hn2, hwill⟩ := hwill
    obtain ⟨m, hm1, log', a', j', r1, r2, r3, r4⟩ := connect_ends h2 hk2 hl hstop ha hwill hp
    exact ⟨m, by omega, log', a', j', r1, r2, r3.trans g2, r4⟩

theorem outcomes_later {cfg : World.Cfg T} {acts : List App.Act} {log : List World.Act} {a : App.State T} (h : App.Run cfg acts log a) :
    ∀ {post : List App.Act} {log' : List World.Act} {a' : App.State T}, App.Run cfg (acts ++ post) log' a' →
      a.world.sys.outcomes <+: a'.world.sys.outcomes := by
  intro post
  induction post using List.reverseRecOn with
  | nil => intro log' a' h'; rw [List.append_nil] at h'; obtain ⟨_, rfl⟩ := run_unique h h'; exact List.prefix_rfl
  | append_singleton post x ih =>
    intro log' a' h'
    rw [← List.append_assoc] at h'
    obtain ⟨log0, a0, hr, hs, _⟩ := run_last h' rfl
    obtain ⟨_, hw, _⟩ := step_some hs
    exact (ih hr).trans (worldSteps_induct (fun s => a0.world.sys.outcomes <+: s.outcomes) (fun s x s' h1 h2 => h1.trans (Sys.outcomes_step h2))
      List.prefix_rfl hw)

/-- What a `connect` did on its client is what its calls on the client can do. -/
theorem connect_steps {cfg : World.Cfg T} {acts : List App.Act} {log : List World.Act} {a : App.State T} (h : App.Run cfg acts log a)
    {j : Job} (hj : j ∈ a.jobs) {name topic : String} {p : Prog Unit} (hst : j.start = setup name topic p) : Steps p j.events := by
  have hs := steps_of h hj
  rw [hst] at hs
  unfold Job.events
  generalize j.trace = tr at hs
  cases hs with
  | nil => exact .nil _
  | newId _ id tr hs =>
    cases hs with
    | nil => exact .nil _
    | register _ _ _ r tr hr hs =>
      have each : ∀ (core : Client) (l : List Ev), List.filterMap (fun ev => match ev with
          | SetupEv.did _ ev => some ev
          | _ => none) (l.map (SetupEv.did core)) = l := by
        intro core l
        induction l with
        | nil => rfl
        | cons x l ih => simp only [List.map_cons, List.filterMap_cons, ih]
      rcases hr with rfl | rfl
      · simp only [registered] at hs
        cases hs with
        | nil => exact .nil _
        | inSession _ _ _ evs hp => simpa [each] using hp
        | session _ _ _ evs r tr hp hk =>
          cases hk
          simpa [each] using steps_of_runs hp
      · simp only [registered] at hs
        cases hs
        exact .nil _

/-- Following a script, a call makes at most as many requests as there are in the script. -/
theorem follows_requests {cs : List Call} {tr : List Ev} (h : Follows cs tr) : (requests tr).length ≤ (cs.filter Call.expectsResponse).length := by
  induction h with
  | stop => simp [requests]
  | refused => simp [requests]
  | handed c cs t => by_cases hx : c.expectsResponse <;> simp [requests, hx]
  | failed c cs t e => by_cases hx : c.expectsResponse <;> simp [requests, hx]
  | done c cs t r tr h ih =>
    by_cases hx : c.expectsResponse
    · simpa [requests, hx] using ih
    · simpa [requests, hx] using ih

/-- A `connect` makes at most five requests. -/
theorem C133_at_most_five {cfg : World.Cfg T} {acts : List App.Act} {log : List World.Act} {a : App.State T} (h : App.Run cfg acts log a)
    {j : Job} (hj : j ∈ a.jobs) (hm : (∃ b, j.made = .consumer b) ∨ ∃ b, j.made = .producer b) : (requests j.events).length ≤ 5 := by
  have hres : ∀ topic tgt, ((resolveScript topic tgt).filter Call.expectsResponse).length ≤ 4 := by
    intro topic tgt
    cases tgt with
    | none => exact (show (2 : Nat) ≤ 4 by omega)
    | some x => exact (show (4 : Nat) ≤ 4 by omega)
  cases kind h j hj with
  | missing _ _ ht => simp [Job.events, ht, requests]
  | consumer b name topic subscription hb hm' =>
    have := follows_requests (C40_consumer_order (connect_steps h hj (((start_of h j hj).1 b hm').1.trans (consumer_setup b hb.1 hb.2.1 hb.2.2))))
    have h4 := hres topic (target j.events)
    have h1 : ([Call.subscribe topic subscription, Call.flow (250 * 2)].filter Call.expectsResponse).length = 1 := rfl
    simp only [consumerScript, List.filter_append, List.length_append] at this
    omega
  | producer b name topic hb hm' =>
    have := follows_requests (C40_producer_order (connect_steps h hj (((start_of h j hj).2.1 b hm').1.trans (producer_setup b hb.1 hb.2))))
    have h4 := hres topic (target j.events)
    have h1 : ([Call.producer topic].filter Call.expectsResponse).length = 1 := rfl
    simp only [producerScript, List.filter_append, List.length_append] at this
    omega
  | call i p core evs hm' =>
    rcases hm with ⟨b, hm⟩ | ⟨b, hm⟩ <;> rw [hm'] at hm <;> cases hm

/-- A `connect` whose requests are all settled goes on: making steps of its own only, it ends, makes another request, or comes to wait for
the reply to its registration (before its first request). -/
theorem C133_goes_on {cfg : World.Cfg T} {acts : List App.Act} {log : List World.Act} {a : App.State T} (h : App.Run cfg acts log a)
    {k : Nat} {j : Job} (hk : a.jobs[k]? = some j) (hl : j.live = true) (hm : (∃ b, j.made = .consumer b) ∨ ∃ b, j.made = .producer b)
    (hd : ∀ t ∈ requests j.events, Sys.Done a.world.sys t) :
    ∃ n log' a' j', App.Run cfg (acts ++ List.replicate n (.run k)) log' a' ∧ a'.jobs[k]? = some j' ∧ j'.made = j.made ∧
      ((∃ o, j'.ended = some o) ∨ (requests j.events).length < (requests j'.events).length ∨ (j'.events = [] ∧ ∃ i, j'.Registers i)) := by
  obtain ⟨n, log', a', j', h', hk', hl', hm', hset⟩ := C120_returns h hk hl
  refine ⟨n, log', a', j', h', hk', hm', ?_⟩
  have hj' := List.mem_of_getElem? hk'
  rcases hset with hend | ⟨t, ⟨core, call, q, q', hp⟩, hu⟩ | ⟨i, hreg, _⟩
  · exact .inl hend
  · right; left
    obtain ⟨rfl, _⟩ := kind_ret (kind h' j' hj') hp
    obtain ⟨j'', g1, _, g3⟩ := stays h hk h'
    rw [hk'] at g1
    cases g1
    have sq : ∃ name topic p, j'.start = setup name topic p ∧ Sequential p none := by
      cases kind h' j' hj' with
      | missing hp' => rw [hp'] at hp; cases hp
      | consumer b name topic subscription hb hmm =>
        exact ⟨_, _, _, ((start_of h' j' hj').1 b hmm).1.trans (consumer_setup b hb.1 hb.2.1 hb.2.2), sequential_consumer _ _ _⟩
      | producer b name topic hb hmm =>
        exact ⟨_, _, _, ((start_of h' j' hj').2.1 b hmm).1.trans (producer_setup b hb.1 hb.2), sequential_producer _⟩
      | call i p core evs hmm =>
        rcases hm with ⟨b, hm⟩ | ⟨b, hm⟩ <;> rw [hm', hm] at hmm <;> cases hmm
    obtain ⟨name, topic, p, hst, hsq⟩ := sq
    obtain ⟨cur, hc1, hc2⟩ := within_waits (within_connect h' j' hj' name topic p hst core _ hp) hsq
    have ht := hc2 t hc1.1
    obtain ⟨rest, hrest⟩ := g3
    rw [← hrest, requests_append, List.length_append]
    cases hnew : requests rest with
    | cons x l => simp
    | nil =>
      rw [← hrest, requests_append, hnew, List.append_nil] at ht
      obtain ⟨res, hres⟩ := hd t ht
      exact absurd ((outcomes_later h h').subset hres) (hu res)
  · right; right
    refine ⟨?_, i, hreg⟩
    obtain ⟨hc, topic, id, q, hp⟩ := hreg
    cases kind h' j' hj' with
    | missing hp' => rw [hp'] at hp; cases hp
    | call i p core evs hmm => rcases hm with ⟨b, hm⟩ | ⟨b, hm⟩ <;> rw [hm', hm] at hmm <;> cases hmm
    | consumer b name topic subscription hb hmm _ hs =>
      cases hs with
      | new _ _ ht => simp [Job.events, ht]
      | registering _ _ ht => simp [Job.events, ht]
      | refused _ _ _ ht => simp [Job.events, ht]
      | calls _ _ _ hp' => cases hp' with
        | over o hp' => rw [hp'] at hp; cases hp
        | running q hp' => rw [hp'] at hp; cases hp
    | producer b name topic hb hmm _ hs =>
      cases hs with
      | new _ _ ht => simp [Job.events, ht]
      | registering _ _ ht => simp [Job.events, ht]
      | refused _ _ _ ht => simp [Job.events, ht]
      | calls _ _ _ hp' => cases hp' with
        | over o hp' => rw [hp'] at hp; cases hp
        | running q hp' => rw [hp'] at hp; cases hp

end Neutron.Props
