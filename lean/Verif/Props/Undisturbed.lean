import Verif.Proof.Owners
import Verif.Props.AutoAck

/-!
# Consumers with the auto-ack plugin in one instance (`examples/multi_consumer.rs`, `examples/consumer_plugins.rs`): C150
-/

namespace Neutron.Consumer

variable {T : Type}

/-- A `next_message` of a consumer whose messages can all be decoded returns a message, while the engine is there. -/
theorem all_next_good (cfg : Cfg T) :
    All False (fun m => ∀ o ∈ yields cfg.decode m, ∃ y, o = .ok y) (fun o => ∃ y, o = .ok [y]) True (nextMessage cfg) := by
  apply all_checkAndFlow _ _ (fun h => h.elim)
  intro b
  cases b with
  | cons m rest => exact ⟨m, rfl⟩
  | nil =>
    refine ⟨trivial, fun m hm => ?_, fun h => h.elim⟩
    rcases unpack_yields cfg.decode m with ⟨r, rs, h1, h2⟩ | ⟨h1, h2⟩ | ⟨h1, h2⟩ | ⟨h1, h2⟩
    · simp [h1, All]
    all_goals
      exfalso
      replace hm : ∀ o ∈ yields cfg.decode m, ∃ y, o = .ok y := hm
      rw [h2.1] at hm
      obtain ⟨y, hy⟩ := hm _ (List.mem_singleton_self _)
      cases hy

/-- The stage of a `consume` that has not ended, one step on. -/
theorem consume_step {cfg : Cfg T} {s s' : State T} {a : Act} (hs : Step cfg s a s') {i : Nat} {t : Task T} (ht : s.tasks[i]? = some t)
    (hj : t.job = .consume) (he : t.stage ≠ .ended) (hopen : s.isOpen = true)
    (hret : ∀ o, t.stage = .running (.ret o) → ∃ y, o = .ok [y]) (hcan : a ≠ .cancel i)
    (hoff : ∀ y p r, t.stage = .offering y p → p < cfg.plugins → a = .offer i r → r = .ok ()) :
    ∃ t', s'.tasks[i]? = some t' ∧ t'.job = .consume ∧ t'.stage ≠ .ended := by
  by_cases hr : a = .run i ∨ a = .refuse i ∨ ∃ r, a = .offer i r
  · have key : ∀ {st : Stage T}, st ≠ .ended → ∃ t', (s.goto i t st).tasks[i]? = some t' ∧ t'.job = .consume ∧ t'.stage ≠ .ended :=
      fun {st} h => ⟨_, upd_self ht, hj, h⟩
    cases hs with
    | deliver | close | spawn => simp at hr
    | ret i' t' ht' o hc =>
      obtain rfl : i' = i := by simpa using hr
      rw [ht] at ht'; cases ht'
      obtain ⟨y, rfl⟩ := hret o hc
      exact key (st := after t.job _) (by rw [hj]; simp [after])
    | skip i' t' ht' k hc e q hq =>
      exact ⟨t, ht, hj, he⟩
    | gone i' t' ht' k hc hq ho => rw [hopen] at ho; cases ho
    | refuse i' t' ht' n k hc ho => rw [hopen] at ho; cases ho
    | rejected i' t' ht' m k hc hk r hr' =>
      obtain rfl : i = i' := by
        rcases hr with hr | hr | ⟨r, hr⟩ <;> cases hr
        rfl
      rw [ht] at ht'; cases ht'
      exact absurd (hoff m k r hc hk rfl) hr'
    | cancel => simp at hr
    | accepted i' t' ht' m k hc hk =>
      obtain rfl : i = i' := by
        rcases hr with hr | hr | ⟨r, hr⟩ <;> cases hr
        rfl
      rw [ht] at ht'; cases ht'
      exact key (by simp)
    | load i' t' ht' k hc =>
      obtain rfl : i' = i := by simpa using hr
      rw [ht] at ht'; cases ht'
      exact key (by simp)
    | store i' t' ht' n k hc =>
      obtain rfl : i' = i := by simpa using hr
      rw [ht] at ht'; cases ht'
      exact key (by simp)
    | add i' t' ht' n k hc =>
      obtain rfl : i' = i := by simpa using hr
      rw [ht] at ht'; cases ht'
      exact key (by simp)
    | flow i' t' ht' n k hc ho =>
      obtain rfl : i' = i := by simpa using hr
      rw [ht] at ht'; cases ht'
      exact key (by simp)
    | lock i' t' ht' k hc hh =>
      obtain rfl : i' = i := by simpa using hr
      rw [ht] at ht'; cases ht'
      exact key (by simp)
    | write i' t' ht' b k hc =>
      obtain rfl : i' = i := by simpa using hr
      rw [ht] at ht'; cases ht'
      exact key (by simp)
    | recv i' t' ht' k hc m q hq =>
      obtain rfl : i' = i := by simpa using hr
      rw [ht] at ht'; cases ht'
      exact key (by simp)
    | plugins i' t' ht' m hc hh =>
      obtain rfl : i' = i := by simpa using hr
      rw [ht] at ht'; cases ht'
      exact key (by simp)
    | loop i' t' ht' m k hc hk =>
      obtain rfl : i' = i := by simpa using hr
      rw [ht] at ht'; cases ht'
      exact key (by simp)
  · refine ⟨t, other_task hs ht (fun e => hr (.inl e)) (fun e => hr (.inr (.inl e))) (fun r e => hr (.inr (.inr ⟨r, e⟩))) hcan, hj, he⟩

end Neutron.Consumer

namespace Neutron.Props

open Neutron Neutron.App Neutron.World Neutron.Sys Session

variable {T : Type}

/-- The moments of the instance's history are moments of the execution. -/
theorem moments {cfg : World.Cfg T} {σ : Nat → App.State T} {acts : Nat → App.Act} (h : App.Forever cfg σ acts) (n : Nat) :
    ∃ as log, App.Run cfg as log (σ n) ∧ ∀ log1 w1, log1 <+: log → World.Run cfg log1 w1 → ∃ m, m ≤ n ∧ w1 = (σ m).world := by
  induction n with
  | zero =>
    rw [h.start]
    refine ⟨[], [], .nil, fun log1 w1 hl hr => ⟨0, Nat.le_refl _, ?_⟩⟩
    rw [List.prefix_nil] at hl
    subst hl
    rw [h.start]
    exact World.run_unique hr .nil
  | succ n ih =>
    obtain ⟨as, log, hr, hall⟩ := ih
    have hs := h.steps n
    refine ⟨_, _, .snoc hr hs, fun log1 w1 hl hw => ?_⟩
    have old : log1 <+: log → ∃ m, m ≤ n + 1 ∧ w1 = (σ m).world := fun hl => by
      obtain ⟨m, h1, h2⟩ := hall log1 w1 hl hw
      exact ⟨m, by omega, h2⟩
    rcases induced_small (step_some hs).1 with hi | ⟨y, hi⟩
    · rw [hi, List.append_nil] at hl
      exact old hl
    · rw [hi] at hl
      rcases List.prefix_concat_iff.mp hl with rfl | hl
      · have hw' := run_world (App.Run.snoc hr hs)
        rw [hi] at hw'
        exact ⟨n + 1, Nat.le_refl _, World.run_unique hw hw'⟩
      · exact old hl

theorem issued_between {cfg : World.Cfg T} {σ : Nat → App.State T} {acts : Nat → App.Act} (h : App.Forever cfg σ acts) {n m : Nat} (hnm : n ≤ m) :
    (sysOf σ n).issued <+: (sysOf σ m).issued := by
  have key : ∀ {s s' : Sys.State} {as : List Sys.Act}, Continues cfg.sys s as s' → s.issued <+: s'.issued := by
    intro s s' as hp
    induction hp with
    | nil => exact List.prefix_rfl
    | snoc _ hs _ ih => exact ih.trans (Sys.issued_step hs)
  exact key (continues_to (app_forever h) hnm)

/-- Every call has been made at some time. -/
theorem made_when {cfg : World.Cfg T} {σ : Nat → App.State T} {acts : Nat → App.Act} (h : App.Forever cfg σ acts) {k n : Nat} {j : Job}
    (hk : (σ n).jobs[k]? = some j) : ∃ m, m < n ∧ acts m = .start j.made ∧ (σ m).jobs.length = k := by
  induction n generalizing j with
  | zero => rw [h.start] at hk; simp [App.init] at hk
  | succ n ih =>
    cases hk0 : (σ n).jobs[k]? with
    | some j0 =>
      obtain ⟨j1, h1, h2⟩ := job_kept (h.steps n) hk0
      rw [hk] at h1; cases h1
      obtain ⟨m, g1, g2, g3⟩ := ih hk0
      exact ⟨m, by omega, by rw [h2]; exact g2, g3⟩
    | none =>
      have hs := h.steps n
      obtain ⟨_, _, hj⟩ := step_some hs
      rw [hj] at hk
      cases hx : acts n with
      | world y => rw [hx] at hk; simp only [jobsAfter] at hk; rw [hk0] at hk; cases hk
      | run k' => rw [hx] at hk; simp [jobsAfter, List.getElem?_modify, hk0] at hk
      | drop k' => rw [hx] at hk; simp [jobsAfter, List.getElem?_modify, hk0] at hk
      | start c =>
        rw [hx] at hk
        have hlen : k = (σ n).jobs.length := by
          have h1 := (List.getElem?_eq_some_iff.mp hk).1
          simp only [jobsAfter, List.length_append, List.length_singleton] at h1
          have h2 := List.getElem?_eq_none_iff.mp hk0
          omega
        obtain ⟨j1, g1, g2, _⟩ := ack_job h hx hlen.symm
        rw [hj, hx, hk] at g1
        cases g1
        exact ⟨n, by omega, by rw [hx, g2], hlen.symm⟩

/-- A call that has returned has returned later, too. -/
theorem ended_to {cfg : World.Cfg T} {σ : Nat → App.State T} {acts : Nat → App.Act} (h : App.Forever cfg σ acts) {k n m : Nat} (hnm : n ≤ m)
    {j : Job} (hk : (σ n).jobs[k]? = some j) {o : Outcome Unit} (he : j.ended = some o) :
    ∃ j', (σ m).jobs[k]? = some j' ∧ j'.ended = some o := by
  induction m with
  | zero => obtain rfl : n = 0 := by omega
            exact ⟨j, hk, he⟩
  | succ m ih =>
    by_cases hx : n = m + 1
    · subst hx; exact ⟨j, hk, he⟩
    · obtain ⟨j1, h1, h2⟩ := ih (by omega)
      have hs := h.steps m
      by_cases hr : acts m = .run k
      · rw [hr] at hs
        rw [(step_some hs).2.2]
        exact ⟨_, by simp [jobsAfter, h1]; rfl, by rw [after_ret (ended_ret.mp h2)]; exact h2⟩
      · by_cases hd : acts m = .drop k
        · rw [hd] at hs
          rw [(step_some hs).2.2]
          exact ⟨{ j1 with live := false }, by simp [jobsAfter, h1], h2⟩
        · exact ⟨j1, job_same hs h1 hr hd, h2⟩

/-- An `ack` makes at most one request, and while it is making it, it has made none. -/
theorem ack_requests {id : MessageId} {evs : List Ev} {q : Prog Unit} (h : Within (Session.ack id) evs q) :
    (requests evs).length ≤ 1 ∧ ((∃ c k, q = .hand c k) → requests evs = []) := by
  refine ⟨?_, ?_⟩
  · induction h with
    | here => simp [requests]
    | @hand evs c k r h ih =>
      rcases within_call (c := .ack id) h with ⟨rfl, _⟩ | ⟨t, k, _, h1, _⟩ | ⟨o, h1⟩
      · rw [requests_append]
        cases r with
        | ok t => cases hx : c.expectsResponse <;> simp [requests, hx]
        | err e => simp [requests]
        | panic => simp [requests]
      · cases h1
      · cases h1
    | wait r h ih => rw [requests_append]; simpa [requests] using ih
  · rintro ⟨c, k, rfl⟩
    rcases within_call (c := .ack id) h with ⟨rfl, _⟩ | ⟨t, k, _, h1, _⟩ | ⟨o, h1⟩
    · rfl
    · cases h1
    · cases h1

theorem ack_one {cfg : World.Cfg T} {as : List App.Act} {log : List World.Act} {a : App.State T} (h : App.Run cfg as log a) {j : Job}
    (hj : j ∈ a.jobs) {i : Nat} {id : MessageId} (hm : j.made = .call i (Session.ack id)) {t t' : Nat} (h1 : Owns j t) (h2 : Owns j t') : t = t' := by
  have key : ∀ {q}, Within (Session.ack id) j.events q → (∀ tok, j.handing = some tok → ∃ c k, q = .hand c k) → t = t' := by
    intro q hw hq
    obtain ⟨g1, g2⟩ := ack_requests hw
    cases hh : j.handing with
    | some tok =>
      have := g2 (hq tok hh)
      unfold Owns at h1 h2
      rw [this, hh] at h1 h2
      simp only [List.not_mem_nil, Option.some.injEq, false_or] at h1 h2
      rw [h1] at h2
      exact Option.some.inj h2
    | none =>
      unfold Owns at h1 h2
      simp only [hh, reduceCtorEq, or_false] at h1 h2
      revert g1 h1 h2
      generalize requests j.events = l
      intro g1 h1 h2
      match l, g1 with
      | [], _ => cases h1
      | [x], _ => simp only [List.mem_singleton] at h1 h2; rw [h1, h2]
  obtain ⟨_, ⟨core, q, hp, hw⟩ | ⟨o, hp, hw⟩⟩ := within h j hj i _ hm
  · refine key hw fun tok ht => ?_
    obtain ⟨_, core', call, k, _, g2, _⟩ := handing_ok h j hj tok ht
    rw [hp] at g2
    cases g2
    exact ⟨_, _, rfl⟩
  · refine key hw fun tok ht => ?_
    obtain ⟨_, core', call, k, _, g2, _⟩ := handing_ok h j hj tok ht
    rw [hp] at g2
    cases g2

/-- The request of an `ack` that has returned has been answered or given up. -/
theorem ack_answered {cfg : World.Cfg T} {as : List App.Act} {log : List World.Act} {a : App.State T} (h : App.Run cfg as log a) {j : Job}
    (hj : j ∈ a.jobs) {i : Nat} {id : MessageId} (hm : j.made = .call i (Session.ack id)) {o : Outcome Unit} (he : j.ended = some o) {t : Nat}
    (ho : Owns j t) : ¬ Sys.Outstanding a.world.sys t := by
  obtain ⟨_, hr, hf⟩ := call_ran h hj hm he
  have ht : t ∈ requests j.events := by
    rcases ho with ho | ho
    · exact ho
    · obtain ⟨_, core', call, k, _, g2, _⟩ := handing_ok h j hj _ ho
      rw [ended_ret.mp he] at g2
      cases g2
  have key : ∀ {x}, Runs (Session.call (.ack id)) j.events x → ¬ Sys.Outstanding a.world.sys t := by
    intro x hr hout
    rcases runs_call.mp hr with ⟨hev, _⟩ | ⟨u, inp, hev, _⟩
    · rw [hev] at ht; simp [requests] at ht
    · have hu : t = u := by rw [hev] at ht; simpa [requests, Call.expectsResponse] using ht
      subst hu
      obtain ⟨res, hres, _⟩ := hf (.waited t (.ack id) (Call.resolve (.ack id) inp)) (by rw [hev]; simp)
      exact hout.2 res hres
  rcases runs_bind.mp (show Runs (do let _ ← Session.call (.ack id); pure () : Prog Unit) j.events o from hr) with
    ⟨tr1, tr2, r, hev, h1, h2⟩ | ⟨e, hx, _⟩ | ⟨hp, _⟩
  · rw [runs_pure] at h2
    obtain ⟨rfl, rfl⟩ := h2
    rw [List.append_nil] at hev
    rw [← hev] at h1
    exact key h1
  · exact key hx
  · exact (runs_call_panic hp).elim

/-- **C150.** If `ack` is called in turn throughout the instance, two acknowledgements are never outstanding at the same time. -/
theorem C150_in_turn {cfg : World.Cfg T} {σ : Nat → App.State T} {acts : Nat → App.Act} (h : App.Forever cfg σ acts)
    (hm : ∀ n, (sysOf σ n).mode ≠ .stopped) (hof : ∀ n, App.Offers (σ n)) (hturn : AcksInTurn σ acts) {n t t' i i' : Nat} {acks acks' : List Ack}
    (h1 : (sysOf σ n).issued[t]? = some (i, .ack acks)) (h2 : (sysOf σ n).issued[t']? = some (i', .ack acks'))
    (o1 : Sys.Outstanding (sysOf σ n) t) (o2 : Sys.Outstanding (sysOf σ n) t') : t = t' := by
  obtain ⟨as, log, hrun⟩ := run_at h n
  have hall : ∀ j ∈ (σ n).jobs, ∀ i ids, j.made ≠ .call i (Session.ackAll ids) := by
    intro j hj i ids e
    obtain ⟨k, hk⟩ := List.getElem?_of_mem hj
    obtain ⟨m, _, g, _⟩ := made_when h hk
    exact hturn.1 m i ids (by rw [g, e])
  obtain ⟨k, j, hk, ho⟩ := owners hrun (hm n) t o1.1
  obtain ⟨k', j', hk', ho'⟩ := owners hrun (hm n) t' o2.1
  have hj := List.mem_of_getElem? hk
  have hj' := List.mem_of_getElem? hk'
  obtain ⟨c, id, hmade⟩ := ack_owner hrun (hof n) hall hj ho h1
  obtain ⟨c', id', hmade'⟩ := ack_owner hrun (hof n) hall hj' ho' h2
  -- the earlier of two calls has returned
  have key : ∀ {k k' : Nat} {j j' : Job} {c c' : Nat} {id id' : MessageId}, (σ n).jobs[k]? = some j → (σ n).jobs[k']? = some j' → k < k' →
      j.made = .call c (Session.ack id) → j'.made = .call c' (Session.ack id') → j.ended ≠ none := by
    intro k k' j j' c c' id id' hk hk' hlt hmade hmade'
    obtain ⟨m, g1, g2, g3⟩ := made_when h hk'
    rw [hmade'] at g2
    obtain ⟨j0, e0⟩ : ∃ j0, (σ m).jobs[k]? = some j0 := ⟨_, List.getElem?_eq_getElem (by omega)⟩
    obtain ⟨j1, e1, e2⟩ := made_to h (by omega : m ≤ n) e0
    rw [hk] at e1
    cases e1
    have hend := hturn.2 m c' id' g2 j0 (List.mem_of_getElem? e0) ⟨c, id, by rw [← e2]; exact hmade⟩
    obtain ⟨o, ho⟩ := Option.ne_none_iff_exists'.mp hend
    obtain ⟨j2, f1, f2⟩ := ended_to h (by omega : m ≤ n) e0 ho
    rw [hk] at f1
    cases f1
    rw [f2]
    simp
  rcases Nat.lt_trichotomy k k' with hlt | rfl | hlt
  · obtain ⟨o, he⟩ := Option.ne_none_iff_exists'.mp (key hk hk' hlt hmade hmade')
    exact absurd o1 (ack_answered hrun hj hmade he ho)
  · rw [hk] at hk'
    cases hk'
    exact ack_one hrun hj hmade ho ho'
  · obtain ⟨o, he⟩ := Option.ne_none_iff_exists'.mp (key hk' hk hlt hmade' hmade)
    exact absurd o2 (ack_answered hrun hj' hmade' he ho')

/-- **C150.** The auto-ack plugin refuses a message for one reason only, as long as the instance runs: its `ack` was outstanding together
with another one, of this or another consumer of the instance. -/
theorem C150_refusal {cfg : World.Cfg T} {σ : Nat → App.State T} {acts : Nat → App.Act} (h : App.Forever cfg σ acts)
    (hm : ∀ n, (sysOf σ n).mode ≠ .stopped) {p : Nat} (hA : AutoAcks cfg σ acts p) {i n : Nat} {y : Consumer.Received T} {r : Outcome Unit}
    (hin : InPlugin (σ n) i p y) (ha : acts n = .world (.app (.offer i r))) (hr : r ≠ .ok ()) :
    r = .err .channelTerminated ∧ ∃ m t t' i' core acks', m ≤ n ∧ t ≠ t' ∧
      (sysOf σ m).issued[t]? = some (cfg.me, (Client.issue core (.ack y.ack)).2) ∧ (sysOf σ m).issued[t']? = some (i', .ack acks') ∧
      Sys.Outstanding (sysOf σ m) t ∧ Sys.Outstanding (sysOf σ m) t' := by
  obtain ⟨k, j, ⟨n', hn', hst, hlen, _⟩, hk, he⟩ := hA.result n i y r hin ha
  obtain ⟨j0, hj0, hmade, _⟩ := ack_job h hst hlen
  have hn1 : n' + 1 ≤ n := by
    rcases Nat.lt_or_ge n' n with hx | hx
    · exact hx
    · obtain rfl : n' = n := by omega
      have := (List.getElem?_eq_some_iff.mp hk).1
      omega
  obtain ⟨j1, hj1, hm1⟩ := made_to h hn1 hj0
  rw [hk] at hj1
  cases hj1
  obtain ⟨as, log, hrun, hmom⟩ := moments h n
  have hj := List.mem_of_getElem? hk
  have hmade' := hm1.trans hmade
  obtain ⟨e1, e2⟩ := C118_ack hrun hj hmade' he hr
  refine ⟨e1, ?_⟩
  rcases e2 with e2 | ⟨t, t', i', acks', hh, hne, hi', log1, w1, hl, hw, o1, o2⟩
  · exact absurd e2 (hm n)
  · obtain ⟨core, hc⟩ := (call_ran hrun hj hmade' he).2.2 _ hh rfl
    obtain ⟨m, hmn, rfl⟩ := hmom log1 w1 hl hw
    have hpre := (issued_between h hmn)
    have back : ∀ {u : Nat} {x : Nat × Outbound}, u < (sysOf σ m).issued.length → (sysOf σ n).issued[u]? = some x → (sysOf σ m).issued[u]? = some x := by
      intro u x hu hx
      obtain ⟨l, hl⟩ := hpre
      rw [← hl, List.getElem?_append_left hu] at hx
      exact hx
    exact ⟨m, t, t', i', core, acks', hmn, hne.symm, back o1.1 hc, back o2.1 hi', o1, o2⟩

theorem delivered_in {cfg : World.Cfg T} {σ : Nat → App.State T} {acts : Nat → App.Act} (h : App.Forever cfg σ acts)
    (hm : ∀ n, (σ n).world.sys.mode ≠ .stopped) {n : Nat} {x : Message}
    (hx : x ∈ Consumer.delivered (Consumer.history [] (onConsumer σ acts) n)) : x ∈ received (sysOf σ n) cfg.me := by
  by_cases hi : cfg.me < (σ n).world.sys.nClients
  · rw [← delivered_received h hm hi]; exact hx
  · exfalso
    obtain ⟨as, log, hr⟩ := run_at h n
    obtain ⟨log', appLog, hp⟩ := proj (run_world hr)
    have h1 := Consumer.received_delivered ((consumer_forever h hm).run n)
    have h2 := Consumer.received_delivered hp.app
    obtain ⟨e1, e2⟩ := Sys.blank (App.reachable hr) cfg.me (by omega)
    rw [← h1, h2, hp.delivered, e1, e2] at hx
    cases hx

/-- **C150.** As long as the instance runs, a `consume` whose plugins are auto-ack plugins or never refuse, and which gets only messages
that can be decoded, goes on until it is dropped, if `ack` is called in turn throughout the instance. -/
theorem C150_goes_on {cfg : World.Cfg T} {σ : Nat → App.State T} {acts : Nat → App.Act} (h : App.Forever cfg σ acts)
    (hm : ∀ n, (sysOf σ n).mode ≠ .stopped) (hof : ∀ n, App.Offers (σ n)) (hturn : AcksInTurn σ acts)
    (hpl : ∀ p, p < cfg.app.plugins → AutoAcks cfg σ acts p ∨ NeverRefuses σ acts p)
    (hdec : ∀ n, ∀ x ∈ received (sysOf σ n) cfg.me, ∀ o ∈ Consumer.yields cfg.app.decode x, ∃ y, o = .ok y) {i n : Nat}
    (hjob : (σ n).world.app.jobOf i = some .consume) (hal : (σ n).world.app.alive i) {m : Nat} (hnm : n ≤ m)
    (hcan : ∀ m', n ≤ m' → m' < m → acts m' ≠ .world (.app (.cancel i))) : (σ m).world.app.alive i := by
  have hF := consumer_forever h hm
  suffices hx : ∃ t, (σ m).world.app.tasks[i]? = some t ∧ t.job = .consume ∧ t.stage ≠ .ended by
    obtain ⟨t, h1, _, h2⟩ := hx
    exact ⟨t, h1, h2⟩
  induction m, hnm using Nat.le_induction with
  | base =>
    obtain ⟨t, h1, h2⟩ := hal
    refine ⟨t, h1, ?_, h2⟩
    simpa [Consumer.State.jobOf, h1] using hjob
  | succ m hnm ih =>
    obtain ⟨t, ht, hj, he⟩ := ih fun m' h1 h2 => hcan m' h1 (by omega)
    have hopen : (σ m).world.app.isOpen = true := by
      obtain ⟨as, log, hr⟩ := run_at h m
      obtain ⟨l, _, hp⟩ := proj (run_world hr)
      rw [hp.isOpen]; exact end_open (hm m) _
    cases ha : onConsumer σ acts m with
    | none =>
      rw [hF.idle ha]
      exact ⟨t, ht, hj, he⟩
    | some a =>
      refine Consumer.consume_step (hF.act ha) ht hj he hopen (fun o ho => ?_) (fun e => ?_) (fun y p r hst hlt e => ?_)
      · have hal := Consumer.along_with (closed := False) (M := fun x => ∀ o ∈ Consumer.yields cfg.app.decode x, ∃ y, o = .ok y) (hF.run m)
          (fun x hx => hdec m x (delivered_in h hm hx)) (fun hc => Bool.noConfusion (hopen.symm.trans hc))
        have hl := hal.running i t _ ht ho
        rw [hj] at hl
        exact (Consumer.all_next_good cfg.app).leads hl
      · subst e
        exact hcan m hnm (by omega) (on_other ha (by simp))
      · subst e
        have hact := on_other ha (by simp)
        have hin : InPlugin (σ m) i p y := ⟨t, ht, hst⟩
        rcases hpl p hlt with hA | hN
        · refine Classical.byContradiction fun hr => ?_
          obtain ⟨_, m', u, u', i', core, acks', _, hne, g1, g2, g3, g4⟩ := C150_refusal h hm hA hin hact hr
          exact hne (C150_in_turn h hm hof hturn g1 g2 g3 g4)
        · exact hN m i y r hin hact

/-- **C150.** So the guarantee of C147 holds without assuming that the `consume` goes on: a consumer whose messages can all be decoded, and
whose one `consume` is not dropped, acknowledges every message that is read for it, with the auto-ack plugin and other plugins that
return `Ok`, if `ack` is called in turn throughout the instance and everybody does their part. -/
theorem C150_acknowledged {cfg : World.Cfg T} {σ : Nat → App.State T} {acts : Nat → App.Act} (h : App.Forever cfg σ acts)
    (hp : DoTheirPart cfg.sys (sysOf σ) (roundsOf cfg σ acts)) (hb : ∀ n, (sysOf σ n).nClients ≤ 2 ^ 64)
    (hfit : ∀ n, World.Fits (σ n).world) (hs : Served cfg σ acts cfg.me) (hof : ∀ n, App.Offers (σ n)) (hturn : AcksInTurn σ acts) {p : Nat}
    (hlt : p < cfg.app.plugins) (hA : AutoAcks cfg σ acts p)
    (hpl : ∀ p', p' < cfg.app.plugins → p' ≠ p → ComesBack σ acts p' ∧ NeverRefuses σ acts p')
    (hcalls : ∀ i, FairToReceiver cfg σ acts i) (hj : ∀ n, (σ n).world.app.tasks.map (·.job) <+: [.consume])
    (hcan : ∀ m, acts m ≠ .world (.app (.cancel 0))) {b : BrokerAddress} {n0 : Nat} (hat : ∀ m, n0 ≤ m → Attached cfg.me b (sysOf σ m))
    (hstarted : (σ n0).world.app.alive 0)
    (hdec : ∀ n, ∀ x ∈ received (sysOf σ n) cfg.me, ∀ o ∈ Consumer.yields cfg.app.decode x, ∃ y, o = .ok y) {n : Nat} (hn : n0 ≤ n) {x : Message}
    (hx : x ∈ received (sysOf σ n) cfg.me ++ underway (sysOf σ n) cfg.me b) {y : Consumer.Received T}
    (hy : .ok y ∈ Consumer.yields cfg.app.decode x) :
    Acknowledged cfg σ acts 0 p y ∧ Reaches σ fun v => IsAck v (UInt64.ofNat cfg.me) y.ack := by
  have hm := not_stopped (app_forever h) hp.loops
  have hjob : (σ n0).world.app.jobOf 0 = some .consume := by
    obtain ⟨t, h1, _⟩ := hstarted
    have h2 : ((σ n0).world.app.tasks.map (·.job))[0]? = some t.job := by rw [List.getElem?_map, h1]; rfl
    have h3 := hj n0
    revert h2 h3
    generalize (σ n0).world.app.tasks.map (·.job) = l
    intro h2 h3
    obtain ⟨l', hl'⟩ := h3
    cases l with
    | nil => cases h2
    | cons a l =>
      simp only [List.cons_append, List.cons.injEq] at hl'
      obtain ⟨rfl, _⟩ := hl'
      simp only [List.getElem?_cons_zero] at h2
      simp only [Consumer.State.jobOf, h1, Option.map_some]
      exact h2.symm
  refine C147_acknowledged h hp hb hfit hs hlt hA (fun p' h1 h2 => (hpl p' h1 h2).1) hcalls hj hat
    (fun m hm0 => C150_goes_on h hm hof hturn (fun p' h1 => ?_) hdec hjob hstarted hm0 fun m' _ _ => hcan m') hn hx hy
  by_cases he : p' = p
  · subst he; exact .inl hA
  · exact .inr (hpl p' h1 he).2

end Neutron.Props
