import Verif.Proof.AppOwn
import Verif.Props.Session
import Verif.Props.Calls
import Verif.Props.Requests

/-!
# The application's calls on the whole client: C113-
-/

namespace Neutron.Props

open Neutron Neutron.World Neutron.App Session

variable {T : Type}

/-! ## A successful `connect` -/

theorem _root_.Neutron.App.Answered.append {a b : List Ev} (ha : Answered a) (hb : Answered b) : Answered (a ++ b) := by
  induction ha with
  | nil => exact hb
  | call c t r evs h ih => exact .call c t r _ ih
  | flow n t evs h ih => exact .flow n t _ ih

theorem answered_call {c : Call} {tr : List Ev} {r : Response} (h : Runs (call c) tr (.ok r)) : Answered tr := by
  obtain ⟨t, i, rfl, _⟩ := runs_call_ok h
  exact .call c t r [] .nil

theorem answered_lookup {topic : String} {tr : List Ev} (h : Runs (lookupTopic topic) tr (.ok ())) : Answered tr := by
  unfold lookupTopic at h
  rcases runs_bind.mp h with ⟨tr1, tr2, r, rfl, h1, h2⟩ | ⟨e, _, he⟩ | ⟨_, he⟩
  · refine (answered_call h1).append ?_
    split at h2
    · split at h2
      · split at h2
        · rcases runs_bind.mp h2 with ⟨tr3, tr4, r, rfl, h3, h4⟩ | ⟨e, _, he⟩ | ⟨_, he⟩
          · refine (answered_call h3).append ?_
            rcases runs_bind.mp h4 with ⟨tr5, tr6, r, rfl, h5, h6⟩ | ⟨e, _, he⟩ | ⟨_, he⟩
            · rw [runs_pure] at h6
              obtain ⟨rfl, _⟩ := h6
              exact (answered_call h5).append .nil
            · cases he
            · cases he
          · cases he
          · cases he
        · rw [runs_pure] at h2; obtain ⟨rfl, _⟩ := h2; exact .nil
      · rw [runs_ret] at h2; obtain ⟨_, hx⟩ := h2; cases hx
      · rw [runs_ret] at h2; obtain ⟨_, hx⟩ := h2; cases hx
    · rw [runs_ret] at h2; obtain ⟨_, hx⟩ := h2; cases hx
  · cases he
  · cases he

theorem answered_producer {topic : String} {tr : List Ev} (h : Runs (producerConnect topic) tr (.ok ())) : Answered tr := by
  unfold producerConnect at h
  rcases runs_bind.mp h with ⟨tr1, tr2, r, rfl, h1, h2⟩ | ⟨e, _, he⟩ | ⟨_, he⟩
  · refine (answered_call h1).append ?_
    rcases runs_bind.mp h2 with ⟨tr3, tr4, r, rfl, h3, h4⟩ | ⟨e, _, he⟩ | ⟨_, he⟩
    · refine (answered_lookup h3).append ?_
      rcases runs_bind.mp h4 with ⟨tr5, tr6, r, rfl, h5, h6⟩ | ⟨e, _, he⟩ | ⟨_, he⟩
      · rw [runs_pure] at h6
        obtain ⟨rfl, _⟩ := h6
        exact (answered_call h5).append .nil
      · cases he
      · cases he
    · cases he
    · cases he
  · cases he
  · cases he

theorem answered_consumer {topic subscription : String} {permits : UInt32} {tr : List Ev}
    (h : Runs (consumerConnect topic subscription permits) tr (.ok ())) : Answered tr := by
  unfold consumerConnect at h
  rcases runs_bind.mp h with ⟨tr1, tr2, r, rfl, h1, h2⟩ | ⟨e, _, he⟩ | ⟨_, he⟩
  · refine (answered_call h1).append ?_
    rcases runs_bind.mp h2 with ⟨tr3, tr4, r, rfl, h3, h4⟩ | ⟨e, _, he⟩ | ⟨_, he⟩
    · refine (answered_lookup h3).append ?_
      rcases runs_bind.mp h4 with ⟨tr5, tr6, r, rfl, h5, h6⟩ | ⟨e, _, he⟩ | ⟨_, he⟩
      · refine (answered_call h5).append ?_
        rcases runs_bind.mp h6 with ⟨tr7, tr8, r, rfl, h7, h8⟩ | ⟨e, _, he⟩ | ⟨_, he⟩
        · rw [runs_pure] at h8
          obtain ⟨rfl, _⟩ := h8
          obtain ⟨rfl, h | ⟨t, ht⟩⟩ := runs_handOver.mp h7
          · cases h
          · rw [ht]; exact .flow _ t [] .nil
        · cases he
        · cases he
      · cases he
      · cases he
    · cases he
    · cases he
  · cases he
  · cases he

theorem _root_.Neutron.App.Answered.accepted {evs : List Ev} (h : Answered evs) : Accepted evs := by
  induction h with
  | nil => intro c e h; cases h
  | call c t r evs h ih => intro c' e hm; simp at hm; exact ih c' e hm
  | flow n t evs h ih => intro c' e hm; simp at hm; exact ih c' e hm

/-- The commands of a call all of which were answered: each was handed over and, if it has a response, waited for. -/
theorem _root_.Neutron.App.Answered.each {evs : List Ev} (h : Answered evs) : ∀ {pre post : List Call} {c : Call}, calls evs = pre ++ c :: post →
    c.expectsResponse = true → ∃ (epre epost : List Ev) (t : Nat) (r : Response),
      evs = epre ++ .handed c (.ok t) :: .waited t c (.ok r) :: epost ∧ calls epre = pre := by
  induction h with
  | nil => intro pre post c hc; simp [calls] at hc
  | call c0 t r evs h ih =>
    intro pre post c hc hx
    have hc0 : calls (.handed c0 (.ok t) :: .waited t c0 (.ok r) :: evs) = c0 :: calls evs := by simp [calls]
    rw [hc0] at hc
    cases pre with
    | nil =>
      simp only [List.nil_append, List.cons.injEq] at hc
      obtain ⟨rfl, _⟩ := hc
      exact ⟨[], evs, t, r, rfl, rfl⟩
    | cons p pre =>
      simp only [List.cons_append, List.cons.injEq] at hc
      obtain ⟨rfl, hc⟩ := hc
      obtain ⟨epre, epost, t', r', h1, h2⟩ := ih hc hx
      exact ⟨.handed c0 (.ok t) :: .waited t c0 (.ok r) :: epre, epost, t', r', by rw [h1]; rfl, by simp [calls] at h2 ⊢; exact h2⟩
  | flow n t evs h ih =>
    intro pre post c hc hx
    have hc0 : calls (.handed (.flow n) (.ok t) :: evs) = .flow n :: calls evs := by simp [calls]
    rw [hc0] at hc
    cases pre with
    | nil =>
      simp only [List.nil_append, List.cons.injEq] at hc
      obtain ⟨rfl, _⟩ := hc
      cases hx
    | cons p pre =>
      simp only [List.cons_append, List.cons.injEq] at hc
      obtain ⟨rfl, hc⟩ := hc
      obtain ⟨epre, epost, t', r', h1, h2⟩ := ih hc hx
      exact ⟨.handed (.flow n) (.ok t) :: epre, epost, t', r', by rw [h1]; rfl, by simp [calls] at h2 ⊢; exact h2⟩

/-- A response the engine resolved a request with came over a socket. -/
theorem arrived {cfg : World.Cfg T} {log : List World.Act} {w : World T} (h : World.Run cfg log w) {t : Nat} {e : Sys.Event}
    (ho : (t, Sys.TokResult.resolved e) ∈ w.sys.outcomes) {i : Nat} {out : Outbound} (hi : w.sys.issued[t]? = some (i, out)) :
    Accepts cfg log w.sys i out := by
  obtain ⟨slog, hr, hreads⟩ := sys_log h
  obtain ⟨b, inb, ⟨v, hv, hinb⟩, _, i', out', hi', ha⟩ := C20_from_broker hr ho
  rw [hi] at hi'
  cases hi'
  obtain ⟨pre, post, ans, w', h1, h2, h3⟩ := hreads b _ hv
  refine ⟨t, e, b, inb, hi, ho, ⟨pre, ans, post, w', v, h1, h2, ?_, hinb⟩, ha⟩
  cases hp : (Framed.pollNext (w'.rx b).framed (w'.rx b).socket).1 with
  | item m => rw [hp] at h3; simp only [item, Option.some.injEq, Sys.Item.command.injEq] at h3; rw [h3.1]
  | pending | failed | ended | panicked => rw [hp] at h3; simp [item] at h3

/-- The commands of an owning call that all got their answers. -/
theorem connected {cfg : World.Cfg T} {acts : List App.Act} {log : List World.Act} {a : App.State T} (h : App.Run cfg acts log a)
    {j : App.Job} (hj : j ∈ a.jobs) (ho : j.owns = true) {i : Nat} (hc : j.client = some i) (ha : Answered j.events) :
    App.Connected cfg log a.world.sys i j.name (calls j.events) := by
  obtain ⟨_, h2, h3⟩ := submitted_first h j hj ho i hc
  refine ⟨h2 ha.accepted, fun pre c post hs hx => ?_⟩
  obtain ⟨epre, epost, t, r, he, rfl⟩ := ha.each hs hx
  have hiss := h3 epre _ c t he hx
  have hw : Ev.waited t c (.ok r) ∈ j.events := by rw [he]; simp
  unfold Job.events at hw
  obtain ⟨sev, hsev, hx⟩ := List.mem_filterMap.mp hw
  cases sev with
  | allocated | registered => cases hx
  | did cl ev =>
    cases hx
    obtain ⟨res, ho, hres⟩ := (seen h j hj).events i hc cl _ hsev
    cases res with
    | cancelled => cases hres
    | resolved e => exact arrived (run_world h) ho hiss

theorem events_of {j : Job} {core : Client} {evs : List Ev} {pre : List SetupEv} (h : j.trace = pre ++ evs.map (.did core))
    (hp : ∀ ev ∈ pre, ∀ c e, ev ≠ .did c e) : j.events = evs := by
  have h1 : ∀ l : List Ev, List.filterMap (fun ev => match ev with
      | SetupEv.did _ ev => some ev
      | _ => none) (l.map (SetupEv.did core)) = l := by
    intro l
    induction l with
    | nil => rfl
    | cons x l ih => simp only [List.map_cons, List.filterMap_cons, ih]
  have h2 : ∀ l : List SetupEv, (∀ ev ∈ l, ∀ c e, ev ≠ .did c e) → List.filterMap (fun ev => match ev with
      | SetupEv.did _ ev => some ev
      | _ => none) l = [] := by
    intro l hl
    induction l with
    | nil => rfl
    | cons x l ih =>
      cases x with
      | did c e => exact absurd rfl (hl _ (by simp) c e)
      | allocated | registered => simp only [List.filterMap_cons]; exact ih (fun ev hev => hl ev (by simp [hev]))
  unfold Job.events
  rw [h, List.filterMap_append]
  have := h1 evs
  have := h2 pre hp
  simp_all

theorem start_of {cfg : World.Cfg T} {acts : List App.Act} {log : List World.Act} {a : App.State T} (h : App.Run cfg acts log a) :
    ∀ j ∈ a.jobs, (∀ b, j.made = .consumer b → j.start = void b.connect ∧ j.owns = true) ∧
      (∀ b, j.made = .producer b → j.start = void b.connect ∧ j.owns = true) ∧
      (∀ i p, j.made = .call i p → j.owns = false) := by
  refine job_induct (fun _ j => (∀ b, j.made = .consumer b → j.start = void b.connect ∧ j.owns = true) ∧
      (∀ b, j.made = .producer b → j.start = void b.connect ∧ j.owns = true) ∧
      (∀ i p, j.made = .call i p → j.owns = false)) (fun _ _ _ _ _ h _ => h) ?_ ?_ (fun _ _ h => h) h
  · intro s c _ _
    cases c <;> refine ⟨?_, ?_, ?_⟩ <;> intros <;> rename_i hx <;> simp only [Start.job] at hx ⊢ <;> cases hx <;> simp
  · intro s s' j as _ hq _ _ _ _
    obtain ⟨m1, m2, m3, m4, m5⟩ := after_made s s' j
    rw [m1, m3, m5]
    exact hq

theorem did_inj {core : Client} {a b : List Ev} (h : a.map (SetupEv.did core) = b.map (SetupEv.did core)) : a = b := by
  induction a generalizing b with
  | nil => cases b with
    | nil => rfl
    | cons y b => cases h
  | cons x a ih => cases b with
    | nil => cases h
    | cons y b =>
      simp only [List.map_cons, List.cons.injEq, SetupEv.did.injEq, true_and] at h
      rw [h.1, ih h.2]

/-- A `connect` that ended, and had its client registered, ran the calls on it. -/
theorem setup_ran {name topic : String} {p : Prog Unit} {i : Nat} {evs : List Ev} {o : Outcome Unit}
    (h : (setup name topic p).Runs (.allocated (UInt64.ofNat i) :: .registered topic (UInt64.ofNat i) (.ok ()) ::
      evs.map (.did (new i name))) o) : Runs p evs o := by
  cases h with
  | newId _ _ _ _ hk =>
    cases hk with
    | register _ _ _ _ _ _ hr hk =>
      simp only [registered] at hk
      generalize htr : evs.map (SetupEv.did (new i name)) = tr at hk
      cases hk with
      | session _ _ _ evs' r tr' _ hp hk =>
        cases hk
        rw [List.append_nil] at htr
        rw [did_inj htr]
        exact hp

theorem setup_ok {cfg : World.Cfg T} {acts : List App.Act} {log : List World.Act} {a : App.State T} (h : App.Run cfg acts log a)
    {j : App.Job} (hj : j ∈ a.jobs) (he : j.ended = some (.ok ())) {name topic : String} {p : Prog Unit} (hs : Stage name topic p j)
    (hst : j.start = setup name topic p) : ∃ i, j.client = some i ∧ Runs p j.events (.ok ()) := by
  have hp := ended_ret.mp he
  cases hs with
  | new _ h' => rw [hp] at h'; cases h'
  | registering _ _ _ h' => rw [hp] at h'; cases h'
  | refused _ _ h' => rw [hp] at h'; cases h'
  | calls i evs hc _ ht =>
    have hev : j.events = evs := events_of (pre := [_, _]) ht (by simp)
    have hr := runs_of h hj he
    rw [hst, ht] at hr
    exact ⟨i, hc, by rw [hev]; exact setup_ran hr⟩

/-- **C113.**  A `connect` of a consumer that returned `Ok`: name, topic and subscription were set, and it made a client with that
name, whose first commands are the script of the guide (connect, look the topic up, connect through the proxy if told to, subscribe,
first permits), and a broker answered each command that has a response, with a response of the right kind that came over a socket. -/
theorem C113_consumer {cfg : World.Cfg T} {acts : List App.Act} {log : List World.Act} {a : App.State T} (h : App.Run cfg acts log a)
    {j : App.Job} (hj : j ∈ a.jobs) {b : ConsumerBuilder Unit} (hm : j.made = .consumer b) (he : j.ended = some (.ok ())) :
    ∃ name topic subscription i target, b.consumerName = some name ∧ b.topic = some topic ∧ b.subscription = some subscription ∧
      j.client = some i ∧ App.Connected cfg log a.world.sys i name (consumerScript topic subscription 250 target) := by
  obtain ⟨hst, hown⟩ := (start_of h j hj).1 b hm
  cases kind h j hj with
  | missing hp => rw [ended_ret.mp he] at hp; cases hp
  | producer _ _ _ _ hm' => rw [hm] at hm'; cases hm'
  | call _ _ _ _ hm' => rw [hm] at hm'; cases hm'
  | consumer b' name topic subscription hb hm' hn hs =>
    rw [hm] at hm'
    cases hm'
    rw [consumer_setup b hb.1 hb.2.1 hb.2.2] at hst
    obtain ⟨i, hc, hr⟩ := setup_ok h hj he hs hst
    have := connected h hj hown hc (answered_consumer hr)
    rw [hn] at this
    refine ⟨name, topic, subscription, i, target j.events, hb.1, hb.2.1, hb.2.2, hc, ?_⟩
    cases C40_consumer_result hr with
    | ok hcalls _ => rwa [hcalls] at this

/-- The same for producers. -/
theorem C113_producer {cfg : World.Cfg T} {acts : List App.Act} {log : List World.Act} {a : App.State T} (h : App.Run cfg acts log a)
    {j : App.Job} (hj : j ∈ a.jobs) {b : ProducerBuilder} (hm : j.made = .producer b) (he : j.ended = some (.ok ())) :
    ∃ name topic i target, b.producerName = some name ∧ b.topic = some topic ∧
      j.client = some i ∧ App.Connected cfg log a.world.sys i name (producerScript topic target) := by
  obtain ⟨hst, hown⟩ := (start_of h j hj).2.1 b hm
  cases kind h j hj with
  | missing hp => rw [ended_ret.mp he] at hp; cases hp
  | consumer _ _ _ _ _ hm' => rw [hm] at hm'; cases hm'
  | call _ _ _ _ hm' => rw [hm] at hm'; cases hm'
  | producer b' name topic hb hm' hn hs =>
    rw [hm] at hm'
    cases hm'
    rw [producer_setup b hb.1 hb.2] at hst
    obtain ⟨i, hc, hr⟩ := setup_ok h hj he hs hst
    have := connected h hj hown hc (answered_producer hr)
    rw [hn] at this
    refine ⟨name, topic, i, target j.events, hb.1, hb.2, hc, ?_⟩
    cases C40_producer_result hr with
    | ok hcalls _ => rwa [hcalls] at this

end Neutron.Props
