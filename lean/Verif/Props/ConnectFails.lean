import Verif.Proof.AppSolo
import Verif.Props.AppCalls
import Verif.Props.Builder

/-!
# Why a `connect` fails: C132
-/

namespace Neutron.App

open Neutron World

variable {T : Type}

/-- The registration was refused only by an instance that has stopped. -/
def UnregisteredWhy (s : Sys.State) (j : Job) : Prop :=
  ∀ (topic : String) (id : UInt64) (e : NeutronError), SetupEv.registered topic id (.err e) ∈ j.trace → s.mode = .stopped

theorem unregistered_stopped {cfg : World.Cfg T} {acts : List Act} {log : List World.Act} {a : State T} (h : Run cfg acts log a) :
    ∀ j ∈ a.jobs, UnregisteredWhy a.world.sys j := by
  refine job_induct UnregisteredWhy ?_ ?_ ?_ (fun _ _ h => h) h
  · intro s a s' j hr hq hs topic id e hm
    exact Sys.stopped_step hs (hq topic id e hm)
  · intro s c hr hc topic id e hm
    cases c <;> simp [Start.job] at hm
  · intro s s' j as hr hq hl ha hs hq' topic id e hm
    have old : SetupEv.registered topic id (.err e) ∈ j.trace → s'.mode = .stopped := hq' topic id e
    unfold Job.after at hm
    split at hm
    · simp only [List.mem_append, List.mem_singleton, reduceCtorEq, or_false] at hm
      exact old hm
    · rename_i topic' id' k i hp hc
      split at hm
      · simp only [List.mem_append, List.mem_singleton, SetupEv.registered.injEq, reduceCtorEq, and_false, or_false] at hm
        exact old hm
      · rename_i hph
        simp only [Job.acts, hp, hc, Option.some.injEq] at ha
        subst ha
        have hst := sysSteps_one hs
        split at hst
        · cases Sys.step_cases hst with
          | sendRegFail _ _ _ _ hmode => exact hmode
          | sendReg => simp [Sys.State.setClient] at hph
        · cases Sys.step_cases hst with
          | recvReplyFail _ _ _ _ _ hmode => exact hmode
          | recvReply => simp [Sys.State.setClient] at hph
      · exact old hm
    · split at hm
      · exact old hm
      · simp only [List.mem_append, List.mem_singleton, reduceCtorEq, or_false] at hm
        exact old hm
    · split at hm
      · simp only [List.mem_append, List.mem_singleton, reduceCtorEq, or_false] at hm
        exact old hm
      · exact old hm
    · exact old hm
    · exact old hm

/-- A call that has ended was not dropped. -/
theorem ended_live {cfg : World.Cfg T} {acts : List Act} {log : List World.Act} {a : State T} (h : Run cfg acts log a) :
    ∀ j ∈ a.jobs, j.ended.isSome = true → j.live = true := by
  induction h with
  | nil => intro j hj; simp [init] at hj
  | @snoc as log a a' x h hs ih =>
    obtain ⟨hp, _, hj⟩ := step_some hs
    cases x with
    | world x => rw [hj]; exact ih
    | start c =>
      intro j hm _
      simp only [jobsAfter] at hj
      rw [hj] at hm
      rcases List.mem_append.mp hm with hm | hm
      · exact ih j hm ‹_›
      · simp only [List.mem_singleton] at hm
        subst hm
        cases c <;> rfl
    | run k =>
      intro j hm he
      simp only [jobsAfter] at hj
      obtain ⟨n, hn⟩ := List.getElem?_of_mem hm
      rw [hj, List.getElem?_modify] at hn
      cases hx : a.jobs[n]? with
      | none => simp [hx] at hn
      | some j0 =>
        simp only [hx, Option.map_eq_map, Option.map_some, Option.some.injEq] at hn
        split at hn
        · rename_i hkn
          subst hkn
          rw [← hn, (after_made _ _ j0).2.2.2.1]
          simp only [possible, hx, Bool.and_eq_true] at hp
          exact hp.1
        · subst hn; exact ih _ (List.mem_of_getElem? hx) he
    | drop k =>
      intro j hm he
      simp only [jobsAfter] at hj
      obtain ⟨n, hn⟩ := List.getElem?_of_mem hm
      rw [hj, List.getElem?_modify] at hn
      cases hx : a.jobs[n]? with
      | none => simp [hx] at hn
      | some j0 =>
        simp only [hx, Option.map_eq_map, Option.map_some, Option.some.injEq] at hn
        split at hn
        · rename_i hkn
          subst hkn
          simp only [possible, hx, Bool.and_eq_true, Option.isNone_iff_eq_none] at hp
          rw [← hn] at he
          have : j0.ended.isSome = true := he
          rw [hp.1.2] at this; cases this
        · subst hn; exact ih _ (List.mem_of_getElem? hx) he

/-- A request that had been made at an earlier moment was the same then. -/
theorem issued_then {cfg : World.Cfg T} {log log1 : List World.Act} {w w1 : World T} (h : World.Run cfg log w) (h1 : World.Run cfg log1 w1)
    (hp : log1 <+: log) {t : Nat} {x : Nat × Outbound} (hx : w.sys.issued[t]? = some x) (ho : Sys.Outstanding w1.sys t) :
    w1.sys.issued[t]? = some x := by
  have hlt := ho.1
  obtain ⟨l, rfl⟩ := hp
  have hs := run_steps_of h1 h
  have : w.sys.issued[t]? = some w1.sys.issued[t] := by
    refine worldSteps_induct (fun s => s.issued[t]? = some w1.sys.issued[t]) ?_ (List.getElem?_eq_getElem hlt) hs
    intro s a s' hx h1
    obtain ⟨l, hl⟩ := Sys.issued_step h1
    rw [← hl]; exact Sys.getElem?_append_some hx
  rw [hx] at this
  rw [List.getElem?_eq_getElem hlt, this]

end Neutron.App

namespace Neutron.Props

open Neutron Neutron.World Neutron.App Session

variable {T : Type}

/-- A script waits only for what it handed over. -/
theorem follows_waited {cs : List Call} {tr : List Ev} (h : Follows cs tr) {t : Nat} {c : Call} {r : Outcome Response}
    (hm : .waited t c r ∈ tr) : .handed c (.ok t) ∈ tr := by
  induction h with
  | stop | refused | handed => simp at hm
  | failed c' cs t' e =>
    simp only [List.mem_cons, reduceCtorEq, Ev.waited.injEq, List.not_mem_nil, or_false, false_or] at hm
    obtain ⟨rfl, rfl, _⟩ := hm
    simp
  | done c' cs t' r' tr h ih =>
    simp only [List.mem_cons, reduceCtorEq, Ev.waited.injEq, false_or] at hm
    rcases hm with ⟨rfl, rfl, _⟩ | hm
    · simp
    · have := ih hm
      simp [this]

theorem lookup_inb {c : Call} {inp : Option Inbound} {l : LookupTopicResponse} (h : c.resolve inp = .ok (.lookup l)) :
    (∃ topic, c = .lookupTopic topic) ∧ inp = some (.lookupTopicResponse l) := by
  cases inp with
  | none => cases h
  | some inb =>
    simp only [Call.resolve] at h
    cases ha : c.accept inb with
    | none => rw [ha] at h; cases h
    | some r =>
      rw [ha] at h
      cases h
      cases c <;> cases inb <;> simp [Call.accept] at ha
      exact ⟨⟨_, rfl⟩, by rw [ha]⟩

/-- The generic part: a `connect` that made a client, and the calls on it did not end well. -/
theorem connect_reason {cfg : World.Cfg T} {acts : List App.Act} {log : List World.Act} {a : App.State T} (h : App.Run cfg acts log a)
    {j : Job} (hj : j ∈ a.jobs) (hown : j.owns = true) {o : Outcome Unit} (he : j.ended = some o) (ho : o ≠ .ok ())
    {name topic : String} {p : Prog Unit}
    (hsq : Sequential p none) (hs : Stage name topic p j) (hst : j.start = setup name topic p) (hend : ∀ {tr}, Runs p tr o → ∃ script script', Ending script' topic tr o ∧ Follows script tr) :
    ∃ i, j.client = some i ∧ Reason cfg log a.world.sys i topic o := by
  have hp := ended_ret.mp he
  have hreach := App.reachable h
  cases hs with
  | new _ h' => rw [hp] at h'; cases h'
  | registering _ _ _ h' => rw [hp] at h'; cases h'
  | refused i hc h' ht =>
    rw [hp] at h'
    cases h'
    exact ⟨i, hc, .stopped (unregistered_stopped h j hj topic (UInt64.ofNat i) .channelTerminated (by rw [ht]; simp))⟩
  | calls i evs hc _ ht =>
    have hev : j.events = evs := events_of (pre := [_, _]) ht (by simp)
    have hr := runs_of h hj he
    rw [hst, ht] at hr
    have hr := setup_ran hr
    obtain ⟨_, script', he1, he2⟩ := hend hr
    refine ⟨i, hc, ?_⟩
    have fits : ∀ ev ∈ evs, Sys.Fits a.world.sys i ev := by
      intro ev hx
      refine (seen h j hj).events i hc (new i name) ev ?_
      rw [ht]
      exact List.mem_cons_of_mem _ (List.mem_cons_of_mem _ (List.mem_map.mpr ⟨_, hx, rfl⟩))
    have looked : ∀ l : LookupTopicResponse, lookups evs = [l] → calls evs = [.connect, .lookupTopic topic] →
        ToldOf cfg log a.world.sys i topic l.responseType := by
      intro l hl hcs
      have hm : l ∈ lookups evs := by rw [hl]; simp
      obtain ⟨ev, hevm, hx⟩ := List.mem_filterMap.mp hm
      split at hx
      · rename_i t c l'
        cases hx
        have hh := follows_waited he2 hevm
        obtain ⟨res, hres, hreq⟩ := fits _ hevm
        obtain ⟨⟨topic', rfl⟩, hi⟩ := lookup_inb hreq.symm
        have htop : topic' = topic := by
          have : Call.lookupTopic topic' ∈ calls evs := List.mem_filterMap.mpr ⟨_, hh, rfl⟩
          rw [hcs] at this
          simpa using this
        subst htop
        obtain ⟨core, hcore⟩ := fits _ hh rfl
        cases res with
        | cancelled => cases hi
        | resolved e =>
          simp only [Option.some.injEq] at hi
          obtain ⟨slog, hr, hreads⟩ := sys_log (run_world h)
          obtain ⟨b, inb, ⟨v, hv, hinb⟩, hadj, _⟩ := C20_from_broker hr hres
          obtain ⟨pre, post, ans, w', h1, h2, h3⟩ := hreads b _ hv
          have hl' : ∃ l', inb = .lookupTopicResponse l' ∧ l'.responseType = l.responseType := by
            rw [hi] at hadj
            rcases hadj with hadj | hadj
            · exact ⟨l, hadj.symm, rfl⟩
            · cases inb <;> simp [Sys.adjust] at hadj
              exact ⟨_, rfl, by rw [hadj]⟩
          obtain ⟨l', rfl, hty⟩ := hl'
          refine ⟨t, core, e, l, hcore, hres, hi, rfl, b, l', ⟨pre, ans, post, w', v, h1, h2, ?_, hinb⟩, hty⟩
          cases hp : (Framed.pollNext (w'.rx b).framed (w'.rx b).socket).1 with
          | item m => rw [hp] at h3; simp only [item, Option.some.injEq, Sys.Item.command.injEq] at h3; rw [h3.1]
          | pending | failed | ended | panicked => rw [hp] at h3; simp [item] at h3
      · cases hx
    cases he1 with
    | ok => exact absurd rfl ho
    | refused l hl hty hcs => exact .failed (hty ▸ looked l hl hcs)
    | redirected l hl hty hcs => exact .redirected (hty ▸ looked l hl hcs)
    | failed e hf =>
      unfold failure at hf
      split at hf
      · rename_i c e' hlast
        cases hf
        have hm := List.mem_of_getLast? hlast
        have := fits _ hm
        have : e = .channelTerminated := this
        subst this
        refine .stopped (refused_stopped h j hj (new i name) c .channelTerminated ?_)
        rw [ht]
        exact List.mem_cons_of_mem _ (List.mem_cons_of_mem _ (List.mem_map.mpr ⟨_, hm, rfl⟩))
      · rename_i t c e' hlast
        cases hf
        have hm := List.mem_of_getLast? hlast
        have hh := follows_waited he2 hm
        obtain ⟨res, hres, hreq⟩ := fits _ hm
        · have hx := sequential_waited hr hsq hm
          obtain ⟨core, hcore⟩ := fits _ hh hx
          cases res with
          | resolved ev =>
            obtain ⟨r, hok, _⟩ := C19_never_unresolvable hreach hres hcore hx
            rw [hok] at hreq; cases hreq
          | cancelled =>
            have : e = .channelTerminated := by cases hreq; rfl
            subst this
            rcases C118_request (run_world h) hres with hst | ⟨i', hd⟩
            · exact .stopped hst
            · refine .displaced t i' _ hcore hres ?_ hd
              rintro rfl
              obtain ⟨t', i0, out, out', d1, d2, d3, _, log1, w1, d4, d5, d6, d7⟩ := hd
              rw [hcore] at d2
              cases d2
              obtain ⟨cur, honly⟩ := (solo h j hj i' ⟨hown, hc, ended_live h j hj (by rw [he]; rfl), by rw [he]; exact fun h => ho (Option.some.inj h)⟩).ever log1 w1 d4 d5
              have e1 := honly t _ (issued_then (run_world h) d5 d4 hcore d6) d6
              have e2 := honly t' _ (issued_then (run_world h) d5 d4 d3 d7) d7
              rw [e1] at e2
              exact d1 (Option.some.inj e2).symm
      · cases hf

/-- **C132.**  A `connect` of a consumer that did not return `Ok` had a reason: a setting was missing (it panicked), or one of `Reason`.  (At
the moment it returns, "the instance has stopped" is not a consequence of the failure itself.) -/
theorem C132_consumer {cfg : World.Cfg T} {acts : List App.Act} {log : List World.Act} {a : App.State T} (h : App.Run cfg acts log a)
    {j : Job} (hj : j ∈ a.jobs) {b : ConsumerBuilder Unit} (hm : j.made = .consumer b) {o : Outcome Unit} (he : j.ended = some o)
    (ho : o ≠ .ok ()) :
    (o = .panic ∧ (b.consumerName = none ∨ b.topic = none ∨ b.subscription = none)) ∨
    ∃ i topic, j.client = some i ∧ b.topic = some topic ∧ Reason cfg log a.world.sys i topic o := by
  obtain ⟨hst, hown⟩ := (start_of h j hj).1 b hm
  cases kind h j hj with
  | missing hp _ _ hm' =>
    rw [ended_ret.mp he] at hp
    cases hp
    rcases hm' with ⟨b', h1, h2⟩ | ⟨b', h1, _⟩ <;> rw [hm] at h1 <;> cases h1
    exact .inl ⟨rfl, h2⟩
  | consumer b' name topic subscription hb hm' hn hs =>
    rw [hm] at hm'
    cases hm'
    right
    rw [consumer_setup b hb.1 hb.2.1 hb.2.2] at hst
    obtain ⟨i, h1, h2⟩ := connect_reason h hj hown he ho (sequential_consumer _ _ _) hs hst (fun hr => ⟨_, _, C40_consumer_result hr, C40_consumer_order (steps_of_runs hr)⟩)
    exact ⟨i, topic, h1, hb.2.1, h2⟩
  | producer b' name topic hb hm' => rw [hm] at hm'; cases hm'
  | call i p core evs hm' => rw [hm] at hm'; cases hm'

/-- The same for a producer. -/
theorem C132_producer {cfg : World.Cfg T} {acts : List App.Act} {log : List World.Act} {a : App.State T} (h : App.Run cfg acts log a)
    {j : Job} (hj : j ∈ a.jobs) {b : ProducerBuilder} (hm : j.made = .producer b) {o : Outcome Unit} (he : j.ended = some o)
    (ho : o ≠ .ok ()) :
    (o = .panic ∧ (b.producerName = none ∨ b.topic = none)) ∨
    ∃ i topic, j.client = some i ∧ b.topic = some topic ∧ Reason cfg log a.world.sys i topic o := by
  obtain ⟨hst, hown⟩ := (start_of h j hj).2.1 b hm
  cases kind h j hj with
  | missing hp _ _ hm' =>
    rw [ended_ret.mp he] at hp
    cases hp
    rcases hm' with ⟨b', h1, _⟩ | ⟨b', h1, h2⟩ <;> rw [hm] at h1 <;> cases h1
    exact .inl ⟨rfl, h2⟩
  | producer b' name topic hb hm' hn hs =>
    rw [hm] at hm'
    cases hm'
    right
    rw [producer_setup b hb.1 hb.2] at hst
    obtain ⟨i, h1, h2⟩ := connect_reason h hj hown he ho (sequential_producer _) hs hst (fun hr => ⟨_, _, C40_producer_result hr, C40_producer_order (steps_of_runs hr)⟩)
    exact ⟨i, topic, h1, hb.2, h2⟩
  | consumer b' name topic subscription hb hm' => rw [hm] at hm'; cases hm'
  | call i p core evs hm' => rw [hm] at hm'; cases hm'

/-- While a `connect` goes on, and after it failed, its client never had two requests outstanding at the same time. -/
theorem C132_one_at_a_time {cfg : World.Cfg T} {acts : List App.Act} {log : List World.Act} {a : App.State T} (h : App.Run cfg acts log a)
    {j : Job} (hj : j ∈ a.jobs) (hown : j.owns = true) (hl : j.live = true) {i : Nat} (hc : j.client = some i) (ho : j.ended ≠ some (.ok ()))
    {t t' : Nat} {out out' : Outbound} (ht : a.world.sys.issued[t]? = some (i, out)) (ht' : a.world.sys.issued[t']? = some (i, out'))
    (htog : Together cfg log t t') : t = t' := by
  obtain ⟨log1, w1, d4, d5, d6, d7⟩ := htog
  obtain ⟨cur, honly⟩ := (solo h j hj i ⟨hown, hc, hl, ho⟩).ever log1 w1 d4 d5
  have e1 := honly t _ (issued_then (run_world h) d5 d4 ht d6) d6
  have e2 := honly t' _ (issued_then (run_world h) d5 d4 ht' d7) d7
  rw [e1] at e2
  exact Option.some.inj e2

end Neutron.Props
