import Verif.Spec.Undisturbed
import Verif.Proof.AppPlace
import Verif.Proof.AutoAck

/-!
# Every request belongs to a call
-/

namespace Neutron

open Session Prog

/-- Other calls than `ack`. -/
def Plain (c : Call) : Prop := ∀ id, c ≠ .ack id

theorem OnlyHands.mono {α : Type} {P Q : Call → Prop} (hPQ : ∀ c, P c → Q c) {p : Prog α} (h : OnlyHands P p) : OnlyHands Q p := by
  induction p with
  | ret => exact trivial
  | hand c k ih => exact ⟨hPQ c h.1, fun r => ih r (h.2 r)⟩
  | wait t c k ih => exact fun r => ih r (h r)

/-- What a `connect` may hand over. -/
def SetupHands (P : Call → Prop) : Setup Unit → Prop
  | .ret _ => True
  | .newId k => ∀ id, SetupHands P (k id)
  | .register _ _ k => ∀ r, SetupHands P (k r)
  | .session _ p k => OnlyHands P p ∧ ∀ o, SetupHands P (k o)

theorem plain_lookup (topic : String) : OnlyHands Plain (lookupTopic topic) :=
  (onlyHands_lookup topic).mono (by rintro c (⟨x, rfl⟩ | ⟨x, rfl⟩) id h <;> cases h)

theorem plain_call {c : Call} (h : Plain c) : OnlyHands Plain (call c) := onlyHands_call h

theorem plain_handOver {c : Call} (h : Plain c) : OnlyHands Plain (handOver c) := by
  refine ⟨h, fun r => ?_⟩
  cases r <;> exact trivial

theorem plain_consumer (topic subscription : String) (n : UInt32) : OnlyHands Plain (consumerConnect topic subscription n) :=
  onlyHands_bind (plain_call (by intro id h; cases h)) fun _ => onlyHands_bind (plain_lookup topic) fun _ =>
    onlyHands_bind (plain_call (by intro id h; cases h)) fun _ => onlyHands_bind (plain_handOver (by intro id h; cases h)) fun _ => trivial

theorem plain_producer (topic : String) : OnlyHands Plain (producerConnect topic) :=
  onlyHands_bind (plain_call (by intro id h; cases h)) fun _ => onlyHands_bind (plain_lookup topic) fun _ =>
    onlyHands_bind (plain_call (by intro id h; cases h)) fun _ => trivial

theorem plain_setup {name topic : String} {p : Prog Unit} (h : OnlyHands Plain p) : SetupHands Plain (App.setup name topic p) := by
  intro id r
  unfold App.registered
  cases r with
  | ok _ => exact ⟨h, fun o => trivial⟩
  | err e => exact trivial
  | panic => exact trivial

theorem plain_connect_consumer (b : ConsumerBuilder Unit) : SetupHands Plain (App.void b.connect) := by
  cases hn : b.consumerName with
  | none => simp only [ConsumerBuilder.connect, hn]; exact trivial
  | some name =>
    cases ht : b.topic with
    | none => simp only [ConsumerBuilder.connect, hn, ht]; exact trivial
    | some topic =>
      cases hs : b.subscription with
      | none => simp only [ConsumerBuilder.connect, hn, ht, hs]; exact trivial
      | some subscription => rw [App.consumer_setup b hn ht hs]; exact plain_setup (plain_consumer _ _ _)

theorem plain_connect_producer (b : ProducerBuilder) : SetupHands Plain (App.void b.connect) := by
  cases hn : b.producerName with
  | none => simp only [ProducerBuilder.connect, hn]; exact trivial
  | some name =>
    cases ht : b.topic with
    | none => simp only [ProducerBuilder.connect, hn, ht]; exact trivial
    | some topic => rw [App.producer_setup b hn ht]; exact plain_setup (plain_producer _)

/-- Of the calls offered, only `ack` and `ack_all` acknowledge. -/
theorem Offered.plain {p : Prog Unit} (h : Offered p) (h1 : ∀ id, p ≠ Session.ack id) (h2 : ∀ ids, p ≠ Session.ackAll ids) : OnlyHands Plain p := by
  cases h with
  | send serialize m =>
    unfold Session.send
    split
    · exact trivial
    · exact onlyHands_bind (plain_call (by intro id h; cases h)) fun _ => trivial
  | sendBatch serialize ms =>
    unfold Session.sendBatch
    split
    · exact trivial
    · exact onlyHands_bind (plain_call (by intro id h; cases h)) fun _ => trivial
  | sendAll serialize ms =>
    refine onlyHands_bind (onlyHands_handAll fun c hc => ?_) fun ts => onlyHands_bind (onlyHands_waitAll ts) fun _ => trivial
    obtain ⟨m, _, hm⟩ := List.mem_map.mp hc
    cases hs : serialize m with
    | none => rw [hs] at hm; cases hm
    | some x => rw [hs] at hm; cases hm; intro id h; cases h
  | ack id => exact absurd rfl (h1 id)
  | ackAll ids => exact absurd rfl (h2 ids)

namespace App

open World

variable {T : Type}

/-- The call hands over, and has handed over, only such commands. -/
def JobHands (P : Call → Prop) (j : Job) : Prop := SetupHands P j.prog ∧ ∀ c r, .handed c r ∈ j.events → P c

theorem hands_after {P : Call → Prop} {s s' : Sys.State} {j : Job} (h : JobHands P j) : JobHands P (j.after s s') := by
  obtain ⟨h1, h2⟩ := h
  have hev : ∀ (j' : Job) (ev : SetupEv), j'.trace = j.trace ++ [ev] → j'.events = j.events ++ (match ev with | .did _ ev => [ev] | _ => []) := by
    intro j' ev hj
    unfold Job.events
    rw [hj, List.filterMap_append]
    cases ev <;> rfl
  unfold Job.after
  split
  · rename_i k hp
    rw [hp] at h1
    exact ⟨h1 _, fun c r hm => h2 c r (by rw [hev _ _ rfl] at hm; simpa using hm)⟩
  · rename_i topic id k i hp _
    rw [hp] at h1
    split
    · exact ⟨h1 _, fun c r hm => h2 c r (by rw [hev _ _ rfl] at hm; simpa using hm)⟩
    · exact ⟨h1 _, fun c r hm => h2 c r (by rw [hev _ _ rfl] at hm; simpa using hm)⟩
    · exact ⟨by rw [hp]; exact h1, h2⟩
  · rename_i c call k k' i hp _
    rw [hp] at h1
    split
    · exact ⟨by rw [hp]; exact h1, h2⟩
    · refine ⟨⟨h1.1.2 _, h1.2⟩, fun c' r hm => ?_⟩
      rw [hev _ _ rfl] at hm
      rcases List.mem_append.mp hm with hm | hm
      · exact h2 c' r hm
      · simp only [List.mem_singleton, Ev.handed.injEq] at hm
        rw [hm.1]; exact h1.1.1
  · rename_i c t call k k' i hp _
    rw [hp] at h1
    split
    · refine ⟨⟨h1.1 _, h1.2⟩, fun c' r hm => ?_⟩
      rw [hev _ _ rfl] at hm
      rcases List.mem_append.mp hm with hm | hm
      · exact h2 c' r hm
      · simp at hm
    · exact ⟨by rw [hp]; exact h1, h2⟩
  · rename_i c o k' i hp _
    rw [hp] at h1
    exact ⟨h1.2 _, h2⟩
  · exact ⟨h1, h2⟩

/-- A call that is not `ack` or `ack_all` hands over no acknowledgement. -/
theorem plain_job {cfg : World.Cfg T} {acts : List Act} {log : List World.Act} {a : State T} (h : Run cfg acts log a) :
    ∀ j ∈ a.jobs, (∀ i p, j.made = .call i p → OnlyHands Plain p) → JobHands Plain j := by
  refine job_induct (fun _ j => (∀ i p, j.made = .call i p → OnlyHands Plain p) → JobHands Plain j) (fun _ _ _ _ _ h _ => h) ?_ ?_
    (fun _ _ h => h) h
  · intro s c _ _ hm
    cases c with
    | consumer b => exact ⟨plain_connect_consumer b, fun c r hm => by simp [Start.job, Job.events] at hm⟩
    | producer b => exact ⟨plain_connect_producer b, fun c r hm => by simp [Start.job, Job.events] at hm⟩
    | call i p => exact ⟨⟨hm i p rfl, fun o => trivial⟩, fun c r hm => by simp [Start.job, Job.events] at hm⟩
  · intro s s' j as _ hq _ _ _ _ hm
    rw [(after_made s s' j).1] at hm
    exact hands_after (hq hm)

/-- Request `t` belongs to the call. -/
def Owns (j : Job) (t : Nat) : Prop := t ∈ requests j.events ∨ j.handing = some (some t)

theorem owns_after {s s' : Sys.State} {j : Job} {t : Nat} (hm : s.mode ≠ .stopped) (hh : ∀ tok, j.handing = some tok → Handing s j tok)
    (h : Owns j t) : Owns (j.after s s') t := by
  have hev : ∀ (j' : Job) (ev : SetupEv), j'.trace = j.trace ++ [ev] → j'.events = j.events ++ (match ev with | .did _ ev => [ev] | _ => []) := by
    intro j' ev hj
    unfold Job.events
    rw [hj, List.filterMap_append]
    cases ev <;> rfl
  have keep : ∀ j', requests j'.events = requests j.events → j'.handing = j.handing → Owns j' t := by
    intro j' h1 h2
    unfold Owns
    rw [h1, h2]
    exact h
  unfold Job.after
  split
  · exact keep _ (by rw [hev _ _ rfl]; simp) rfl
  · split
    · exact keep _ (by rw [hev _ _ rfl]; simp) rfl
    · exact keep _ (by rw [hev _ _ rfl]; simp) rfl
    · exact h
  · rename_i core call k k' i hp hc
    split
    · rename_i hn
      rcases h with h | h
      · exact .inl h
      · rw [hn] at h; cases h
    · rename_i tok htok
      left
      rw [hev _ (.did core (.handed call (if Sys.engineEnd s i then .ok (tok.getD 0) else .err .channelTerminated))) rfl,
          requests_append, List.mem_append]
      rcases h with h | h
      · exact .inl h
      · right
        rw [htok] at h
        cases h
        obtain ⟨i2, core2, call2, k2, g1, g2, g3⟩ := hh _ htok
        rw [hp] at g2; cases g2
        rw [Props.end_open hm i]
        rcases g3 with ⟨g3, g4⟩ | ⟨g3, t', core', g4, g5⟩
        · cases g4
        · simp [requests, g3]
  · split
    · exact keep _ (by rw [hev _ _ rfl, requests_append]; simp [requests]) rfl
    · exact h
  · exact keep _ rfl rfl
  · exact h

/-- Only a call that expects a response makes a request. -/
theorem issued_steps {cfg : Sys.Cfg} : ∀ {as : List Sys.Act} {s s' : Sys.State}, Sys.Reachable cfg s → sysSteps cfg s as = some s' →
    (∀ i c, .beginCall i c ∈ as → c.expectsResponse = false) → s'.issued = s.issued := by
  intro as
  induction as with
  | nil => intro s s' _ h _; cases h; rfl
  | cons a as ih =>
    intro s s' hr h hc
    simp only [sysSteps] at h
    cases hx : Sys.step cfg s a with
    | none => rw [hx] at h; cases h
    | some s1 =>
      rw [hx] at h
      rw [ih (hr.step hx) h fun i c hm => hc i c (List.mem_cons_of_mem _ hm)]
      obtain ⟨l, hl⟩ := Sys.issued_step hx
      cases l with
      | nil => rw [← hl, List.append_nil]
      | cons x l =>
        exfalso
        have hget : s1.issued[s.issued.length]? = some x := by rw [← hl]; simp
        rcases Sys.issued_by hr hx (i := x.1) (out := x.2) hget with h1 | ⟨c, rfl, h2, _⟩
        · simp at h1
        · rw [hc x.1 c (by simp)] at h2; cases h2

/-- While the engine runs, every request belongs to a call. -/
theorem owners {cfg : World.Cfg T} {acts : List Act} {log : List World.Act} {a : State T} (h : Run cfg acts log a) :
    a.world.sys.mode ≠ .stopped → ∀ t, t < a.world.sys.issued.length → ∃ (k : Nat) (j : Job), a.jobs[k]? = some j ∧ Owns j t := by
  induction h with
  | nil => intro _ t ht; simp [init, World.init, Sys.init] at ht
  | @snoc as log a a' x h hs ih =>
    intro hm t ht
    obtain ⟨hp, hw, hj⟩ := step_some hs
    have hreach := App.reachable h
    have hm0 : a.world.sys.mode ≠ .stopped := fun e => hm
      (worldSteps_induct (fun s => s.mode = .stopped) (fun s y s' hq hstep => Sys.stopped_step hstep hq) e hw)
    have old : t < a.world.sys.issued.length → ∃ (k : Nat) (j : Job), a'.jobs[k]? = some j ∧ Owns j t := by
      intro hlt
      obtain ⟨k, j, hk, ho⟩ := ih hm0 t hlt
      rw [hj]
      cases x with
      | world _ => exact ⟨k, j, hk, ho⟩
      | start c => exact ⟨k, j, by simp only [jobsAfter]; rw [List.getElem?_append_left (List.getElem?_eq_some_iff.mp hk).1]; exact hk, ho⟩
      | run n =>
        refine ⟨k, if n = k then j.after a.world.sys a'.world.sys else j, ?_, ?_⟩
        · simp only [jobsAfter, List.getElem?_modify, hk]; split <;> rfl
        · split
          · exact owns_after hm0 (handing_ok h j (List.mem_of_getElem? hk)) ho
          · exact ho
      | drop n =>
        refine ⟨k, if n = k then { j with live := false } else j, ?_, ?_⟩
        · simp only [jobsAfter, List.getElem?_modify, hk]; split <;> rfl
        · split <;> exact ho
    cases x with
    | world x =>
      refine old ?_
      simp only [induced, worldSteps] at hw
      cases hx : World.step cfg a.world x with
      | none => rw [hx] at hw; cases hw
      | some w1 =>
        rw [hx] at hw
        simp only [Option.some.injEq] at hw
        subst hw
        simp only [possible] at hp
        obtain ⟨as, ha, hy⟩ := world_acts hx
        rw [issued_steps hreach ha] at ht
        · exact ht
        intro i c hc
        rcases hy with ⟨y, rfl, rfl⟩ | hy | rfl | ⟨n, rfl⟩
        · simp only [List.mem_singleton] at hc
          subst hc
          simp [free] at hp
        · rcases hy _ hc with ⟨b, ⟨r, h1⟩ | ⟨r, h1⟩⟩ <;> cases h1
        · simp at hc
        · simp only [List.mem_cons, Sys.Act.beginCall.injEq, reduceCtorEq, List.not_mem_nil, or_false] at hc
          rw [hc.2]; rfl
    | start c =>
      refine old ?_
      simp only [induced, worldSteps, Option.some.injEq] at hw
      rw [hw]; exact ht
    | drop k =>
      refine old ?_
      cases hk : a.jobs[k]? with
      | none => simp [possible, hk] at hp
      | some j =>
        simp only [induced, hk] at hw
        rw [issued_steps hreach (worldSteps_sys hw)] at ht
        · exact ht
        intro i c hc
        exfalso
        unfold Job.dropActs at hc
        repeat' split at hc
        all_goals simp at hc
    | run k =>
      cases hk : a.jobs[k]? with
      | none => simp [possible, hk] at hp
      | some j =>
        simp only [possible, hk, Bool.and_eq_true] at hp
        obtain ⟨as', has⟩ := Option.isSome_iff_exists.mp hp.2
        simp only [induced, hk, has, Option.getD_some] at hw
        have hss := worldSteps_sys hw
        by_cases hlt : t < a.world.sys.issued.length
        · exact old hlt
        · by_cases hb : ∃ i c, .beginCall i c ∈ as' ∧ c.expectsResponse = true
          · obtain ⟨i, c, hb, hc⟩ := hb
            rcases acts_small has with rfl | ⟨y, rfl⟩
            · cases hb
            · simp only [List.mem_singleton] at hb
              subst hb
              have hbeg := (begun hss).issued
              rw [hc, if_pos rfl] at hbeg
              rw [hbeg] at ht
              have ht : t = a.world.sys.issued.length := by
                simp only [List.length_append, List.length_singleton] at ht; omega
              refine ⟨k, j.after a.world.sys a'.world.sys, ?_, ?_⟩
              · rw [hj]; simp [jobsAfter, hk]
              · right
                revert has
                unfold Job.acts
                split
                · intro e; cases e
                · intro e
                  simp only [Option.some.injEq, List.cons.injEq, and_true] at e
                  split at e <;> cases e
                · rename_i core call q k' i' hp' hc'
                  split
                  · rename_i hh
                    intro e
                    cases e
                    rw [after_begin hp' hc' hh, ht]
                    simp [hc]
                  · intro e; cases e
                · split <;> intro e <;> cases e
                · intro e; cases e
                · split <;> intro e <;> cases e
                · intro e; cases e
          · exfalso
            rw [issued_steps hreach hss] at ht
            · exact hlt ht
            intro i c hm
            cases he : c.expectsResponse with
            | false => rfl
            | true => exact absurd ⟨i, c, hm, he⟩ hb

/-- What a request is that belongs to a call. -/
theorem owned_call {cfg : World.Cfg T} {acts : List Act} {log : List World.Act} {a : State T} (h : Run cfg acts log a) {j : Job}
    (hj : j ∈ a.jobs) {t : Nat} (ho : Owns j t) : ∃ i core c, a.world.sys.issued[t]? = some (i, (Client.issue core c).2) ∧
      ((.handed c (.ok t) ∈ j.events) ∨ ∃ core' k, j.prog = .session core' (.hand c k) .ret) := by
  rcases ho with ho | ho
  · obtain ⟨ev, hev, he⟩ := List.mem_filterMap.mp ho
    split at he
    · rename_i c t'
      split at he
      · rename_i hx
        cases he
        have hmem := hev
        unfold Job.events at hev
        obtain ⟨sev, hsev, hx'⟩ := List.mem_filterMap.mp hev
        cases sev with
        | allocated | registered => cases hx'
        | did cl ev =>
          cases hx'
          cases hc : j.client with
          | none =>
            exfalso
            cases kind h j hj with
            | missing _ _ ht => rw [ht] at hsev; cases hsev
            | consumer b name topic subscription hb hm hn hst =>
              cases hst with
              | new _ _ ht => rw [ht] at hsev; cases hsev
              | registering _ hc' => rw [hc] at hc'; cases hc'
              | refused _ hc' => rw [hc] at hc'; cases hc'
              | calls _ _ hc' => rw [hc] at hc'; cases hc'
            | producer b name topic hb hm hn hst =>
              cases hst with
              | new _ _ ht => rw [ht] at hsev; cases hsev
              | registering _ hc' => rw [hc] at hc'; cases hc'
              | refused _ hc' => rw [hc] at hc'; cases hc'
              | calls _ _ hc' => rw [hc] at hc'; cases hc'
            | call i p core evs hm hc' => rw [hc] at hc'; cases hc'
          | some i =>
            obtain ⟨core, hcore⟩ := (seen h j hj).events i hc cl _ hsev hx
            exact ⟨i, core, c, hcore, .inl hmem⟩
      · cases he
    · cases he
  · obtain ⟨i, core, call, k, g1, g2, g3⟩ := handing_ok h j hj _ ho
    rcases g3 with ⟨_, g3⟩ | ⟨g3, t', core', g4, g5⟩
    · cases g3
    · cases g4
      exact ⟨i, core', call, g5, .inr ⟨core, k, g2⟩⟩

/-- An acknowledgement belongs to a call of `ack`, if the application makes no other calls than those offered and not `ack_all`. -/
theorem ack_owner {cfg : World.Cfg T} {acts : List Act} {log : List World.Act} {a : State T} (h : Run cfg acts log a) (hof : Offers a)
    (hall : ∀ j ∈ a.jobs, ∀ i ids, j.made ≠ .call i (Session.ackAll ids)) {j : Job} (hj : j ∈ a.jobs) {t i : Nat} {acks : List Ack}
    (ho : Owns j t) (hi : a.world.sys.issued[t]? = some (i, .ack acks)) : ∃ i id, j.made = .call i (Session.ack id) := by
  obtain ⟨i', core, c, h1, h2⟩ := owned_call h hj ho
  refine Classical.byContradiction fun hn => ?_
  have hplain : JobHands Plain j := by
    refine plain_job h j hj fun i p hm => (hof j hj i p hm).plain (fun id e => hn ⟨i, id, by rw [hm, e]⟩) (fun ids e => hall j hj i ids (by rw [hm, e]))
  have hc : Plain c := by
    rcases h2 with h2 | ⟨core', k, h2⟩
    · exact hplain.2 c _ h2
    · have := hplain.1
      rw [h2] at this
      exact this.1.1
  rw [h1] at hi
  cases c with
  | ack id => exact hc id rfl
  | _ => simp [Client.issue] at hi

end App

end Neutron
