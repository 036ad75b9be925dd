import Verif.Proof.Together
import Verif.Proof.AppAsked
import Verif.Props.AppFail
import Verif.Proof.AppReach
import Verif.Props.AppLive

/-!
# A `connect` has at most one request outstanding
-/

namespace Neutron

/-- The program waits for each response before it hands over the next command; `cur` is the request it has to wait for now. -/
def Sequential {α : Type} : Prog α → Option Nat → Prop
  | .ret _, cur => cur = none
  | .hand c k, cur => cur = none ∧ ∀ r, Sequential (k r) (match r with
      | .ok t => if c.expectsResponse then some t else none
      | _ => none)
  | .wait t c k, cur => cur = some t ∧ c.expectsResponse = true ∧ ∀ r, Sequential (k r) none

namespace Session

open Prog

theorem sequential_bind {α β : Type} {p : Prog α} : ∀ {cur : Option Nat}, Sequential p cur → ∀ {f : α → Prog β},
    (∀ x, Sequential (f x) none) → Sequential (p >>= f) cur := by
  show ∀ {cur : Option Nat}, Sequential p cur → ∀ {f : α → Prog β}, (∀ x, Sequential (f x) none) → Sequential (p.bind f) cur
  induction p with
  | ret o =>
    intro cur h f hf
    cases h
    cases o with
    | ok x => exact hf x
    | err e => rfl
    | panic => rfl
  | hand c k ih =>
    intro cur h f hf
    exact ⟨h.1, fun r => ih r (h.2 r) hf⟩
  | wait t c k ih =>
    intro cur h f hf
    exact ⟨h.1, h.2.1, fun r => ih r (h.2.2 r) hf⟩

/-- Only commands with a response are waited for. -/
theorem sequential_waited {α : Type} {p : Prog α} {tr : List Ev} {o : Outcome α} (h : Runs p tr o) : ∀ {cur : Option Nat}, Sequential p cur →
    ∀ {t : Nat} {c : Call} {r : Outcome Response}, .waited t c r ∈ tr → c.expectsResponse = true := by
  induction h with
  | ret => intro _ _ t c r hm; cases hm
  | hand c k x tr o hp hk ih =>
    intro cur hs t c' r hm
    simp only [List.mem_cons, reduceCtorEq, false_or] at hm
    exact ih (hs.2 x) hm
  | wait t' c' k x tr o hp hk ih =>
    intro cur hs t c r hm
    simp only [List.mem_cons, Ev.waited.injEq] at hm
    rcases hm with ⟨_, rfl, _⟩ | hm
    · exact hs.2.1
    · exact ih (hs.2.2 x) hm

theorem sequential_pure {α : Type} (x : α) : Sequential (pure x : Prog α) none := rfl

theorem sequential_call {c : Call} (hx : c.expectsResponse = true) : Sequential (call c) none := by
  refine ⟨rfl, fun r => ?_⟩
  cases r with
  | ok t => simp only [hx, if_true]; exact ⟨rfl, hx, fun r => rfl⟩
  | err e => rfl
  | panic => rfl

theorem sequential_handOver {c : Call} (hx : c.expectsResponse = false) : Sequential (handOver c) none := by
  refine ⟨rfl, fun r => ?_⟩
  cases r <;> simp [Sequential, hx]

theorem sequential_lookupTopic (topic : String) : Sequential (lookupTopic topic) none := by
  refine sequential_bind (sequential_call rfl) fun r => ?_
  split
  · split
    · split
      · exact sequential_bind (sequential_call rfl) fun _ => sequential_bind (sequential_call rfl) fun _ => rfl
      · rfl
    · rfl
    · rfl
  · rfl

theorem sequential_producer (topic : String) : Sequential (producerConnect topic) none :=
  sequential_bind (sequential_call rfl) fun _ => sequential_bind (sequential_lookupTopic topic) fun _ =>
    sequential_bind (sequential_call rfl) fun _ => rfl

theorem sequential_consumer (topic subscription : String) (n : UInt32) : Sequential (consumerConnect topic subscription n) none :=
  sequential_bind (sequential_call rfl) fun _ => sequential_bind (sequential_lookupTopic topic) fun _ =>
    sequential_bind (sequential_call rfl) fun _ => sequential_bind (sequential_handOver rfl) fun _ => rfl

end Session

namespace Sys

/-- Only a call on client `i` makes a request of client `i`. -/
theorem issued_by {cfg : Cfg} {s s' : State} {a : Act} (hr : Reachable cfg s) (hs : step cfg s a = some s') {t i : Nat} {out : Outbound}
    (h : s'.issued[t]? = some (i, out)) : s.issued[t]? = some (i, out) ∨ ∃ c, a = .beginCall i c ∧ c.expectsResponse = true ∧ t = s.issued.length := by
  have hi : i < s'.nClients := ((req (hr.step hs)).issued t i out h).1
  rcases client_step hs hi with ⟨hi', hc⟩ | ⟨rfl, h2, _⟩
  · cases hc with
    | same _ _ _ h4 =>
      rcases h4 with h4 | ⟨j, o, hj, h4⟩
      · rw [h4] at h; exact .inl h
      · rw [h4, List.getElem?_append] at h
        split at h
        · exact .inl h
        · have := List.mem_of_getElem? h
          simp only [List.mem_singleton, Prod.mk.injEq] at this
          exact absurd this.1.symm hj
    | began call ha h1 h2 h3 h4 =>
      cases he : call.expectsResponse with
      | false => rw [h4, he] at h; exact .inl h
      | true =>
        rw [h4, he, if_pos rfl, List.getElem?_append] at h
        split at h
        · exact .inl h
        · have := (List.getElem?_eq_some_iff.mp h).1
          simp only [List.length_singleton] at this
          exact .inr ⟨call, ha, he, by omega⟩
    | submitted k c ha hk h1 h2 h3 h4 => rw [h4] at h; exact .inl h
    | refused k c ha hk h1 h2 h3 h4 => rw [h4] at h; exact .inl h
  · rw [h2] at h; exact .inl h

end Sys

namespace App

open Neutron World Session

variable {T : Type}

/-- The outstanding requests of client `i` are at most `cur`. -/
def Only (s : Sys.State) (i : Nat) (cur : Option Nat) : Prop :=
  ∀ t out, s.issued[t]? = some (i, out) → Sys.Outstanding s t → cur = some t

theorem only_step {cfg : Sys.Cfg} {s s' : Sys.State} {a : Sys.Act} (hr : Sys.Reachable cfg s) (hs : Sys.step cfg s a = some s') {i : Nat}
    {cur : Option Nat} (ha : ∀ c, a = .beginCall i c → c.expectsResponse = false) (h : Only s i cur) : Only s' i cur := by
  intro t out hi ho
  rcases Sys.issued_by hr hs hi with h1 | ⟨c, h1, h2, _⟩
  · refine h t out h1 ⟨(List.getElem?_eq_some_iff.mp h1).1, fun r hx => ?_⟩
    exact ho.2 r ((Sys.outcomes_step hs).subset hx)
  · rw [ha c h1] at h2; cases h2

theorem only_steps {cfg : Sys.Cfg} {as : List Sys.Act} : ∀ {s s' : Sys.State}, Sys.Reachable cfg s → sysSteps cfg s as = some s' → ∀ {i : Nat}
    {cur : Option Nat}, (∀ c, .beginCall i c ∈ as → c.expectsResponse = false) → Only s i cur → Only s' i cur := by
  induction as with
  | nil => intro s s' _ hs i cur _ h; cases hs; exact h
  | cons a as ih =>
    intro s s' hr hs i cur ha h
    simp only [sysSteps] at hs
    cases h1 : Sys.step cfg s a with
    | none => rw [h1] at hs; cases hs
    | some v =>
      rw [h1] at hs
      exact ih (hr.step h1) hs (fun c hc => ha c (List.mem_cons_of_mem _ hc))
        (only_step hr h1 (fun c hc => ha c (by rw [hc]; exact List.mem_cons_self)) h)

/-- The call is at a place in its program where `cur` is the request it waits for. -/
def Place (j : Job) (cur : Option Nat) : Prop :=
  (∀ topic id k, j.prog = .register topic id k → cur = none) ∧
  ∀ core q k', j.prog = .session core q k' → (j.handing = none ∧ Sequential q cur) ∨ (j.handing = some cur ∧ Sequential q none)

theorem place_ret {j : Job} {o : Outcome Unit} {cur : Option Nat} (h : j.prog = .ret o) : Place j cur :=
  ⟨fun _ _ _ hp => (by rw [h] at hp; cases hp), fun _ _ _ hp => (by rw [h] at hp; cases hp)⟩

/-- A `connect` that goes on, or has failed: the job has its client to itself. -/
def Holds (j : Job) (i : Nat) : Prop := j.owns = true ∧ j.client = some i ∧ j.live = true ∧ j.ended ≠ some (.ok ())

theorem stage_sequential {j : Job} (hk : Kind j) (ho : ∀ i p, j.made = .call i p → j.owns = false) (h : j.owns = true) {i : Nat}
    (hc : j.client = some i) : ∃ name topic p, Stage name topic p j ∧ Sequential p none := by
  cases hk with
  | missing _ hc' => rw [hc] at hc'; cases hc'
  | consumer b name topic sub _ _ _ hs => exact ⟨_, _, _, hs, sequential_consumer _ _ _⟩
  | producer b name topic _ _ _ hs => exact ⟨_, _, _, hs, sequential_producer _⟩
  | call i p core evs hm => rw [ho i p hm] at h; cases h

/-- The step of the call itself. -/
theorem place_after {cfg : Sys.Cfg} {s s' : Sys.State} {j : Job} {i : Nat} {as : List Sys.Act} {cur : Option Nat} (hr : Sys.Reachable cfg s)
    {name topic : String} {p : Prog Unit} (hst : Stage name topic p j) (hsq : Sequential p none) (hh : ∀ tok, j.handing = some tok → Handing s j tok)
    (hc : j.client = some i) (ha : j.acts s = some as) (hs : sysSteps cfg s as = some s') (ho : Only s i cur) (hp : Place j cur) :
    ∃ cur', Only s' i cur' ∧ Place (j.after s s') cur' := by
  have hnone : (∀ core call k k', j.prog ≠ .session core (.hand call k) k') → j.handing = none := handing_prog hh
  have quiet : (∀ c, .beginCall i c ∈ as → c.expectsResponse = false) → Only s' i cur := fun h => only_steps hr hs h ho
  cases hst with
  | new hc' => rw [hc] at hc'; cases hc'
  | registering k hcn ht hpr =>
    have has : ∀ c, Sys.Act.beginCall i c ∉ as := by
      intro c hm
      simp only [Job.acts, hpr, hcn, Option.some.injEq] at ha
      subst ha
      split at hm <;> simp at hm
    have hcur := hp.1 _ _ _ hpr
    refine ⟨cur, quiet (fun c hm => absurd hm (has c)), ?_⟩
    have hng : j.handing = none := hnone (by intro _ _ _ _ h; rw [hpr] at h; cases h)
    cases hph : (s'.clients k).phase with
    | fresh | waiting =>
      have : j.after s s' = j := by unfold Job.after; rw [hpr, hcn]; simp only [hph]
      rw [this]; exact hp
    | ready =>
      have : j.after s s' = { j with prog := .session ⟨UInt64.ofNat k, name, 0, 0⟩ p .ret
                                     trace := j.trace ++ [.registered topic (UInt64.ofNat k) (.ok ())] } := by
        unfold Job.after; rw [hpr, hcn]; simp only [hph, registered]
      rw [this]
      refine ⟨fun _ _ _ h => (by cases h), fun core q k' h => ?_⟩
      cases h
      exact .inl ⟨hng, by rw [hcur]; exact hsq⟩
    | gone =>
      have : j.after s s' = { j with prog := .ret (.err .channelTerminated)
                                     trace := j.trace ++ [.registered topic (UInt64.ofNat k) (.err .channelTerminated)] } := by
        unfold Job.after; rw [hpr, hcn]; simp only [hph, registered]
      rw [this]
      exact place_ret rfl
  | refused k hcn hpr ht =>
    rw [after_ret hpr]
    have : as = [] := by simp [Job.acts, hpr] at ha
    subst this
    exact ⟨cur, quiet (by simp), hp⟩
  | calls k evs hcn hpr ht =>
    cases hpr with
    | over o h =>
      rw [after_ret h]
      have : as = [] := by simp [Job.acts, h] at ha
      subst this
      exact ⟨cur, quiet (by simp), hp⟩
    | running q h =>
      have hpl := hp.2 _ _ _ h
      cases q with
      | ret o =>
        have hng : j.handing = none := hnone (by intro _ _ _ _ h'; rw [h] at h'; cases h')
        refine ⟨cur, quiet ?_, ?_⟩
        · intro c hm
          cases o <;> simp only [Job.acts, h, hcn, Option.some.injEq] at ha <;> subst ha
          · cases hm
          · split at hm <;> simp at hm
          · split at hm <;> simp at hm
        · have : j.after s s' = { j with prog := .ret o } := by unfold Job.after; rw [h, hcn]
          rw [this]; exact place_ret rfl
      | wait t call q =>
        have hng : j.handing = none := hnone (by intro _ _ _ _ h'; rw [h] at h'; cases h')
        rcases hpl with ⟨_, hpl⟩ | ⟨hpl, _⟩
        · simp only [Job.acts, h, hcn] at ha
          split at ha
          · rename_i hsome
            cases ha
            simp only [sysSteps, Option.some.injEq] at hs
            subst hs
            cases hout : outcome s t with
            | none => rw [hout] at hsome; cases hsome
            | some x =>
              refine ⟨none, ?_, ?_⟩
              · intro u out hu hou
                have := ho u out hu hou
                rw [hpl.1] at this
                cases this
                exact absurd hou.2 (by
                  intro hall
                  rw [Props.outcome_none.mpr hall] at hout; cases hout)
              · have : j.after s s = { j with prog := .session ⟨UInt64.ofNat k, name, 0, 0⟩ (q (call.resolve x)) .ret
                                              trace := j.trace ++ [.did ⟨UInt64.ofNat k, name, 0, 0⟩ (.waited t call (call.resolve x))] } := by
                  unfold Job.after; rw [h, hcn]; simp only [hout]
                rw [this]
                refine ⟨fun _ _ _ h => by (cases h), fun core q k' h => ?_⟩
                cases h
                exact .inl ⟨hng, hpl.2.2 _⟩
          · cases ha
        · rw [hng] at hpl; cases hpl
      | hand call q =>
        cases hg : j.handing with
        | none =>
          rw [after_begin h hcn hg]
          simp only [Job.acts, h, hcn, hg, Option.some.injEq] at ha
          subst ha
          rcases hpl with ⟨_, hpl⟩ | ⟨hpl, _⟩
          · obtain ⟨rfl, hk⟩ := hpl
            refine ⟨if call.expectsResponse then some s.issued.length else none, ?_, ?_⟩
            · cases hx : call.expectsResponse with
              | false =>
                simp only [Bool.false_eq_true, if_false]
                refine quiet fun c hm => ?_
                simp only [List.mem_singleton, Sys.Act.beginCall.injEq] at hm
                rw [hm.2, hx]
              | true =>
                simp only [if_true]
                intro t out hi' hou
                have hst := sysSteps_one hs
                rcases Sys.issued_by hr hst hi' with h1 | ⟨c, _, _, h3⟩
                · have := ho t out h1 ⟨(List.getElem?_eq_some_iff.mp h1).1, fun r hx => hou.2 r ((Sys.outcomes_step hst).subset hx)⟩
                  cases this
                · rw [h3]
            · refine ⟨fun _ _ _ h' => ?_, fun core q k' h' => ?_⟩
              · exact absurd (h.symm.trans h') (by simp)
              · rw [h] at h'
                cases h'
                exact .inr ⟨rfl, rfl, hk⟩
          · rw [hg] at hpl; cases hpl
        | some tok =>
          rw [after_put h hcn hg]
          simp only [Job.acts, h, hcn, hg, Option.some.injEq] at ha
          subst ha
          rcases hpl with ⟨hpl, _⟩ | ⟨hpl, _, hk⟩
          · rw [hg] at hpl; cases hpl
          · rw [hg] at hpl
            cases hpl
            obtain ⟨i', core', call', k', hc', hp', hx⟩ := hh _ hg
            rw [h] at hp'
            cases hp'
            have hq : Only s' i cur := quiet (by simp)
            cases he : Sys.engineEnd s k with
            | true =>
              refine ⟨cur, hq, fun _ _ _ h' => (by cases h'), fun core q k' h' => ?_⟩
              cases h'
              refine .inl ⟨rfl, ?_⟩
              have := hk (.ok (cur.getD 0))
              simp only [if_true]
              rcases hx with ⟨hx, rfl⟩ | ⟨hx, t, _, rfl, _⟩ <;> simpa [hx] using this
            | false =>
              refine ⟨none, ?_, fun _ _ _ h' => (by cases h'), fun core q k' h' => ?_⟩
              · have hik : i = k := by rw [hc] at hcn; exact Option.some.inj hcn
                subst hik
                intro t out hi' hou
                have hcur := hq t out hi' hou
                have hst := sysSteps_one hs
                cases Sys.step_cases hst with
                | submit _ _ cmd hi hk2 he2 => rw [he] at he2; cases he2
                | refuse _ _ cmd hi hk2 _ =>
                  have htok := slot_tok hk2
                  exact absurd (show (t, Sys.TokResult.cancelled) ∈ _ from by simp [htok, hcur]) (hou.2 _)
              · cases h'
                simp only [Bool.false_eq_true, if_false]
                refine .inl ⟨?_, hk (.err .channelTerminated)⟩
                trivial

/-- A moment of the history: at most one request of client `i` was outstanding. -/
def AtMostOne (s : Sys.State) (i : Nat) : Prop := ∃ cur, Only s i cur

theorem client_after {s s' : Sys.State} {j : Job} (h : ∀ k, j.prog ≠ .newId k) : (j.after s s').client = j.client := by
  unfold Job.after
  split
  · rename_i hp
    exact absurd hp (h _)
  all_goals (try rfl)
  all_goals (split <;> rfl)

theorem acts_small {s : Sys.State} {j : Job} {as : List Sys.Act} (h : j.acts s = some as) : as = [] ∨ ∃ x, as = [x] := by
  unfold Job.acts at h
  split at h
  · cases h; exact .inr ⟨_, rfl⟩
  · cases h; exact .inr ⟨_, rfl⟩
  · split at h <;> (cases h; exact .inr ⟨_, rfl⟩)
  · split at h
    · cases h; exact .inl rfl
    · cases h
  · cases h; exact .inl rfl
  · split at h
    · cases h; exact .inr ⟨_, rfl⟩
    · cases h; exact .inl rfl
  · cases h

theorem dropActs_small {s : Sys.State} {j : Job} : j.dropActs s = [] ∨ ∃ x, j.dropActs s = [x] := by
  unfold Job.dropActs
  split
  · split
    · split
      · exact .inr ⟨_, rfl⟩
      · split
        · exact .inr ⟨_, rfl⟩
        · exact .inl rfl
    · exact .inl rfl
  · exact .inl rfl

theorem induced_small {cfg : World.Cfg T} {a : State T} {x : Act} (hp : possible cfg a x = true) :
    induced a x = [] ∨ ∃ y, induced a x = [y] := by
  cases x with
  | world x => exact .inr ⟨x, rfl⟩
  | start c => exact .inl rfl
  | run k =>
    cases hk : a.jobs[k]? with
    | none => exact .inl (by simp [induced, hk])
    | some j =>
      simp only [possible, hk, Bool.and_eq_true] at hp
      obtain ⟨as, ha⟩ := Option.isSome_iff_exists.mp hp.2
      simp only [induced, hk, ha, Option.getD_some]
      rcases acts_small ha with rfl | ⟨y, rfl⟩
      · exact .inl rfl
      · exact .inr ⟨_, rfl⟩
  | drop k =>
    cases hk : a.jobs[k]? with
    | none => exact .inl (by simp [induced, hk])
    | some j =>
      simp only [induced, hk]
      rcases dropActs_small (s := a.world.sys) (j := j) with h | ⟨y, h⟩ <;> rw [h]
      · exact .inl rfl
      · exact .inr ⟨_, rfl⟩

/-- While a `connect` goes on, and after it failed, its client never had two requests outstanding. -/
structure Solo (cfg : World.Cfg T) (log : List World.Act) (s : Sys.State) (j : Job) (i : Nat) : Prop where
  now : ∃ cur, Only s i cur ∧ Place j cur
  ever : ∀ log1 w1, log1 <+: log → World.Run cfg log1 w1 → AtMostOne w1.sys i

theorem new_only {cfg : World.Cfg T} {log log1 : List World.Act} {w w1 : World T} (h : World.Run cfg log w) (h1 : World.Run cfg log1 w1)
    (hp : log1 <+: log) : Only w1.sys w.sys.nClients none := by
  intro t out hi _
  obtain ⟨l, rfl⟩ := hp
  have hs := run_steps_of h1 h
  have : w.sys.issued[t]? = some (w.sys.nClients, out) := by
    refine worldSteps_induct (fun s => s.issued[t]? = some (w.sys.nClients, out)) ?_ hi hs
    intro s a s' hx h1
    obtain ⟨l, hl⟩ := Sys.issued_step h1
    rw [← hl]; exact Sys.getElem?_append_some hx
  have := ((Sys.req (reachable_of_run h)).issued _ _ _ this).1
  omega

theorem solo {cfg : World.Cfg T} {acts : List Act} {log : List World.Act} {a : State T} (h : Run cfg acts log a) :
    ∀ j ∈ a.jobs, ∀ i, Holds j i → Solo cfg log a.world.sys j i := by
  induction h with
  | nil => intro j hj; simp [init] at hj
  | @snoc as log a a' x h hs ih =>
    obtain ⟨hp, hw, hj⟩ := step_some hs
    have hrun := Run.snoc h hs
    have hreach := App.reachable h
    have ever : ∀ {j i}, (∀ log1 w1, log1 <+: log → World.Run cfg log1 w1 → AtMostOne w1.sys i) →
        (∃ cur, Only a'.world.sys i cur ∧ Place j cur) → Solo cfg (log ++ induced a x) a'.world.sys j i := by
      intro j i h1 h2
      refine ⟨h2, fun log1 w1 hl hr => ?_⟩
      rcases induced_small hp with hi | ⟨y, hi⟩
      · rw [hi, List.append_nil] at hl
        exact h1 _ _ hl hr
      · rw [hi] at hl
        rcases List.prefix_concat_iff.mp hl with rfl | hl
        · have hw' := run_world hrun
          rw [hi] at hw'
          rw [World.run_unique hr hw']
          exact ⟨_, h2.choose_spec.1⟩
        · exact h1 _ _ hl hr
    cases x with
    | world x =>
      intro j hm i hh
      simp only [jobsAfter] at hj
      rw [hj] at hm
      obtain ⟨⟨cur, h1, h2⟩, h3⟩ := ih j hm i hh
      refine ever h3 ⟨cur, ?_, h2⟩
      simp only [induced, worldSteps] at hw
      cases hx : World.step cfg a.world x with
      | none => rw [hx] at hw; cases hw
      | some w1 =>
        rw [hx] at hw
        simp only [Option.some.injEq] at hw
        subst hw
        simp only [possible] at hp
        obtain ⟨as, ha, hy⟩ := world_acts hx
        refine only_steps hreach ha ?_ h1
        intro c hc
        rcases hy with ⟨y, rfl, rfl⟩ | hy | rfl | ⟨n, rfl⟩
        · simp only [List.mem_singleton] at hc
          subst hc
          simp [free] at hp
        · rcases hy _ hc with ⟨b, ⟨r, h1⟩ | ⟨r, h1⟩⟩ <;> cases h1
        · simp at hc
        · simp only [List.mem_cons, Sys.Act.beginCall.injEq, reduceCtorEq, List.not_mem_nil, or_false] at hc
          rw [hc.2]; rfl
    | start c =>
      intro j hm i hh
      simp only [jobsAfter] at hj
      simp only [induced, worldSteps, Option.some.injEq] at hw
      rw [hj] at hm
      rcases List.mem_append.mp hm with hm | hm
      · obtain ⟨h1, h3⟩ := ih j hm i hh
        exact ever h3 (by rw [← hw]; exact h1)
      · simp only [List.mem_singleton] at hm
        subst hm
        obtain ⟨h1, h2, _⟩ := hh
        cases c <;> simp [Start.job] at h1 h2
    | run k =>
      intro j hm i hh
      simp only [jobsAfter] at hj
      cases hk : a.jobs[k]? with
      | none => simp [possible, hk] at hp
      | some jk =>
        have hjk := List.mem_of_getElem? hk
        have hp' := hp
        simp only [possible, hk, Bool.and_eq_true] at hp'
        obtain ⟨acts', hacts⟩ := Option.isSome_iff_exists.mp hp'.2
        simp only [induced, hk, hacts, Option.getD_some] at hw
        have hss := worldSteps_sys hw
        have lookup : ∀ n j, a'.jobs[n]? = some j → (n ≠ k ∧ a.jobs[n]? = some j) ∨ (n = k ∧ j = jk.after a.world.sys a'.world.sys) := by
          intro n j hn
          rw [hj, List.getElem?_modify] at hn
          cases hx : a.jobs[n]? with
          | none => simp [hx] at hn
          | some j0 =>
            simp only [hx, Option.map_eq_map, Option.map_some, Option.some.injEq] at hn
            split at hn
            · rename_i he
              subst he
              rw [hk] at hx
              cases hx
              exact .inr ⟨rfl, hn.symm⟩
            · rename_i he
              exact .inl ⟨fun h => he h.symm, by rw [hn]⟩
        obtain ⟨m1, m2, m3, m4, m5⟩ := after_made a.world.sys a'.world.sys jk
        obtain ⟨n, hn⟩ := List.getElem?_of_mem hm
        rcases lookup n j hn with ⟨hnk, hn⟩ | ⟨rfl, rfl⟩
        · have hjm := List.mem_of_getElem? hn
          obtain ⟨⟨cur, h1, h2⟩, h3⟩ := ih j hjm i hh
          refine ever h3 ⟨cur, only_steps hreach hss ?_ h1, h2⟩
          intro c hc
          exfalso
          obtain ⟨e1, e2⟩ := acts_on hacts hc (show Sys.Act.on i (.beginCall i c) from rfl)
          have hu : jk.uses i = true := uses_iff.mpr ⟨hp'.1, e2, e1⟩
          obtain ⟨o1, o2, o3, o4⟩ := hh
          cases he : j.ended with
          | none =>
            have := (own_of h).alone n j i hn o1 (uses_iff.mpr ⟨o3, he, o2⟩) k jk (fun he => hnk he.symm) hk
            rw [hu] at this; cases this
          | some o =>
            have hg := ((failed h j hjm) o1 i o2).2 o (ended_ret.mp he) (fun ho => o4 (by rw [he, ho]))
            rcases acts_small hacts with rfl | ⟨y, rfl⟩
            · cases hc
            · simp only [List.mem_singleton] at hc
              subst hc
              have := (begun hss).ready
              exact absurd this (by rw [hg]; simp)
        · obtain ⟨o1, o2, o3, o4⟩ := hh
          rw [m3] at o1
          rw [m4] at o3
          have okn : jk.ended ≠ some (.ok ()) := by
            intro he
            have := ended_ret.mp he
            rw [after_ret this] at o4
            exact o4 he
          cases hcl : jk.client with
          | some i' =>
            obtain ⟨name, topic, p, hst, hsq⟩ := stage_sequential (kind h jk hjk) (Props.start_of h jk hjk).2.2 o1 hcl
            have hii : i' = i := by
              rw [client_after, hcl] at o2
              · exact Option.some.inj o2
              · intro k hpk
                cases hst with
                | new hc' => rw [hcl] at hc'; cases hc'
                | registering _ _ _ hp' => rw [hpk] at hp'; cases hp'
                | refused _ _ hp' => rw [hpk] at hp'; cases hp'
                | calls _ _ _ hp' =>
                  cases hp' with
                  | running _ hp' => rw [hpk] at hp'; cases hp'
                  | over _ hp' => rw [hpk] at hp'; cases hp'
            subst hii
            obtain ⟨⟨cur, h1, h2⟩, h3⟩ := ih jk hjk i' ⟨o1, hcl, o3, okn⟩
            obtain ⟨cur', g1, g2⟩ := place_after hreach hst hsq (handing_ok h jk hjk) hcl hacts hss h1 h2
            exact ever h3 ⟨cur', g1, g2⟩
          | none =>
            have hnew : ∃ q, jk.prog = .newId q := by
              refine Classical.byContradiction fun hn => ?_
              rw [client_after (fun q hq => hn ⟨q, hq⟩), hcl] at o2
              cases o2
            obtain ⟨q, hq⟩ := hnew
            have hi : i = a.world.sys.nClients := by
              have : (jk.after a.world.sys a'.world.sys).client = some a.world.sys.nClients := by unfold Job.after; rw [hq]
              rw [this] at o2
              exact (Option.some.inj o2).symm
            subst hi
            refine ever (fun log1 w1 hl hr => ⟨none, new_only (run_world h) hr hl⟩) ⟨none, ?_, ?_⟩
            · refine only_steps hreach hss ?_ (new_only (run_world h) (run_world h) List.prefix_rfl)
              intro c hc
              simp only [Job.acts, hq, Option.some.injEq] at hacts
              subst hacts
              simp at hc
            · refine ⟨fun _ _ _ _ => rfl, fun core q' k' hpr => ?_⟩
              have key : ∀ {name topic p}, Stage name topic p jk → False := by
                intro name topic p hst
                cases hst with
                | new _ hp' =>
                  have : (jk.after a.world.sys a'.world.sys).prog = .register topic (UInt64.ofNat a.world.sys.nClients)
                      (registered name p (UInt64.ofNat a.world.sys.nClients)) := by unfold Job.after; rw [hp']; rfl
                  rw [this] at hpr; cases hpr
                | registering _ _ _ hp' => rw [hq] at hp'; cases hp'
                | refused _ _ hp' => rw [hq] at hp'; cases hp'
                | calls _ _ _ hp' =>
                  cases hp' with
                  | running _ hp' => rw [hq] at hp'; cases hp'
                  | over _ hp' => rw [hq] at hp'; cases hp'
              cases kind h jk hjk with
              | missing hp' => rw [hq] at hp'; cases hp'
              | consumer _ _ _ _ _ _ _ hst => exact (key hst).elim
              | producer _ _ _ _ _ _ hst => exact (key hst).elim
              | call i p core evs hm => rw [(Props.start_of h jk hjk).2.2 i p hm] at o1; cases o1
    | drop k =>
      intro j hm i hh
      simp only [jobsAfter] at hj
      cases hk : a.jobs[k]? with
      | none => simp [possible, hk] at hp
      | some jk =>
        simp only [induced, hk] at hw
        have hss := worldSteps_sys hw
        obtain ⟨n, hn⟩ := List.getElem?_of_mem hm
        rw [hj, List.getElem?_modify] at hn
        cases hx : a.jobs[n]? with
        | none => simp [hx] at hn
        | some j0 =>
          simp only [hx, Option.map_eq_map, Option.map_some, Option.some.injEq] at hn
          split at hn
          · have := hh.2.2.1
            rw [← hn] at this; cases this
          · subst hn
            obtain ⟨⟨cur, h1, h2⟩, h3⟩ := ih _ (List.mem_of_getElem? hx) i hh
            refine ever h3 ⟨cur, only_steps hreach hss ?_ h1, h2⟩
            intro c hc
            exact absurd (show Sys.Act.on i (.beginCall i c) from rfl) (dropActs_on hc)

end App

end Neutron
