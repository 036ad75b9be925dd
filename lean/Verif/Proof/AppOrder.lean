import Verif.Proof.AppOwn
import Verif.Proof.SysOnce
import Verif.Spec.Order
import Mathlib.Data.List.Induction

/-!
# The order of the application's calls
-/

namespace Neutron

namespace Sys

/-- A command given to the engine with a request is the command of that request. -/
theorem submitted_issued {cfg : Cfg} {s : State} (h : Reachable cfg s) : ∀ i, i < s.nClients → ∀ cmd, cmd ∈ (s.clients i).submitted →
    ∀ t : Nat, cmd.tok = some t → s.issued[t]? = some (i, cmd.out) := by
  refine h.induct (P := fun s => ∀ i, i < s.nClients → ∀ cmd, cmd ∈ (s.clients i).submitted → ∀ t : Nat, cmd.tok = some t →
    s.issued[t]? = some (i, cmd.out)) (fun i hi => absurd hi (Nat.not_lt_zero i)) ?_
  intro s a s' hr ih hs i hi cmd hm t ht
  obtain ⟨l, hl⟩ := issued_step hs
  have lift : s.issued[t]? = some (i, cmd.out) → s'.issued[t]? = some (i, cmd.out) := fun hx => by rw [← hl]; exact getElem?_append_some hx
  rcases client_step hs hi with ⟨hi', hc⟩ | ⟨rfl, _, name, _, hc⟩
  · cases hc with
    | same h1 h2 h3 => rw [h3] at hm; exact lift (ih i hi' cmd hm t ht)
    | began call ha h1 h2 h3 => rw [h3] at hm; exact lift (ih i hi' cmd hm t ht)
    | submitted k c ha hk h1 h2 h3 =>
      rw [h3, List.mem_append, List.mem_singleton] at hm
      rcases hm with hm | rfl
      · exact lift (ih i hi' cmd hm t ht)
      · exact lift ((req hr).pending i hi' cmd (List.mem_append_left _ (List.mem_of_getElem? hk)) t ht)
    | refused k c ha hk h1 h2 h3 => rw [h3] at hm; exact lift (ih i hi' cmd hm t ht)
  · rw [hc] at hm; cases hm

end Sys

namespace App

open Neutron World

variable {T : Type}

theorem requests_append (a b : List Ev) : requests (a ++ b) = requests a ++ requests b := by
  unfold requests; exact List.filterMap_append

theorem slot_tok {s : Sys.State} {i : Nat} {tok : Option Nat} {cmd : Sys.ClientCmd}
    (h : (s.clients i).starting[slot s i tok]? = some cmd) : cmd.tok = tok := by
  obtain ⟨h1, h2⟩ := List.getElem?_eq_some_iff.mp h
  have := List.findIdx_getElem (w := h1)
  unfold slot at h2
  rw [h2] at this
  simpa using this

/-- What a call asked for is with the engine, in the order in which it was asked for. -/
def InOrder (s : Sys.State) (j : Job) : Prop :=
  ∀ i, j.client = some i → i < s.nClients ∧ (requests j.events).Sublist ((s.clients i).submitted.filterMap Sys.ClientCmd.tok)

theorem in_order {cfg : World.Cfg T} {acts : List Act} {log : List World.Act} {a : State T} (h : Run cfg acts log a) :
    ∀ j ∈ a.jobs, InOrder a.world.sys j := by
  refine job_induct_with (I := fun s j => Kind j ∧ (∀ tok, j.handing = some tok → Handing s j tok) ∧ Seen s j)
    (fun h j hj => ⟨kind h j hj, handing_ok h j hj, seen h j hj⟩) InOrder ?_ ?_ ?_ (fun _ _ h => h) h
  · intro s x s' j hr hq hs i hi
    obtain ⟨h1, h2⟩ := hq i hi
    exact ⟨Nat.lt_of_lt_of_le h1 (Sys.nClients_mono hs), h2.trans ((submitted_mono hs h1).sublist.filterMap _)⟩
  · intro s c hr hlt i hi
    cases c with
    | consumer b | producer b => simp [Start.job] at hi
    | call k p =>
      simp only [Start.job, Option.some.injEq] at hi
      subst hi
      exact ⟨hlt k p rfl, by simp [Job.events, Start.job, requests]⟩
  · intro s s' j as hr ⟨hk, hhand, hseen⟩ hq hl ha hs hq'
    have keep : ∀ j', j'.client = j.client → requests j'.events = requests j.events → InOrder s' j' := by
      intro j' h1 h2 i hi
      rw [h1] at hi
      rw [h2]
      exact hq' i hi
    have hev : ∀ (j' : Job) (ev : SetupEv), j'.trace = j.trace ++ [ev] → j'.events = j.events ++ (match ev with | .did _ ev => [ev] | _ => []) := by
      intro j' ev hj
      unfold Job.events
      rw [hj, List.filterMap_append]
      cases ev <;> rfl
    by_cases hp : ∃ core call k k', j.prog = .session core (.hand call k) k'
    · obtain ⟨core, call, k, k', hp⟩ := hp
      obtain ⟨rfl, i, hc⟩ := kind_ret hk hp
      cases hh : j.handing with
      | none => rw [after_begin hp hc hh]; exact keep _ rfl rfl
      | some tok =>
        rw [after_put hp hc hh]
        unfold Job.acts at ha
        rw [hp, hc, hh] at ha
        simp only [Option.some.injEq] at ha
        subst ha
        obtain ⟨cmd, hput⟩ := put hs
        have htok := slot_tok hput.at_
        intro i' hi'
        have : i' = i := by simpa [hc] using hi'.symm
        subst this
        refine ⟨by rw [hput.nClients]; exact hput.lt, ?_⟩
        rw [hev _ (.did core (.handed call (if Sys.engineEnd s i' then .ok (tok.getD 0) else .err .channelTerminated))) rfl,
          requests_append, hput.submitted, List.filterMap_append]
        refine List.Sublist.append (hq i' hc).2 ?_
        cases he : Sys.engineEnd s i' with
        | false => simp [requests]
        | true =>
          simp only [if_true]
          obtain ⟨i2, core2, call2, k2, g1, g2, g3⟩ := hhand tok hh
          rw [hp] at g2; cases g2
          rcases g3 with ⟨g3, rfl⟩ | ⟨g3, t, core', rfl, g5⟩
          · simp [requests, g3]
          · simp [requests, g3, htok]
    · unfold Job.after
      split
      · rename_i k hp0
        intro i hi
        simp only [Option.some.injEq] at hi
        subst hi
        have htr : j.trace = [] := by
          cases hk with
          | missing hp' => rw [hp0] at hp'; cases hp'
          | consumer b name topic subscription hb hm hn hst =>
            cases hst with
            | new _ _ ht => exact ht
            | registering _ _ _ hp' => rw [hp0] at hp'; cases hp'
            | refused _ _ hp' => rw [hp0] at hp'; cases hp'
            | calls _ _ _ hp' => cases hp' with
              | running _ hp' => rw [hp0] at hp'; cases hp'
              | over _ hp' => rw [hp0] at hp'; cases hp'
          | producer b name topic hb hm hn hst =>
            cases hst with
            | new _ _ ht => exact ht
            | registering _ _ _ hp' => rw [hp0] at hp'; cases hp'
            | refused _ _ hp' => rw [hp0] at hp'; cases hp'
            | calls _ _ _ hp' => cases hp' with
              | running _ hp' => rw [hp0] at hp'; cases hp'
              | over _ hp' => rw [hp0] at hp'; cases hp'
          | call i p core evs hm hc hp' => cases hp' with
              | running _ hp' => rw [hp0] at hp'; cases hp'
              | over _ hp' => rw [hp0] at hp'; cases hp'
        have hacts : as = [.newClient j.name] := by
          unfold Job.acts at ha
          rw [hp0] at ha
          simpa using ha.symm
        subst hacts
        have hn := (newClient_new hs).1
        refine ⟨by omega, ?_⟩
        simp [Job.events, htr, requests]
      · split
        · exact keep _ rfl (by rw [hev _ _ rfl]; simp)
        · exact keep _ rfl (by rw [hev _ _ rfl]; simp)
        · exact hq'
      · rename_i hp0 _; exact absurd ⟨_, _, _, _, hp0⟩ hp
      · split
        · exact keep _ rfl (by rw [hev _ _ rfl, requests_append]; simp [requests])
        · exact hq'
      · exact keep _ rfl rfl
      · exact hq'

/-- The call's requests are numbered from `n` on. -/
def From (n : Nat) (j : Job) : Prop :=
  (∀ t ∈ requests j.events, n ≤ t) ∧ ∀ t, j.handing = some (some t) → n ≤ t

theorem from_after {s s' : Sys.State} {j : Job} {n : Nat} (hn : n ≤ s.issued.length) (h : From n j)
    (hh : ∀ tok, j.handing = some tok → Handing s j tok) : From n (j.after s s') := by
  have hev : ∀ (j' : Job) (ev : SetupEv), j'.trace = j.trace ++ [ev] → j'.events = j.events ++ (match ev with | .did _ ev => [ev] | _ => []) := by
    intro j' ev hj
    unfold Job.events
    rw [hj, List.filterMap_append]
    cases ev <;> rfl
  have keep : ∀ j', requests j'.events = requests j.events → j'.handing = j.handing → From n j' := by
    intro j' h1 h2
    unfold From
    rw [h1, h2]
    exact h
  unfold Job.after
  split
  · exact keep _ (by rw [hev _ _ rfl]; simp) rfl
  · split
    · exact keep _ (by rw [hev _ _ rfl]; simp) rfl
    · exact keep _ (by rw [hev _ _ rfl]; simp) rfl
    · exact h
  · rename_i core call k k' i hp hc
    split
    · refine ⟨h.1, fun t ht => ?_⟩
      simp only [Option.some.injEq] at ht
      split at ht
      · cases ht; exact hn
      · cases ht
    · rename_i tok htok
      refine ⟨fun t ht => ?_, fun t ht => by cases ht⟩
      rw [hev _ (.did core (.handed call (if Sys.engineEnd s i then .ok (tok.getD 0) else .err .channelTerminated))) rfl,
          requests_append, List.mem_append] at ht
      rcases ht with ht | ht
      · exact h.1 t ht
      · obtain ⟨i2, core2, call2, k2, g1, g2, g3⟩ := hh tok htok
        rw [hp] at g2; cases g2
        cases he : Sys.engineEnd s i with
        | false => simp [requests, he] at ht
        | true =>
          rcases g3 with ⟨g3, rfl⟩ | ⟨g3, t', core', rfl, g5⟩
          · simp [requests, g3, he] at ht
          · simp [requests, g3, he] at ht
            subst ht
            exact h.2 t htok
  · split
    · exact keep _ (by rw [hev _ _ rfl, requests_append]; simp [requests]) rfl
    · exact h
  · exact keep _ rfl rfl
  · exact h

theorem run_last {cfg : World.Cfg T} {acts as : List Act} {x : Act} {log : List World.Act} {a : State T} (h : Run cfg acts log a)
    (he : acts = as ++ [x]) : ∃ log0 a0, Run cfg as log0 a0 ∧ step cfg a0 x = some a ∧ log = log0 ++ induced a0 x := by
  cases h with
  | nil => simp at he
  | @snoc as' log0 a0 _ y hr hs =>
    obtain ⟨rfl, h2⟩ := List.append_inj' he rfl
    have : y = x := by simpa using h2
    subst this
    exact ⟨_, _, hr, hs, rfl⟩

theorem run_unique {cfg : World.Cfg T} {acts : List Act} {log log' : List World.Act} {a a' : State T} (h : Run cfg acts log a)
    (h' : Run cfg acts log' a') : log = log' ∧ a = a' := by
  induction h generalizing log' a' with
  | nil =>
    generalize he : ([] : List Act) = acts at h'
    cases h' with
    | nil => exact ⟨rfl, rfl⟩
    | snoc => simp at he
  | snoc hr hs ih =>
    obtain ⟨log0, a0, h1, h2, h3⟩ := run_last h' rfl
    obtain ⟨rfl, rfl⟩ := ih h1
    rw [hs] at h2
    cases h2
    exact ⟨h3.symm, rfl⟩

/-- Calls made later have later requests. -/
theorem later {cfg : World.Cfg T} {pre : List Act} {log1 : List World.Act} {a1 : State T} (h1 : Run cfg pre log1 a1) :
    ∀ {post : List Act} {log : List World.Act} {a : State T}, Run cfg (pre ++ post) log a →
      a1.world.sys.issued <+: a.world.sys.issued ∧ a1.jobs.length ≤ a.jobs.length ∧
      (∀ i, i < a1.world.sys.nClients → i < a.world.sys.nClients ∧
        (a1.world.sys.clients i).submitted <+: (a.world.sys.clients i).submitted) ∧
      ∀ k j, a1.jobs.length ≤ k → a.jobs[k]? = some j → From a1.world.sys.issued.length j := by
  intro post
  induction post using List.reverseRecOn with
  | nil =>
    intro log a h
    rw [List.append_nil] at h
    obtain ⟨_, rfl⟩ := run_unique h1 h
    refine ⟨List.prefix_rfl, Nat.le_refl _, fun i hi => ⟨hi, List.prefix_rfl⟩, fun k j hk hj => ?_⟩
    rw [List.getElem?_eq_none hk] at hj; cases hj
  | append_singleton post x ih =>
    intro log a h
    rw [← List.append_assoc] at h
    obtain ⟨log0, a0, hr, hs, _⟩ := run_last h rfl
    obtain ⟨i1, i2, i3, i4⟩ := ih hr
    obtain ⟨hp, hw, hj⟩ := step_some hs
    have hmono : a0.world.sys.issued <+: a.world.sys.issued ∧ ∀ i, i < a0.world.sys.nClients → i < a.world.sys.nClients ∧
        (a0.world.sys.clients i).submitted <+: (a.world.sys.clients i).submitted :=
      worldSteps_induct (fun s => a0.world.sys.issued <+: s.issued ∧ ∀ i, i < a0.world.sys.nClients → i < s.nClients ∧
          (a0.world.sys.clients i).submitted <+: (s.clients i).submitted)
        (fun s y s' hq hstep => ⟨hq.1.trans (Sys.issued_step hstep), fun i hi =>
          ⟨Nat.lt_of_lt_of_le (hq.2 i hi).1 (Sys.nClients_mono hstep), (hq.2 i hi).2.trans (submitted_mono hstep (hq.2 i hi).1)⟩⟩)
        ⟨List.prefix_rfl, fun i hi => ⟨hi, List.prefix_rfl⟩⟩ hw
    refine ⟨i1.trans hmono.1, ?_, fun i hi => ⟨(hmono.2 i (i3 i hi).1).1, (i3 i hi).2.trans (hmono.2 i (i3 i hi).1).2⟩, ?_⟩
    · rw [hj]
      cases x with
      | world _ => exact i2
      | start c => simp only [jobsAfter, List.length_append]; omega
      | run k => simpa only [jobsAfter, List.length_modify] using i2
      | drop k => simpa only [jobsAfter, List.length_modify] using i2
    · intro k j hk hget
      rw [hj] at hget
      cases x with
      | world _ => exact i4 k j hk hget
      | start c =>
        simp only [jobsAfter] at hget
        by_cases hlt : k < a0.jobs.length
        · rw [List.getElem?_append_left hlt] at hget; exact i4 k j hk hget
        · have hm := List.mem_of_getElem? (show ([c.job a0.world.sys])[k - a0.jobs.length]? = some j by
            rw [List.getElem?_append_right (by omega)] at hget; exact hget)
          rw [List.mem_singleton] at hm
          subst hm
          cases c <;> exact ⟨by simp [Start.job, Job.events, requests], fun t ht => by cases ht⟩
      | run n =>
        simp only [jobsAfter, List.getElem?_modify] at hget
        cases hk0 : a0.jobs[k]? with
        | none => simp [hk0] at hget
        | some j0 =>
          have h0 := i4 k j0 hk hk0
          simp only [hk0, Option.map_eq_map, Option.map_some, Option.some.injEq] at hget
          split at hget
          · rw [← hget]
            exact from_after i1.length_le h0 (handing_ok hr j0 (List.mem_of_getElem? hk0))
          · rw [← hget]; exact h0
      | drop n =>
        simp only [jobsAfter, List.getElem?_modify] at hget
        cases hk0 : a0.jobs[k]? with
        | none => simp [hk0] at hget
        | some j0 =>
          have h0 := i4 k j0 hk hk0
          simp only [hk0, Option.map_eq_map, Option.map_some, Option.some.injEq] at hget
          split at hget <;> (rw [← hget]; exact h0)

/-- What a call asked for before another was made comes first. -/
theorem ordered {cfg : World.Cfg T} {pre post : List Act} {log1 log : List World.Act} {a1 a : State T} (h1 : Run cfg pre log1 a1)
    (h : Run cfg (pre ++ post) log a) {j1 j2 : Job} {k i : Nat} (hj1 : j1 ∈ a1.jobs) (hk : a1.jobs.length ≤ k)
    (hj2 : a.jobs[k]? = some j2) (hc1 : j1.client = some i) (hc2 : j2.client = some i) :
    (requests j1.events ++ requests j2.events).Sublist ((a.world.sys.clients i).submitted.filterMap Sys.ClientCmd.tok) := by
  obtain ⟨_, _, l3, l4⟩ := later h1 h
  obtain ⟨hi, ho1⟩ := in_order h1 j1 hj1 i hc1
  obtain ⟨_, ho2⟩ := in_order h j2 (List.mem_of_getElem? hj2) i hc2
  obtain ⟨_, rest, hrest⟩ := l3 i hi
  have hf := (l4 k j2 hk hj2).1
  rw [← hrest, List.filterMap_append] at ho2 ⊢
  refine List.Sublist.append ho1 ?_
  have hx := ho2.filter (fun t => decide (a1.world.sys.issued.length ≤ t))
  rw [List.filter_append, List.filter_eq_self.mpr (fun t ht => by simpa using hf t ht)] at hx
  have hnone : ((a1.world.sys.clients i).submitted.filterMap Sys.ClientCmd.tok).filter
      (fun t => decide (a1.world.sys.issued.length ≤ t)) = [] := by
    rw [List.filter_eq_nil_iff]
    intro t ht
    obtain ⟨cmd, hm, ht⟩ := List.mem_filterMap.mp ht
    have := (Sys.once_client (reachable h1) i hi).2 cmd (List.mem_append_left _ hm) t ht
    simpa using this
  rw [hnone, List.nil_append] at hx
  exact hx.trans List.filter_sublist

end App

end Neutron
