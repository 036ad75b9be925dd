import Verif.Model.App
import Verif.Proof.WorldLog
import Verif.Proof.SysOnce
import Verif.Proof.SysHonest
import Verif.Spec.Session

/-!
# The application's calls: every run is a run of the instance, and of each call's program
-/

namespace Neutron.App

open Neutron World

variable {T : Type}

theorem worldSteps_append {cfg : World.Cfg T} (as bs : List World.Act) : ∀ (w : World T),
    worldSteps cfg w (as ++ bs) = (worldSteps cfg w as).bind fun w' => worldSteps cfg w' bs := by
  induction as with
  | nil => intro w; rfl
  | cons a as ih =>
    intro w
    simp only [List.cons_append, worldSteps]
    cases World.step cfg w a with
    | none => rfl
    | some w' => exact ih w'

theorem worldSteps_run {cfg : World.Cfg T} {as : List World.Act} : ∀ {l : List World.Act} {w w' : World T}, World.Run cfg l w →
    worldSteps cfg w as = some w' → World.Run cfg (l ++ as) w' := by
  induction as with
  | nil => intro l w w' h hs; cases hs; simpa using h
  | cons a as ih =>
    intro l w w' h hs
    simp only [worldSteps] at hs
    cases hw : World.step cfg w a with
    | none => rw [hw] at hs; cases hs
    | some w1 =>
      rw [hw] at hs
      have := ih (World.Run.snoc h hw) hs
      simpa using this

theorem step_some {cfg : World.Cfg T} {a a' : State T} {x : Act} (h : step cfg a x = some a') :
    possible cfg a x = true ∧ worldSteps cfg a.world (induced a x) = some a'.world ∧ a'.jobs = jobsAfter a a'.world.sys x := by
  unfold step at h
  split at h
  · rename_i hp
    split at h
    · rename_i w hw
      cases h
      exact ⟨hp, hw, rfl⟩
    · cases h
  · cases h

/-- Every run of the application's calls is a run of the instance. -/
theorem run_world {cfg : World.Cfg T} {acts : List Act} {log : List World.Act} {a : State T} (h : Run cfg acts log a) :
    World.Run cfg log a.world := by
  induction h with
  | nil => exact .nil
  | snoc h hs ih => exact worldSteps_run ih (step_some hs).2.1

/-! ## What a step of the world does to the instance -/

theorem worldSteps_sys {cfg : World.Cfg T} {as : List Sys.Act} : ∀ {w w' : World T}, worldSteps cfg w (as.map .sys) = some w' →
    sysSteps cfg.sys w.sys as = some w'.sys := by
  induction as with
  | nil => intro w w' h; cases h; rfl
  | cons a as ih =>
    intro w w' h
    simp only [List.map_cons, worldSteps] at h
    cases hw : World.step cfg w (.sys a) with
    | none => rw [hw] at h; cases h
    | some w1 =>
      rw [hw] at h
      simp only [World.step] at hw
      split at hw
      · cases hs : Sys.step cfg.sys w.sys a with
        | none => rw [hs] at hw; cases hw
        | some s =>
          rw [hs] at hw
          cases hw
          simp only [sysSteps, hs]
          exact ih h
      · cases hw

/-- Something every step of the instance preserves is preserved by every step of the whole. -/
theorem world_step_induct {cfg : World.Cfg T} {w w' : World T} {x : World.Act} (P : Sys.State → Prop)
    (hP : ∀ s a s', P s → Sys.step cfg.sys s a = some s' → P s') (h0 : P w.sys) (hs : World.step cfg w x = some w') : P w'.sys := by
  have many : ∀ (as : List Sys.Act) (s s' : Sys.State), P s → sysSteps cfg.sys s as = some s' → P s' := by
    intro as
    induction as with
    | nil => intro s s' h hs; cases hs; exact h
    | cons a as ih =>
      intro s s' h hs
      simp only [sysSteps] at hs
      cases hx : Sys.step cfg.sys s a with
      | none => rw [hx] at hs; cases hs
      | some s1 => rw [hx] at hs; exact ih _ _ (hP _ _ _ h hx) hs
  cases x with
  | arrive b r =>
    simp only [World.step] at hs
    split at hs
    · cases hs; exact h0
    · cases hs
  | hold b =>
    simp only [World.step] at hs
    split at hs
    · cases hs; exact h0
    · cases hs
  | serve i' =>
    simp only [World.step] at hs
    split at hs
    · cases hs; exact h0
    · cases hs
  | poll b ans =>
    simp only [World.step] at hs
    split at hs
    · split at hs
      · rename_i s hx; cases hs; exact many _ _ _ h0 hx
      · cases hs
    · cases hs
  | write b now io =>
    simp only [World.step] at hs
    split at hs
    · split at hs
      · split at hs
        · rename_i s hx; cases hs; exact hP _ _ _ h0 hx
        · cases hs
      · split at hs
        · split at hs
          · rename_i s hx; cases hs; exact hP _ _ _ h0 hx
          · cases hs
        · cases hs
    · cases hs
  | sys a =>
    simp only [World.step] at hs
    split at hs
    · split at hs
      · rename_i s hx; cases hs; exact hP _ _ _ h0 hx
      · cases hs
    · cases hs
  | app a =>
    simp only [World.step] at hs
    split at hs
    · split at hs
      · split at hs
        · rename_i s hx; cases hs; exact many _ _ _ h0 hx
        · cases hs
      · cases hs
    · cases hs

theorem worldSteps_induct {cfg : World.Cfg T} (P : Sys.State → Prop)
    (hP : ∀ s a s', P s → Sys.step cfg.sys s a = some s' → P s') {as : List World.Act} : ∀ {w w' : World T}, P w.sys →
      worldSteps cfg w as = some w' → P w'.sys := by
  induction as with
  | nil => intro w w' h hs; cases hs; exact h
  | cons a as ih =>
    intro w w' h hs
    simp only [worldSteps] at hs
    cases hw : World.step cfg w a with
    | none => rw [hw] at hs; cases hs
    | some w1 => rw [hw] at hs; exact ih (world_step_induct P hP h hw) hs

/-- What making a command does. -/
structure Begun (s s' : Sys.State) (i : Nat) (c : Call) : Prop where
  lt : i < s.nClients
  ready : (s.clients i).phase = .ready
  nClients : s'.nClients = s.nClients
  issued : s'.issued = if c.expectsResponse then s.issued ++ [(i, ((s.clients i).core.issue c).2)] else s.issued
  core : (s'.clients i).core = ((s.clients i).core.issue c).1
  phase : (s'.clients i).phase = .ready
  starting : (s'.clients i).starting = (s.clients i).starting ++
    [⟨((s.clients i).core.issue c).2, if c.expectsResponse then some s.issued.length else none⟩]
  submitted : (s'.clients i).submitted = (s.clients i).submitted
  refused : s'.refused = s.refused
  others : ∀ k, k ≠ i → s'.clients k = s.clients k

theorem begun {cfg : Sys.Cfg} {s s' : Sys.State} {i : Nat} {c : Call}
    (h : sysSteps cfg s [.beginCall i c] = some s') : Begun s s' i c := by
  simp only [sysSteps, Sys.step, Sys.beginCall] at h
  by_cases hi : i < s.nClients ∧ (s.clients i).phase = .ready
  · cases he : c.expectsResponse <;>
    · simp only [hi, and_self, if_true, he, Bool.false_eq_true, if_false, Sys.State.setClient, Option.some.injEq] at h
      subst h
      refine ⟨hi.1, hi.2, rfl, ?_, ?_, ?_, ?_, ?_, ?_, ?_⟩ <;> simp +contextual [he, hi.2]
  · simp [hi] at h

/-- What putting a command in the channel does. -/
structure Put (s s' : Sys.State) (i n : Nat) (cmd : Sys.ClientCmd) : Prop where
  lt : i < s.nClients
  at_ : (s.clients i).starting[n]? = some cmd
  nClients : s'.nClients = s.nClients
  issued : s'.issued = s.issued
  core : (s'.clients i).core = (s.clients i).core
  phase : (s'.clients i).phase = (s.clients i).phase
  starting : (s'.clients i).starting = (s.clients i).starting.eraseIdx n
  submitted : (s'.clients i).submitted = (s.clients i).submitted ++ (if Sys.engineEnd s i then [cmd] else [])
  refused : s'.refused = s.refused ++ (if Sys.engineEnd s i then [] else [(i, cmd)])
  others : ∀ k, k ≠ i → s'.clients k = s.clients k

theorem put {cfg : Sys.Cfg} {s s' : Sys.State} {i n : Nat}
    (h : sysSteps cfg s [.submit i n] = some s') : ∃ cmd, Put s s' i n cmd := by
  simp only [sysSteps, Sys.step, Sys.submit] at h
  by_cases hi : i < s.nClients
  · cases hn : (s.clients i).starting[n]? with
    | none => simp [hi, hn] at h
    | some cmd =>
      cases hx : Sys.engineEnd s i <;>
      · simp only [hi, if_true, hn, hx, Bool.false_eq_true, if_false, Sys.State.setClient, Option.some.injEq] at h
        subst h
        refine ⟨cmd, hi, hn, rfl, ?_, ?_, ?_, ?_, ?_, ?_, ?_⟩ <;> simp +contextual [hx]
  · simp [hi] at h

/-! ## One call at a time -/

theorem reachable {cfg : World.Cfg T} {acts : List Act} {log : List World.Act} {a : State T} (h : Run cfg acts log a) :
    Sys.Reachable cfg.sys a.world.sys := by
  obtain ⟨l, _, hp⟩ := proj (run_world h)
  exact ⟨l, hp.sys⟩

/-- Induction over runs, one call at a time: what holds of a call when it is made, and is kept by every step of the instance, by the
call's own steps and by its being dropped, holds of all calls.  (`I` is something already known of all calls.) -/
theorem job_induct_with {cfg : World.Cfg T} {I : Sys.State → Job → Prop}
    (hI : ∀ {acts : List Act} {log : List World.Act} {a : State T}, Run cfg acts log a → ∀ j ∈ a.jobs, I a.world.sys j)
    (Q : Sys.State → Job → Prop)
    (mono : ∀ s a s' j, Sys.Reachable cfg.sys s → Q s j → Sys.step cfg.sys s a = some s' → Q s' j)
    (start : ∀ s c, Sys.Reachable cfg.sys s → (∀ i p, c = Start.call i p → i < s.nClients) → Q s (c.job s))
    (run : ∀ s s' j as, Sys.Reachable cfg.sys s → I s j → Q s j → j.live = true → j.acts s = some as →
      sysSteps cfg.sys s as = some s' → Q s' j → Q s' (j.after s s'))
    (drop : ∀ s j, Q s j → Q s { j with live := false })
    {acts : List Act} {log : List World.Act} {a : State T} (h : Run cfg acts log a) : ∀ j ∈ a.jobs, Q a.world.sys j := by
  induction h with
  | nil => intro j hj; cases hj
  | @snoc as log a a' x h hs ih =>
    obtain ⟨hp, hw, hj⟩ := step_some hs
    have hr := reachable h
    have keep : ∀ j ∈ a.jobs, Q a'.world.sys j := fun j hm =>
      (worldSteps_induct (fun s => Sys.Reachable cfg.sys s ∧ Q s j)
        (fun s y s' hq hstep => ⟨hq.1.step hstep, mono s y s' j hq.1 hq.2 hstep⟩) ⟨hr, ih j hm⟩ hw).2
    rw [hj]
    cases x with
    | world x => exact keep
    | start c =>
      simp only [jobsAfter, List.mem_append, List.mem_singleton]
      rintro j (hm | rfl)
      · exact keep j hm
      · simp only [induced, worldSteps, Option.some.injEq] at hw
        rw [← hw]
        refine start _ c hr ?_
        rintro i p rfl
        simp only [possible, Start.possible, Bool.and_eq_true, decide_eq_true_eq] at hp
        exact hp.1.1
    | run k =>
      intro j hm
      simp only [jobsAfter] at hm
      obtain ⟨n, hn⟩ := List.getElem?_of_mem hm
      rw [List.getElem?_modify] at hn
      cases hk : a.jobs[n]? with
      | none => simp [hk] at hn
      | some j0 =>
        have hj0 := List.mem_of_getElem? hk
        simp only [hk, Option.map_eq_map, Option.map_some, Option.some.injEq] at hn
        split at hn
        · rename_i he
          subst he
          simp only [possible, hk, Bool.and_eq_true] at hp
          obtain ⟨as, has⟩ := Option.isSome_iff_exists.mp hp.2
          simp only [induced, hk, has, Option.getD_some] at hw
          rw [← hn]
          exact run _ _ j0 as hr (hI h j0 hj0) (ih j0 hj0) hp.1 has (worldSteps_sys hw) (keep j0 hj0)
        · rw [← hn]; exact keep j0 hj0
    | drop k =>
      intro j hm
      simp only [jobsAfter] at hm
      obtain ⟨n, hn⟩ := List.getElem?_of_mem hm
      rw [List.getElem?_modify] at hn
      cases hk : a.jobs[n]? with
      | none => simp [hk] at hn
      | some j0 =>
        have hj0 := List.mem_of_getElem? hk
        simp only [hk, Option.map_eq_map, Option.map_some, Option.some.injEq] at hn
        split at hn
        · rw [← hn]; exact drop _ _ (keep j0 hj0)
        · rw [← hn]; exact keep j0 hj0

theorem job_induct {cfg : World.Cfg T} (Q : Sys.State → Job → Prop)
    (mono : ∀ s a s' j, Sys.Reachable cfg.sys s → Q s j → Sys.step cfg.sys s a = some s' → Q s' j)
    (start : ∀ s c, Sys.Reachable cfg.sys s → (∀ i p, c = Start.call i p → i < s.nClients) → Q s (c.job s))
    (run : ∀ s s' j as, Sys.Reachable cfg.sys s → Q s j → j.live = true → j.acts s = some as → sysSteps cfg.sys s as = some s' →
      Q s' j → Q s' (j.after s s'))
    (drop : ∀ s j, Q s j → Q s { j with live := false })
    {acts : List Act} {log : List World.Act} {a : State T} (h : Run cfg acts log a) : ∀ j ∈ a.jobs, Q a.world.sys j :=
  job_induct_with (I := fun _ _ => True) (fun _ _ _ => trivial) Q mono start (fun s s' j as hr _ => run s s' j as hr) drop h

/-! ## Calls do what their programs say -/

/-- From `p`, doing `tr` leads to `q`. -/
def Leads (p : Setup Unit) (tr : List SetupEv) (q : Setup Unit) : Prop :=
  (∀ tr' o, q.Runs tr' o → p.Runs (tr ++ tr') o) ∧ ∀ tr', q.Steps tr' → p.Steps (tr ++ tr')

theorem Leads.refl (p : Setup Unit) : Leads p [] p := ⟨fun _ _ h => h, fun _ h => h⟩

theorem Leads.snoc {p q q' : Setup Unit} {tr : List SetupEv} {new : List SetupEv} (h : Leads p tr q) (h' : Leads q new q') :
    Leads p (tr ++ new) q' :=
  ⟨fun tr' o hr => by rw [List.append_assoc]; exact h.1 _ _ (h'.1 _ _ hr),
   fun tr' hr => by rw [List.append_assoc]; exact h.2 _ (h'.2 _ hr)⟩

theorem leads_newId (k : UInt64 → Setup Unit) (id : UInt64) : Leads (.newId k) [.allocated id] (k id) :=
  ⟨fun _ _ h => .newId _ _ _ _ h, fun _ h => .newId _ _ _ h⟩

theorem leads_register (topic : String) (id : UInt64) (k : Outcome Unit → Setup Unit) (r : Outcome Unit)
    (hr : r = .ok () ∨ r = .err .channelTerminated) : Leads (.register topic id k) [.registered topic id r] (k r) :=
  ⟨fun _ _ h => .register _ _ _ _ _ _ hr h, fun _ h => .register _ _ _ _ _ hr h⟩

theorem leads_hand (c : Client) (call : Call) (k : Outcome Nat → Prog Unit) (k' : Outcome Unit → Setup Unit) (r : Outcome Nat)
    (hr : Possible (.handed call r)) : Leads (.session c (.hand call k) k') [.did c (.handed call r)] (.session c (k r) k') := by
  constructor
  · intro tr o h
    cases h with
    | session _ _ _ evs r' tr' _ hp hk => exact .session _ _ _ (.handed call r :: evs) r' tr' _ (.hand _ _ _ _ _ hr hp) hk
  · intro tr h
    cases h with
    | nil => exact .inSession _ _ _ [.handed call r] (.hand _ _ _ _ hr (.nil _))
    | inSession _ _ _ evs hp => exact .inSession _ _ _ (.handed call r :: evs) (.hand _ _ _ _ hr hp)
    | session _ _ _ evs r' tr' hp hk => exact .session _ _ _ (.handed call r :: evs) r' tr' (.hand _ _ _ _ _ hr hp) hk

theorem leads_wait (c : Client) (t : Nat) (call : Call) (k : Outcome Response → Prog Unit) (k' : Outcome Unit → Setup Unit)
    (r : Outcome Response) (hr : Possible (.waited t call r)) :
    Leads (.session c (.wait t call k) k') [.did c (.waited t call r)] (.session c (k r) k') := by
  constructor
  · intro tr o h
    cases h with
    | session _ _ _ evs r' tr' _ hp hk => exact .session _ _ _ (.waited t call r :: evs) r' tr' _ (.wait _ _ _ _ _ _ hr hp) hk
  · intro tr h
    cases h with
    | nil => exact .inSession _ _ _ [.waited t call r] (.wait _ _ _ _ _ hr (.nil _))
    | inSession _ _ _ evs hp => exact .inSession _ _ _ (.waited t call r :: evs) (.wait _ _ _ _ _ hr hp)
    | session _ _ _ evs r' tr' hp hk => exact .session _ _ _ (.waited t call r :: evs) r' tr' (.wait _ _ _ _ _ _ hr hp) hk

theorem leads_ret (c : Client) (o : Outcome Unit) (k' : Outcome Unit → Setup Unit) : Leads (.session c (.ret o) k') [] (k' o) :=
  ⟨fun tr o' h => .session c (.ret o) k' [] o tr o' (.ret _) h, fun tr h => .session c (.ret o) k' [] o tr (.ret _) h⟩

/-- One step of a call is a step of its program. -/
theorem after_leads (s s' : Sys.State) (j : Job) : ∃ new, (j.after s s').trace = j.trace ++ new ∧ Leads j.prog new (j.after s s').prog := by
  unfold Job.after
  split
  · exact ⟨_, rfl, by rename_i h; rw [h]; exact leads_newId _ _⟩
  · rename_i topic id k i h _
    split
    · exact ⟨_, rfl, by rw [h]; exact leads_register _ _ _ _ (.inl rfl)⟩
    · exact ⟨_, rfl, by rw [h]; exact leads_register _ _ _ _ (.inr rfl)⟩
    · exact ⟨[], by simp, .refl _⟩
  · rename_i h _
    split
    · exact ⟨[], by simp, .refl _⟩
    · refine ⟨_, rfl, ?_⟩
      rw [h]
      refine leads_hand _ _ _ _ _ ?_
      split
      · exact .handed _ _
      · exact .refused _
  · rename_i h _
    split
    · exact ⟨_, rfl, by rw [h]; exact leads_wait _ _ _ _ _ _ (.waited _ _ _)⟩
    · exact ⟨[], by simp, .refl _⟩
  · rename_i h _
    exact ⟨[], by simp, by rw [h]; exact leads_ret _ _ _⟩
  · exact ⟨[], by simp, .refl _⟩

theorem leads {cfg : World.Cfg T} {acts : List Act} {log : List World.Act} {a : State T} (h : Run cfg acts log a) :
    ∀ j ∈ a.jobs, Leads j.start j.trace j.prog := by
  refine job_induct (fun _ j => Leads j.start j.trace j.prog) (fun _ _ _ _ _ h _ => h) ?_ ?_ (fun _ _ h => h) h
  · intro s c _ _
    cases c <;> exact .refl _
  · intro s s' j as _ hq _ _ _ _
    obtain ⟨new, h1, h2⟩ := after_leads s s' j
    rw [h1, show (j.after s s').start = j.start from ?_]
    · exact hq.snoc h2
    · unfold Job.after
      split <;> (try rfl) <;> split <;> rfl

/-- What a call has done so far is what its program can do. -/
theorem steps_of {cfg : World.Cfg T} {acts : List Act} {log : List World.Act} {a : State T} (h : Run cfg acts log a) {j : Job}
    (hj : j ∈ a.jobs) : j.start.Steps j.trace := by
  have := (leads h j hj).2 [] (.nil _)
  simpa using this

/-- A call that ended did what its program can do, and has its result. -/
theorem runs_of {cfg : World.Cfg T} {acts : List Act} {log : List World.Act} {a : State T} (h : Run cfg acts log a) {j : Job}
    (hj : j ∈ a.jobs) {o : Outcome Unit} (he : j.ended = some o) : j.start.Runs j.trace o := by
  have hp : j.prog = .ret o := by
    unfold Job.ended at he
    split at he
    · cases he; assumption
    · cases he
  have := (leads h j hj).1 [] o (by rw [hp]; exact .ret _)
  simpa using this

end Neutron.App
