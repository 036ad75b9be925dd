import Verif.Proof.AppAsked
import Verif.Proof.WorldFlow

/-!
# The permits the consumer counts as granted are in the commands its client has given to the engine
-/

namespace Neutron

/-- The permits in the `FLOW`s among the commands of a client. -/
def Sys.flowsOf (l : List Sys.ClientCmd) : List UInt32 :=
  l.filterMap fun c => match c.out with
    | .flow f => some f.messagePermits
    | _ => none

theorem Sys.flowsOf_append (l m : List Sys.ClientCmd) : Sys.flowsOf (l ++ m) = Sys.flowsOf l ++ Sys.flowsOf m := List.filterMap_append

variable {T : Type}

theorem Consumer.granted_init {cfg : Consumer.Cfg T} {l : List Consumer.Act} {s : Consumer.State T} (h : Consumer.Run cfg l s) :
    s.tasks = [] → s.granted = [cfg.permits * 2] := by
  induction h with
  | nil => intro _; rfl
  | @snoc as s s' a h hs ih =>
    intro ht
    have goto : ∀ (i : Nat) (t : Consumer.Task T) (st : Consumer.Stage T), s.tasks[i]? = some t → (s.goto i t st).tasks ≠ [] := by
      intro i t st hi he
      have := List.getElem?_eq_some_iff.mp hi
      obtain ⟨hlt, _⟩ := this
      unfold Consumer.State.goto at he
      simp only [List.set_eq_nil_iff] at he
      rw [he] at hlt
      simp at hlt
    cases Consumer.step_cases hs with
    | deliver e h => exact ih ht
    | close => exact ih ht
    | spawn j => simp at ht
    | skip i t ht k hc e q hq he => exact ih ‹_›
    | cancel i t hi hw => exact absurd ht (goto i t _ hi)
    | ret i t hi _ hc | load i t hi _ hc | store i t hi _ _ hc | add i t hi _ _ hc | flow i t hi _ _ hc | lock i t hi _ hc
    | write i t hi _ _ hc | recv i t hi _ hc | gone i t hi _ hc | plugins i t hi _ hc | loop i t hi _ _ hc | refuse i t hi _ _ hc
    | accepted i t hi _ _ hc | rejected i t hi _ _ hc => exact absurd ht (goto i t _ hi)

namespace World

theorem submitted_steps_mono {cfg : Sys.Cfg} : ∀ {as : List Sys.Act} {s s' : Sys.State}, sysSteps cfg s as = some s' →
    ∀ {i : Nat}, i < s.nClients → (s.clients i).submitted <+: (s'.clients i).submitted ∧ i < s'.nClients := by
  intro as
  induction as with
  | nil => intro s s' h i hi; cases h; exact ⟨List.prefix_rfl, hi⟩
  | cons a as ih =>
    intro s s' h i hi
    simp only [sysSteps] at h
    cases hx : Sys.step cfg s a with
    | none => rw [hx] at h; cases h
    | some s1 =>
      rw [hx] at h
      have hi1 := Nat.lt_of_lt_of_le hi (Sys.nClients_mono hx)
      exact ⟨(App.submitted_mono hx hi).trans (ih h hi1).1, (ih h hi1).2⟩

/-- Each step grants what it hands over. -/
def Gave (cfg : Cfg T) (w w' : World T) : Prop :=
  ∃ l m, w'.app.granted = w.app.granted ++ l ∧ (w'.sys.clients cfg.me).submitted = (w.sys.clients cfg.me).submitted ++ m ∧
    l.Sublist (Sys.flowsOf m)

theorem gave_step {cfg : Cfg T} {acts : List Act} {w w' : World T} {x : Act} (h : Run cfg acts w) (hs : step cfg w x = some w')
    (hi : cfg.me < w.sys.nClients) : Gave cfg w w' ∧ cfg.me < w'.sys.nClients := by
  have same : ∀ {as : List Sys.Act}, sysSteps cfg.sys w.sys as = some w'.sys → w'.app.granted = w.app.granted →
      Gave cfg w w' ∧ cfg.me < w'.sys.nClients := by
    intro as h1 hg
    obtain ⟨⟨m, hm⟩, hlt⟩ := submitted_steps_mono h1 hi
    exact ⟨⟨[], m, by rw [hg, List.append_nil], hm.symm, List.nil_sublist _⟩, hlt⟩
  have one : ∀ {y : Sys.Act} {s : Sys.State}, Sys.step cfg.sys w.sys y = some s → sysSteps cfg.sys w.sys [y] = some s := by
    intro y s h; simp only [sysSteps, h]
  cases x with
  | arrive b r =>
    simp only [step] at hs
    split at hs
    · cases hs; exact same (as := []) rfl rfl
    · cases hs
  | hold b =>
    simp only [step] at hs
    split at hs
    · cases hs; exact same (as := []) rfl rfl
    · cases hs
  | serve i' =>
    simp only [step] at hs
    split at hs
    · cases hs; exact same (as := []) rfl rfl
    · cases hs
  | poll b ans =>
    simp only [step] at hs
    split at hs
    · split at hs
      · rename_i s1 h1; cases hs; exact same h1 rfl
      · cases hs
    · cases hs
  | write b now io =>
    simp only [step] at hs
    split at hs
    · split at hs
      · split at hs
        · rename_i s1 h1; cases hs; exact same (one h1) rfl
        · cases hs
      · split at hs
        · split at hs
          · rename_i s1 h1; cases hs; exact same (one h1) rfl
          · cases hs
        · cases hs
    · cases hs
  | sys y =>
    simp only [step] at hs
    split at hs
    · split at hs
      · rename_i s1 h1; cases hs; exact same (one h1) rfl
      · cases hs
    · cases hs
  | app y =>
    obtain ⟨log, appLog, hp⟩ := proj h
    simp only [step] at hs
    split at hs
    · rename_i ho
      split at hs
      · rename_i app happ
        split at hs
        · rename_i s1 h1; cases hs
          cases Consumer.step_cases happ with
          | deliver => cases ho
          | close => cases ho
          | flow i t ht n k hc hopen =>
            obtain ⟨j, st⟩ := t
            cases hc
            have hind : induced cfg w (.run i) = [.beginCall cfg.me (.flow n), .submit cfg.me (w.sys.clients cfg.me).starting.length] := by
              simp [induced, ht]
            rw [hind] at h1
            simp only [sysSteps] at h1
            cases hb : Sys.step cfg.sys w.sys (.beginCall cfg.me (.flow n)) with
            | none => rw [hb] at h1; cases h1
            | some s0 =>
              rw [hb] at h1
              have hbeg := App.begun (s := w.sys) (s' := s0) (i := cfg.me) (c := .flow n) (cfg := cfg.sys) (by simp only [sysSteps, hb])
              obtain ⟨c2, hput⟩ := App.put h1
              have hend : Sys.engineEnd s0 cfg.me = true := by
                have := step_begin hb
                have e := hp.isOpen
                rw [hopen] at e
                rw [this]
                simpa [Sys.engineEnd, Sys.State.setClient] using e.symm
              have hat := hput.at_
              rw [hbeg.starting, List.getElem?_append_right (Nat.le_refl _)] at hat
              simp only [Nat.sub_self, List.getElem?_cons_zero, Option.some.injEq] at hat
              refine ⟨⟨[n], [c2], rfl, ?_, ?_⟩, ?_⟩
              · simp only []
                rw [hput.submitted, hbeg.submitted, hend, if_pos rfl]
              · rw [← hat]; exact List.Sublist.refl _
              · simp only []
                rw [hput.nClients, hbeg.nClients]; exact hi
          | _ => exact same h1 rfl
        · cases hs
      · cases hs
    · cases hs

theorem gave_refl {cfg : Cfg T} (w : World T) : Gave cfg w w := ⟨[], [], by simp, by simp, List.nil_sublist _⟩

theorem gave_trans {cfg : Cfg T} {w w' w'' : World T} (h : Gave cfg w w') (h' : Gave cfg w' w'') : Gave cfg w w'' := by
  obtain ⟨l, m, h1, h2, h3⟩ := h
  obtain ⟨l', m', h1', h2', h3'⟩ := h'
  exact ⟨l ++ l', m ++ m', by rw [h1', h1, List.append_assoc], by rw [h2', h2, List.append_assoc], by
    rw [Sys.flowsOf_append]; exact h3.append h3'⟩

theorem gave_steps {cfg : Cfg T} : ∀ {l acts : List Act} {w w' : World T}, Run cfg acts w → App.worldSteps cfg w l = some w' →
    cfg.me < w.sys.nClients → Gave cfg w w' ∧ cfg.me < w'.sys.nClients := by
  intro l
  induction l with
  | nil => intro acts w w' _ h hi; cases h; exact ⟨gave_refl w, hi⟩
  | cons x l ih =>
    intro acts w w' hr h hi
    simp only [App.worldSteps] at h
    cases hx : step cfg w x with
    | none => rw [hx] at h; cases h
    | some w1 =>
      rw [hx] at h
      obtain ⟨g1, g2⟩ := gave_step hr hx hi
      obtain ⟨g3, g4⟩ := ih (.snoc hr hx) h g2
      exact ⟨gave_trans g1 g3, g4⟩

theorem granted_some {cfg : Consumer.Cfg T} {l : List Consumer.Act} {s : Consumer.State T} (h : Consumer.Run cfg l s) : s.granted ≠ [] := by
  induction h with
  | nil => intro h; cases h
  | snoc _ hs ih => cases Consumer.step_cases hs <;> first | exact ih | (intro h; simp at h)

theorem granted_head {cfg : Consumer.Cfg T} {l : List Consumer.Act} {s : Consumer.State T} (h : Consumer.Run cfg l s) :
    ∃ g, s.granted = cfg.permits * 2 :: g := by
  induction h with
  | nil => exact ⟨[], rfl⟩
  | snoc _ hs ih =>
    obtain ⟨g, hg⟩ := ih
    cases Consumer.step_cases hs with
    | flow i t ht n => exact ⟨g ++ [n], by simp [Consumer.State.goto, hg]⟩
    | _ => exact ⟨g, hg⟩

end World

namespace App

open Neutron World

theorem sysActs_granted {cfg : World.Cfg T} : ∀ {as : List Sys.Act} {w w' : World T}, worldSteps cfg w (as.map .sys) = some w' →
    w'.app.granted = w.app.granted := by
  intro as
  induction as with
  | nil => intro w w' h; cases h; rfl
  | cons a as ih =>
    intro w w' h
    simp only [List.map_cons, worldSteps] at h
    cases hx : World.step cfg w (.sys a) with
    | none => rw [hx] at h; cases h
    | some w1 =>
      rw [hx] at h
      rw [ih h]
      simp only [World.step] at hx
      split at hx
      · split at hx
        · cases hx; rfl
        · cases hx
      · cases hx

theorem newId_trace {j : Job} (h : Kind j) {k : UInt64 → Setup Unit} (hp : j.prog = .newId k) : j.trace = [] := by
  have calls : ∀ {core : Client} {evs : List Ev}, Calls core evs j.prog → False := by
    intro core evs h
    cases h with
    | running _ h => rw [hp] at h; cases h
    | over _ h => rw [hp] at h; cases h
  have stage : ∀ {name topic : String} {q : Prog Unit}, Stage name topic q j → j.trace = [] := by
    intro name topic q hs
    cases hs with
    | new hc _ ht => exact ht
    | registering i hc ht h => rw [hp] at h; cases h
    | refused i hc h => rw [hp] at h; cases h
    | calls i evs hc h => exact (calls h).elim
  cases h with
  | missing h => rw [hp] at h; cases h
  | consumer b name topic subscription hb hm hn hs => exact stage hs
  | producer b name topic hb hm hn hs => exact stage hs
  | call i p core evs hm hc hp => exact (calls hp).elim

/-- The permits the consumer counts as granted are in the `FLOW`s its client has given to the engine, once `connect` has handed over
its own. -/
theorem flows {cfg : World.Cfg T} {acts : List Act} {log : List World.Act} {a : State T} (h : Run cfg acts log a) :
    ∀ j ∈ a.jobs, j.owns = true → j.client = some cfg.me → ∀ n t, .handed (.flow n) (.ok t) ∈ j.events →
      cfg.me < a.world.sys.nClients ∧ (n :: a.world.app.granted.tail).Sublist (Sys.flowsOf (a.world.sys.clients cfg.me).submitted) := by
  induction h with
  | nil => intro j hj; cases hj
  | @snoc acts log a a' x h hs ih =>
    intro j' hj' ho hc n t hev
    obtain ⟨hp, hw, hj⟩ := step_some hs
    have hrw := run_world h
    have old : ∀ j ∈ a.jobs, j.owns = true → j.client = some cfg.me → .handed (.flow n) (.ok t) ∈ j.events →
        cfg.me < a'.world.sys.nClients ∧ (n :: a'.world.app.granted.tail).Sublist (Sys.flowsOf (a'.world.sys.clients cfg.me).submitted) := by
      intro j hm h1 h2 h3
      obtain ⟨g1, g2⟩ := ih j hm h1 h2 n t h3
      obtain ⟨⟨l, m, e1, e2, e3⟩, e4⟩ := gave_steps hrw hw g1
      refine ⟨e4, ?_⟩
      obtain ⟨lg, al, hpr⟩ := proj hrw
      rw [e1, e2, Sys.flowsOf_append, List.tail_append_of_ne_nil (granted_some hpr.app), ← List.cons_append]
      exact g2.append e3
    rw [hj] at hj'
    cases x with
    | world y => exact old j' hj' ho hc hev
    | start c =>
      simp only [jobsAfter, List.mem_append, List.mem_singleton] at hj'
      rcases hj' with hm | rfl
      · exact old j' hm ho hc hev
      · exfalso
        unfold Start.job at hev
        cases c <;> simp [Job.events] at hev
    | drop k =>
      simp only [jobsAfter] at hj'
      obtain ⟨m, hm⟩ := List.getElem?_of_mem hj'
      rw [List.getElem?_modify] at hm
      cases hk : a.jobs[m]? with
      | none => simp [hk] at hm
      | some j0 =>
        have hj0 := List.mem_of_getElem? hk
        simp only [hk, Option.map_eq_map, Option.map_some, Option.some.injEq] at hm
        split at hm
        · rw [← hm] at ho hc hev
          exact old j0 hj0 ho hc hev
        · rw [← hm] at ho hc hev; exact old j0 hj0 ho hc hev
    | run k =>
      simp only [jobsAfter] at hj'
      obtain ⟨m, hm⟩ := List.getElem?_of_mem hj'
      rw [List.getElem?_modify] at hm
      cases hk : a.jobs[m]? with
      | none => simp [hk] at hm
      | some j0 =>
        have hj0 := List.mem_of_getElem? hk
        simp only [hk, Option.map_eq_map, Option.map_some, Option.some.injEq] at hm
        split at hm
        · rename_i he
          subst he
          simp only [possible, hk, Bool.and_eq_true] at hp
          obtain ⟨as, has⟩ := Option.isSome_iff_exists.mp hp.2
          simp only [induced, hk, has, Option.getD_some] at hw
          have hsys := worldSteps_sys hw
          subst hm
          have ho0 : j0.owns = true := by rw [← (after_made a.world.sys a'.world.sys j0).2.2.1]; exact ho
          have keep : (j0.after a.world.sys a'.world.sys).client = j0.client →
              (j0.after a.world.sys a'.world.sys).events = j0.events →
              cfg.me < a'.world.sys.nClients ∧
                (n :: a'.world.app.granted.tail).Sublist (Sys.flowsOf (a'.world.sys.clients cfg.me).submitted) := by
            intro e1 e2
            rw [e1] at hc
            rw [e2] at hev
            exact old j0 hj0 ho0 hc hev
          cases doing has with
          | alloc q hpr ha =>
            exfalso
            have ht := newId_trace (kind h j0 hj0) hpr
            simp [Job.after, hpr, Job.events, ht] at hev
          | send topic id q i hpr hc0 hf ha =>
            refine keep ?_ ?_
            · simp only [Job.after, hpr, hc0]
              split <;> first | exact hc0 | rfl
            · simp only [Job.after, hpr, hc0]
              split <;> first | rfl | simp [Job.events]
          | recv topic id q i hpr hc0 hf ha =>
            refine keep ?_ ?_
            · simp only [Job.after, hpr, hc0]
              split <;> first | exact hc0 | rfl
            · simp only [Job.after, hpr, hc0]
              split <;> first | rfl | simp [Job.events]
          | begin core c q k' i hpr hc0 hh ha => rw [after_begin hpr hc0 hh] at *; exact keep rfl rfl
          | put core c q k' i tok hpr hc0 hh ha =>
            subst ha
            rw [after_put hpr hc0 hh] at hc hev keep
            have him : i = cfg.me := by
              simp only [] at hc
              rw [hc0] at hc; exact Option.some.inj hc
            subst him
            have hev' : Ev.handed (.flow n) (.ok t) ∈ j0.events ∨ Ev.handed (.flow n) (.ok t) =
                .handed c (if Sys.engineEnd a.world.sys cfg.me then .ok (tok.getD 0) else .err .channelTerminated) := by
              unfold Job.events at hev
              rw [List.filterMap_append, List.mem_append] at hev
              rcases hev with hev | hev
              · exact .inl hev
              · exact .inr (by simpa using hev)
            rcases hev' with hev' | hev'
            · exact old j0 hj0 ho0 hc0 hev'
            · have huse : j0.uses cfg.me = true := uses_iff.mpr ⟨hp.1, by rw [Job.ended, hpr], hc0⟩
              have hmine := (own_of h).mine j0 hj0 ho0 cfg.me huse
              have htasks := (own_of h).tasks j0 hj0 ho0 huse
              obtain ⟨lg, al, hpr'⟩ := proj hrw
              have hg := sysActs_granted hw
              rw [Consumer.granted_init hpr'.app htasks] at hg
              obtain ⟨cmd, hput⟩ := put hsys
              have hend : Sys.engineEnd a.world.sys cfg.me = true := by
                cases hx : Sys.engineEnd a.world.sys cfg.me with
                | true => rfl
                | false => rw [hx] at hev'; simp at hev'
              have hcall : c = .flow n := (Ev.handed.inj hev').1.symm
              have hst := hmine.starting
              have hpend : j0.pending = [c] := by unfold Job.pending; rw [hh, hpr]
              rw [hpend, hcall] at hst
              have hcmd : cmd.out = ((Sys.afterAll (new cfg.me j0.name) (calls j0.events)).issue (.flow n)).2 := by
                have hm := List.mem_of_getElem? hput.at_
                have : cmd.out ∈ (a.world.sys.clients cfg.me).starting.map (·.out) := List.mem_map_of_mem hm
                rw [hst] at this
                simpa [Sys.issueAll] using this
              refine ⟨by rw [hput.nClients]; exact hput.lt, ?_⟩
              rw [hg, hput.submitted, hend, if_pos rfl, Sys.flowsOf_append]
              have : Sys.flowsOf [cmd] = [n] := by
                unfold Sys.flowsOf
                simp [hcmd, Client.issue]
              rw [this]
              exact List.sublist_append_right _ _
          | wait core t' c q k' i hpr hc0 hx ha =>
            have : (j0.after a.world.sys a'.world.sys).client = j0.client ∧ (Ev.handed (.flow n) (.ok t) ∈ j0.events) := by
              simp only [Job.after, hpr, hc0] at hev ⊢
              split at hev
              · refine ⟨by first | rfl | exact hc0, ?_⟩
                unfold Job.events at hev
                rw [List.filterMap_append, List.mem_append] at hev
                rcases hev with hev | hev
                · exact hev
                · simp at hev
              · exact ⟨by first | rfl | exact hc0, hev⟩
            rw [this.1] at hc
            exact old j0 hj0 ho0 hc this.2
          | over core o k' i hpr hc0 ha =>
            refine keep ?_ ?_ <;> simp [Job.after, hpr, hc0, Job.events]
        · rw [← hm] at ho hc hev; exact old j0 hj0 ho hc hev

end App

end Neutron
