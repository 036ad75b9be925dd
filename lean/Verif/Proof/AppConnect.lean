import Verif.Proof.AppSolo
import Verif.Proof.AppWithin

/-!
# Where a `connect` is in its program, and how it goes on
-/

namespace Neutron

/-- All commands the program can hand over are of this kind. -/
def OnlyHands {α : Type} (P : Call → Prop) : Prog α → Prop
  | .ret _ => True
  | .hand c k => P c ∧ ∀ r, OnlyHands P (k r)
  | .wait _ _ k => ∀ r, OnlyHands P (k r)

theorem onlyHands_bind {α β : Type} {P : Call → Prop} {p : Prog α} (h : OnlyHands P p) {f : α → Prog β} (hf : ∀ x, OnlyHands P (f x)) :
    OnlyHands P (p >>= f) := by
  show OnlyHands P (p.bind f)
  induction p with
  | ret o => cases o with
    | ok x => exact hf x
    | err e => exact trivial
    | panic => exact trivial
  | hand c k ih => exact ⟨h.1, fun r => ih r (h.2 r)⟩
  | wait t c k ih => exact fun r => ih r (h r)

theorem onlyHands_call {P : Call → Prop} {c : Call} (h : P c) : OnlyHands P (Session.call c) := by
  refine ⟨h, fun r => ?_⟩
  cases r with
  | ok t => exact fun _ => trivial
  | err e => exact trivial
  | panic => exact trivial

theorem onlyHands_lookup (topic : String) : OnlyHands (fun c => (∃ x, c = .lookupTopic x) ∨ ∃ x, c = .connectToProxy x) (Session.lookupTopic topic) := by
  refine onlyHands_bind (onlyHands_call (.inl ⟨_, rfl⟩)) fun r => ?_
  split
  · split
    · split
      · exact onlyHands_bind (onlyHands_call (.inr ⟨_, rfl⟩)) fun _ => onlyHands_bind (onlyHands_call (.inl ⟨_, rfl⟩)) fun _ => trivial
      · exact trivial
    · exact trivial
    · exact trivial
  · exact trivial

/-- The program ends well in `n` steps, if the responses it waits for are there (`R`) and commands can be handed over. -/
inductive WillOk (R : Nat → Call → Prop) : Nat → Prog Unit → Prop where
  | ret : WillOk R 1 (.ret (.ok ()))
  | wait {n t : Nat} {c : Call} {k : Outcome Response → Prog Unit} (h : R t c) (hk : ∀ r, WillOk R n (k (.ok r))) : WillOk R (n + 1) (.wait t c k)
  | hand {n : Nat} {c : Call} {k : Outcome Nat → Prog Unit} (hk : ∀ t, WillOk R n (k (.ok t))) : WillOk R (n + 2) (.hand c k)

namespace App

open World Session Prog

variable {T : Type}

theorem within_bind {α β : Type} {p : Prog α} {f : α → Prog β} {evs : List Ev} {q : Prog β} (h : Within (p >>= f) evs q) :
    (∃ q', Within p evs q' ∧ q = (q' >>= f)) ∨
      ∃ x evs1 evs2, evs = evs1 ++ evs2 ∧ Within p evs1 (.ret (.ok x)) ∧ Within (f x) evs2 q := by
  induction h with
  | here => exact .inl ⟨p, .here, rfl⟩
  | @hand evs c k r h ih =>
    rcases ih with ⟨q', h1, h2⟩ | ⟨x, e1, e2, rfl, h1, h2⟩
    · cases q' with
      | ret o =>
        cases o with
        | ok x => exact .inr ⟨x, evs, [.handed c r], rfl, h1, by
            have : f x = .hand c k := h2.symm
            have hw : Within (f x) [] (.hand c k) := by rw [this]; exact .here
            exact .hand r hw⟩
        | err e => cases h2
        | panic => cases h2
      | hand c' k' =>
        have h2 : Prog.hand c k = .hand c' fun r => (k' r >>= f) := h2
        cases h2
        exact .inl ⟨k' r, .hand r h1, rfl⟩
      | wait t c' k' => cases h2
    · exact .inr ⟨x, e1, e2 ++ [.handed c r], by simp, h1, .hand r h2⟩
  | @wait evs t c k r h ih =>
    rcases ih with ⟨q', h1, h2⟩ | ⟨x, e1, e2, rfl, h1, h2⟩
    · cases q' with
      | ret o =>
        cases o with
        | ok x => exact .inr ⟨x, evs, [.waited t c r], rfl, h1, by
            have : f x = .wait t c k := h2.symm
            have hw : Within (f x) [] (.wait t c k) := by rw [this]; exact .here
            exact .wait r hw⟩
        | err e => cases h2
        | panic => cases h2
      | hand c' k' => cases h2
      | wait t' c' k' =>
        have h2 : Prog.wait t c k = .wait t' c' fun r => (k' r >>= f) := h2
        cases h2
        exact .inl ⟨k' r, .wait r h1, rfl⟩
    · exact .inr ⟨x, e1, e2 ++ [.waited t c r], by simp, h1, .wait r h2⟩

theorem within_only {α : Type} {P : Call → Prop} {p : Prog α} {evs : List Ev} {q : Prog α} (h : Within p evs q) (hp : OnlyHands P p) :
    OnlyHands P q ∧ ∀ c r, .handed c r ∈ evs → P c := by
  induction h with
  | here => exact ⟨hp, fun c r hm => by cases hm⟩
  | hand r h ih =>
    refine ⟨ih.1.2 r, fun c' r' hm => ?_⟩
    rcases List.mem_append.mp hm with hm | hm
    · exact ih.2 c' r' hm
    · rw [List.mem_singleton] at hm
      cases hm
      exact ih.1.1
  | wait r h ih =>
    refine ⟨ih.1 r, fun c' r' hm => ?_⟩
    rcases List.mem_append.mp hm with hm | hm
    · exact ih.2 c' r' hm
    · rw [List.mem_singleton] at hm; cases hm

/-- What a program waits for is the last request it made. -/
theorem within_waits {α : Type} {p : Prog α} {evs : List Ev} {q : Prog α} (h : Within p evs q) (hs : Sequential p none) :
    ∃ cur, Sequential q cur ∧ ∀ t, cur = some t → t ∈ requests evs := by
  induction h with
  | here => exact ⟨none, hs, fun t h => by cases h⟩
  | @hand evs c k r h ih =>
    obtain ⟨cur, h1, _⟩ := ih
    refine ⟨_, h1.2 r, fun t ht => ?_⟩
    split at ht
    · rename_i t' _
      split at ht
      · rename_i hx
        cases ht
        simp [requests, List.filterMap_append, hx]
      · cases ht
    · cases ht
  | @wait evs t c k r h ih =>
    obtain ⟨cur, h1, _⟩ := ih
    exact ⟨none, h1.2.2 r, fun t h => by cases h⟩

/-- Where the program of one command and its response can be. -/
theorem within_one {c : Call} {evs : List Ev} {q : Prog Response} (h : Within (Session.call c) evs q) : (evs = [] ∧ q = Session.call c) ∨
    (∃ t, evs = [.handed c (.ok t)] ∧ q = .wait t c .ret) ∨ (∃ t r, evs = [.handed c (.ok t), .waited t c r] ∧ q = .ret r) ∨
    ∃ r o, evs = [.handed c r] ∧ (∀ t, r ≠ .ok t) ∧ q = .ret o ∧ ∀ x, o ≠ .ok x := by
  generalize hp : Session.call c = p at h
  induction h with
  | here => exact .inl ⟨rfl, rfl⟩
  | @hand evs c' k r h ih =>
    rcases ih with ⟨rfl, h1⟩ | ⟨t, _, h1⟩ | ⟨_, o, _, h1⟩ | ⟨_, _, _, _, h1, _⟩
    · rw [← hp] at h1
      have h1 : Prog.hand c' k = .hand c fun r => Prog.bind (.ret r) fun t => .wait t c .ret := h1
      cases h1
      cases r with
      | ok t => exact .inr (.inl ⟨t, rfl, rfl⟩)
      | err e => exact .inr (.inr (.inr ⟨.err e, .err e, rfl, (fun t h => by cases h), rfl, (fun t h => by cases h)⟩))
      | panic => exact .inr (.inr (.inr ⟨.panic, .panic, rfl, (fun t h => by cases h), rfl, (fun t h => by cases h)⟩))
    · cases h1
    · cases h1
    · cases h1
  | @wait evs t' c' k r h ih =>
    rcases ih with ⟨rfl, h1⟩ | ⟨t, h2, h1⟩ | ⟨_, o, _, h1⟩ | ⟨_, _, _, _, h1, _⟩
    · rw [← hp] at h1
      have h1 : Prog.wait t' c' k = .hand c fun r => Prog.bind (.ret r) fun t => .wait t c .ret := h1
      cases h1
    · cases h1
      exact .inr (.inr (.inl ⟨t', r, by rw [h2]; rfl, rfl⟩))
    · cases h1
    · cases h1

/-- A command and its response: where the program can be once the command is handed over. -/
theorem within_called {α : Type} {c : Call} {f : Response → Prog α} {evs : List Ev} {q : Prog α} (h : Within (Session.call c >>= f) evs q) {t : Nat}
    (hh : .handed c (.ok t) ∈ evs) (hf : ∀ x, OnlyHands (fun c' => c' ≠ c) (f x)) :
    (q = .wait t c fun r => (Prog.ret r >>= f)) ∨ ∃ r, .waited t c r ∈ evs ∧ ((q = (Prog.ret r >>= f)) ∨
      ∃ x evs1 evs2, r = .ok x ∧ evs = evs1 ++ evs2 ∧ Within (f x) evs2 q) := by
  rcases within_bind h with ⟨q', h1, rfl⟩ | ⟨x, e1, e2, rfl, h1, h2⟩
  · rcases within_one h1 with ⟨rfl, _⟩ | ⟨t', rfl, rfl⟩ | ⟨t', r, rfl, rfl⟩ | ⟨r, o, rfl, hr, _⟩
    · cases hh
    · simp only [List.mem_singleton, Ev.handed.injEq, Outcome.ok.injEq, true_and] at hh
      subst hh
      exact .inl rfl
    · simp only [List.mem_cons, Ev.handed.injEq, Outcome.ok.injEq, true_and, List.not_mem_nil, or_false, reduceCtorEq] at hh
      subst hh
      exact .inr ⟨r, by simp, .inl rfl⟩
    · simp only [List.mem_singleton, Ev.handed.injEq, true_and] at hh
      exact absurd hh.symm (hr t)
  · have hin : .handed c (.ok t) ∈ e1 := by
      rcases List.mem_append.mp hh with hh | hh
      · exact hh
      · exact absurd rfl ((within_only h2 (hf x)).2 _ _ hh)
    rcases within_one h1 with ⟨rfl, _⟩ | ⟨t', rfl, h3⟩ | ⟨t', r, rfl, h3⟩ | ⟨r, o, rfl, hr, _⟩
    · cases hin
    · cases h3
    · cases h3
      simp only [List.mem_cons, Ev.handed.injEq, Outcome.ok.injEq, true_and, List.not_mem_nil, or_false, reduceCtorEq] at hin
      subst hin
      exact .inr ⟨.ok x, by simp, .inr ⟨x, _, e2, rfl, rfl, h2⟩⟩
    · simp only [List.mem_singleton, Ev.handed.injEq, true_and] at hin
      exact absurd hin.symm (hr t)

theorem within_trans {α : Type} {p q r : Prog α} {e1 e2 : List Ev} (h1 : Within p e1 q) (h2 : Within q e2 r) : Within p (e1 ++ e2) r := by
  induction h2 with
  | here => rw [List.append_nil]; exact h1
  | hand r _ ih => rw [← List.append_assoc]; exact .hand r ih
  | wait r _ ih => rw [← List.append_assoc]; exact .wait r ih

theorem within_of_runs {α : Type} {p : Prog α} {evs : List Ev} {o : Outcome α} (h : Runs p evs o) : Within p evs (.ret o) := by
  induction h with
  | ret => exact .here
  | hand c k r tr o _ _ ih => exact within_trans (e1 := [.handed c r]) (.hand r .here) ih
  | wait t c k r tr o _ _ ih => exact within_trans (e1 := [.waited t c r]) (.wait r .here) ih

/-- The calls of a `connect` on its client are at the place in their program that what they did leads to. -/
theorem within_connect {cfg : World.Cfg T} {acts : List Act} {log : List World.Act} {a : State T} (h : Run cfg acts log a) :
    ∀ j ∈ a.jobs, ∀ name topic p, j.start = setup name topic p → ∀ core q, j.prog = .session core q .ret → Within p j.events q := by
  refine job_induct_with (I := fun _ j => Kind j ∧ ((∀ b, j.made = .consumer b → j.start = void b.connect ∧ j.owns = true) ∧
      (∀ b, j.made = .producer b → j.start = void b.connect ∧ j.owns = true) ∧ (∀ i p, j.made = .call i p → j.owns = false)))
    (fun h j hj => ⟨kind h j hj, Props.start_of h j hj⟩)
    (fun _ j => ∀ name topic p, j.start = setup name topic p → ∀ core q, j.prog = .session core q .ret → Within p j.events q)
    (fun _ _ _ _ _ h _ => h) ?_ ?_ (fun _ _ h => h) h
  · intro s c _ _ name topic p hst core q hp
    cases c with
    | call i p => cases hst
    | consumer b =>
      have : (Setup.session core q .ret) = setup name topic p := hp.symm.trans hst
      cases this
    | producer b =>
      have : (Setup.session core q .ret) = setup name topic p := hp.symm.trans hst
      cases this
  · intro s s' j as hr ⟨hk, hm1, hm2, _⟩ hq _ _ _ _ name topic p hst core q hp
    have hst' : j.start = setup name topic p := by rw [← (after_made s s' j).2.2.2.2]; exact hst
    have stage : ∀ {name' topic' : String} {p' : Prog Unit}, j.start = setup name' topic' p' → Stage name' topic' p' j →
        Within p (j.after s s').events q := by
      intro name' topic' p' hst2 hs
      rw [hst2] at hst'
      have hpp : p' = p := by
        simp only [setup, Setup.newId.injEq] at hst'
        have := congrFun hst' 0
        simp only [Setup.register.injEq] at this
        have := congrFun this.2.2 (.ok ())
        simp only [registered, Setup.session.injEq] at this
        exact this.2.1
      rw [hpp] at hs hst2
      cases hs with
      | new hc hp' ht =>
        unfold Job.after at hp
        rw [hp'] at hp
        cases hp
      | registering i hc ht hp' =>
        cases hph : (s'.clients i).phase with
        | fresh | waiting =>
          have : j.after s s' = j := by unfold Job.after; rw [hp', hc]; simp only [hph]
          rw [this, hp'] at hp; cases hp
        | ready =>
          have : j.after s s' = { j with prog := .session ⟨UInt64.ofNat i, name', 0, 0⟩ p .ret
                                         trace := j.trace ++ [.registered topic' (UInt64.ofNat i) (.ok ())] } := by
            unfold Job.after; rw [hp', hc]; simp only [hph, registered]
          rw [this] at hp ⊢
          cases hp
          have : ({ j with prog := .session ⟨UInt64.ofNat i, name', 0, 0⟩ p .ret
                           trace := j.trace ++ [.registered topic' (UInt64.ofNat i) (.ok ())] } : Job).events = [] := by
            simp [Job.events, ht]
          rw [this]
          exact .here
        | gone =>
          have : j.after s s' = { j with prog := .ret (.err .channelTerminated)
                                         trace := j.trace ++ [.registered topic' (UInt64.ofNat i) (.err .channelTerminated)] } := by
            unfold Job.after; rw [hp', hc]; simp only [hph, registered]
          rw [this] at hp; cases hp
      | refused i hc hp' ht => rw [after_ret hp', hp'] at hp; cases hp
      | calls i evs hc hp' ht =>
        cases hp' with
        | over o h => rw [after_ret h, h] at hp; cases hp
        | running q0 h0 =>
          have hw := hq name' topic' p hst2 _ q0 h0
          rcases within_after (s := s) (s' := s') h0 hw hc with ⟨q', h1, h2⟩ | ⟨o, h1, _⟩
          · rw [hp] at h1; cases h1; exact h2
          · rw [hp] at h1; cases h1
    cases hk with
    | missing hp' => rw [after_ret hp', hp'] at hp; cases hp
    | consumer b name' topic' subscription hb hm hn hs =>
      exact stage ((hm1 b hm).1.trans (consumer_setup b hb.1 hb.2.1 hb.2.2)) hs
    | producer b name' topic' hb hm hn hs => exact stage ((hm2 b hm).1.trans (producer_setup b hb.1 hb.2)) hs
    | call i p' core' evs hm hc hp' ht hs => rw [hs] at hst'; cases hst'

/-- What a call does itself does not stop the engine. -/
theorem own_mode {cfg : Sys.Cfg} {s s' : Sys.State} {j : Job} {as : List Sys.Act} (ha : j.acts s = some as) (hs : sysSteps cfg s as = some s') :
    s'.mode = s.mode := by
  have one : ∀ x, as = [x] → (∀ s1, Sys.step cfg s x = some s1 → s1.mode = s.mode) → s'.mode = s.mode := by
    rintro x rfl hx
    exact hx _ (sysSteps_one hs)
  cases doing ha with
  | alloc k hp ha => exact one _ ha fun s1 h => by cases Sys.step_cases h; rfl
  | send t id k i hp hc hf ha => exact one _ ha fun s1 h => by cases Sys.step_cases h <;> rfl
  | recv t id k i hp hc hf ha => exact one _ ha fun s1 h => by cases Sys.step_cases h <;> rfl
  | begin core c k k' i hp hc hg ha => exact one _ ha fun s1 h => by cases Sys.step_cases h <;> rfl
  | put core c k k' i tok hp hc hg ha => exact one _ ha fun s1 h => by cases Sys.step_cases h <;> rfl
  | wait core t c q q' i hp hc ho ha =>
    subst ha
    simp only [sysSteps, Option.some.injEq] at hs
    subst hs
    rfl
  | over core o k i hp hc ha =>
    rcases ha with ha | ⟨_, ha⟩
    · subst ha
      simp only [sysSteps, Option.some.injEq] at hs
      subst hs
      rfl
    · exact one _ ha fun s1 h => by cases Sys.step_cases h <;> rfl

theorem outcomes_sys {cfg : Sys.Cfg} {as : List Sys.Act} : ∀ {s s' : Sys.State}, sysSteps cfg s as = some s' → s.outcomes <+: s'.outcomes := by
  induction as with
  | nil => intro s s' h; simp only [sysSteps, Option.some.injEq] at h; subst h; exact List.prefix_rfl
  | cons x as ih =>
    intro s s' h
    simp only [sysSteps] at h
    cases h1 : Sys.step cfg s x with
    | none => simp [h1] at h
    | some v => simp only [h1] at h; exact (Sys.outcomes_step h1).trans (ih h)

end App

namespace Props

open World App Session

variable {T : Type}

/-- The response to this request is there and is one the call takes. -/
def Answered (s : Sys.State) (t : Nat) (c : Call) : Prop :=
  ∃ e, (t, Sys.TokResult.resolved e) ∈ s.outcomes ∧ ∃ r, c.resolve (some e.inb) = .ok r

/-- A call at a place where it will end well does so, in as many steps of its own. -/
theorem will_ok {cfg : World.Cfg T} {k : Nat} {core : Client} {n : Nat} {q : Prog Unit} {R : Nat → Call → Prop} (hw : WillOk R n q) :
    ∀ {acts : List App.Act} {log : List World.Act} {a : App.State T}, App.Run cfg acts log a → ∀ {j : Job}, a.jobs[k]? = some j →
      j.live = true → j.prog = .session core q .ret → a.world.sys.mode ≠ .stopped → (∀ t c, R t c → Answered a.world.sys t c) →
      ∃ m, m ≤ n ∧ ∃ log' a' j', App.Run cfg (acts ++ List.replicate m (.run k)) log' a' ∧ a'.jobs[k]? = some j' ∧ j'.made = j.made ∧
        j'.ended = some (.ok ()) := by
  have more : ∀ {n : Nat} {acts : List App.Act} {m : Start}, (∃ m', m' ≤ n ∧ ∃ log' a' j', App.Run cfg (acts ++ [.run k] ++ List.replicate m' (.run k)) log' a' ∧
      a'.jobs[k]? = some j' ∧ j'.made = m ∧ j'.ended = some (.ok ())) → ∃ m', m' ≤ n + 1 ∧ ∃ log' a' j',
      App.Run cfg (acts ++ List.replicate m' (.run k)) log' a' ∧ a'.jobs[k]? = some j' ∧ j'.made = m ∧ j'.ended = some (.ok ()) := by
    rintro n acts m ⟨m', h1, log', a', j', h2, h3⟩
    refine ⟨m' + 1, by omega, log', a', j', ?_, h3⟩
    rw [List.replicate_succ]
    simpa using h2
  induction hw with
  | ret =>
    intro acts log a h j hk hl hp hm hR
    have hno : ¬ Held a.world.sys j := by
      rintro (⟨t, ⟨_, _, _, _, h1⟩, _⟩ | ⟨i, ⟨_, _, _, _, h1⟩, _⟩) <;> rw [hp] at h1 <;> cases h1
    obtain ⟨as, log', a', h', _, ha, _, hk', hl', hm'⟩ := own_step h hk hl (by unfold Job.ended; rw [hp]) hno
    obtain ⟨_, i, hc⟩ := kind_ret (kind h j (List.mem_of_getElem? hk)) hp
    refine ⟨1, Nat.le_refl _, log', a', _, h', hk', hm', ended_ret.mpr ?_⟩
    unfold Job.after; rw [hp, hc]
  | @wait n t c q hr hq ih =>
    intro acts log a h j hk hl hp hm hR
    obtain ⟨e, he, r, hres⟩ := hR t c hr
    have hno : ¬ Held a.world.sys j := by
      rintro (⟨t', ⟨_, _, _, _, h1⟩, hu⟩ | ⟨i, ⟨_, _, _, _, h1⟩, _⟩) <;> rw [hp] at h1 <;> cases h1
      exact hu _ he
    obtain ⟨as, log', a', h', _, ha, hs, hk', hl', hm'⟩ := own_step h hk hl (by unfold Job.ended; rw [hp]) hno
    obtain ⟨_, i, hc⟩ := kind_ret (kind h j (List.mem_of_getElem? hk)) hp
    have ho : outcome a.world.sys t = some (some e.inb) := by
      unfold outcome
      cases hf : a.world.sys.outcomes.find? (fun p => p.1 == t) with
      | none =>
        have := List.find?_eq_none.mp hf _ he
        simp at this
      | some p =>
        obtain ⟨t', res⟩ := p
        have h1 := List.find?_some hf
        have h2 := List.mem_of_find?_eq_some hf
        have h1 : t' = t := eq_of_beq h1
        subst h1
        have := outcome_unique (App.reachable h) h2 he
        subst this
        rfl
    have hp' : (j.after a.world.sys a'.world.sys).prog = .session core (q (.ok r)) .ret := by
      unfold Job.after; rw [hp, hc]; simp only [ho, hres]
    rw [← hm']
    exact more (ih r h' hk' hl' hp' (by rw [own_mode ha hs]; exact hm) fun t c h => by
      obtain ⟨e, h1, h2⟩ := hR t c h
      exact ⟨e, (outcomes_sys hs).subset h1, h2⟩)
  | @hand n call q hq ih =>
    intro acts log a h j hk hl hp hm hR
    have notHeld : ∀ (s : Sys.State) (j' : Job), j'.prog = .session core (.hand call q) .ret → ¬ Held s j' := by
      rintro s j' hp' (⟨t, ⟨_, _, _, _, h1⟩, _⟩ | ⟨i, ⟨_, _, _, _, h1⟩, _⟩) <;> rw [hp'] at h1 <;> cases h1
    have second : ∀ {acts : List App.Act} {log : List World.Act} {a : App.State T}, App.Run cfg acts log a → ∀ {j : Job},
        a.jobs[k]? = some j → j.live = true → j.prog = .session core (.hand call q) .ret → a.world.sys.mode ≠ .stopped →
        (∀ t c, R t c → Answered a.world.sys t c) → ∀ tok, j.handing = some tok →
        ∃ m, m ≤ n + 1 ∧ ∃ log' a' j', App.Run cfg (acts ++ List.replicate m (.run k)) log' a' ∧ a'.jobs[k]? = some j' ∧ j'.made = j.made ∧
          j'.ended = some (.ok ()) := by
      intro acts log a h j hk hl hp hm hR tok hg
      obtain ⟨as, log', a', h', _, ha, hs, hk', hl', hm'⟩ := own_step h hk hl (by unfold Job.ended; rw [hp]) (notHeld _ _ hp)
      obtain ⟨_, i, hc⟩ := kind_ret (kind h j (List.mem_of_getElem? hk)) hp
      have hend : Sys.engineEnd a.world.sys i = true := by
        unfold Sys.engineEnd
        split
        · contradiction
        · rfl
      have hp' : (j.after a.world.sys a'.world.sys).prog = .session core (q (.ok (tok.getD 0))) .ret := by
        rw [after_put hp hc hg]; simp only [hend, if_true]
      rw [← hm']
      exact more (ih (tok.getD 0) h' hk' hl' hp' (by rw [own_mode ha hs]; exact hm) fun t c h => by
        obtain ⟨e, h1, h2⟩ := hR t c h
        exact ⟨e, (outcomes_sys hs).subset h1, h2⟩)
    cases hg : j.handing with
    | some tok =>
      obtain ⟨m, h1, h2⟩ := second h hk hl hp hm hR tok hg
      exact ⟨m, by omega, h2⟩
    | none =>
      obtain ⟨as, log', a', h', _, ha, hs, hk', hl', hm'⟩ := own_step h hk hl (by unfold Job.ended; rw [hp]) (notHeld _ _ hp)
      obtain ⟨_, i, hc⟩ := kind_ret (kind h j (List.mem_of_getElem? hk)) hp
      rw [after_begin hp hc hg] at hk' hl' hm'
      rw [← hm']
      exact more (second h' hk' hl' hp (by rw [own_mode ha hs]; exact hm) (fun t c h => by
        obtain ⟨e, h1, h2⟩ := hR t c h
        exact ⟨e, (outcomes_sys hs).subset h1, h2⟩) _ rfl)

end Props

end Neutron
