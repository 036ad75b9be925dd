import Verif.Proof.AppStage
import Verif.Spec.App
import Verif.Proof.ConsumerBase
import Verif.Proof.SysMade

/-!
# The client of a `connect` in progress is used by nobody else
-/

namespace Neutron

namespace Sys

theorem afterAll_append (cs ds : List Call) : ∀ core : Client, afterAll core (cs ++ ds) = afterAll (afterAll core cs) ds := by
  induction cs with
  | nil => intro core; rfl
  | cons c cs ih => intro core; exact ih _

theorem issueAll_append (cs ds : List Call) : ∀ core : Client,
    issueAll core (cs ++ ds) = issueAll core cs ++ issueAll (afterAll core cs) ds := by
  induction cs with
  | nil => intro core; rfl
  | cons c cs ih => intro core; simp only [List.cons_append, issueAll, afterAll, ih]

/-- The parts of a client only its own calls change. -/
structure Same (s s' : State) (i : Nat) : Prop where
  lt : i < s'.nClients
  core : (s'.clients i).core = (s.clients i).core
  starting : (s'.clients i).starting = (s.clients i).starting
  submitted : (s'.clients i).submitted = (s.clients i).submitted
  issued : s.issued <+: s'.issued

/-- The action is a call on client `i`. -/
def Act.on (i : Nat) : Act → Prop
  | .beginCall k _ => k = i
  | .submit k _ => k = i
  | _ => False

theorem same_step {cfg : Cfg} {s s' : State} {a : Act} (hs : step cfg s a = some s') {i : Nat} (hi : i < s.nClients)
    (ha : ¬ a.on i) : Same s s' i := by
  have hlt := Nat.lt_of_lt_of_le hi (nClients_mono hs)
  rcases client_step hs hlt with ⟨_, hc⟩ | ⟨h, _⟩
  · cases hc with
    | same h1 h2 h3 => exact ⟨hlt, h1, h2, h3, issued_step hs⟩
    | began call h => subst h; exact absurd rfl ha
    | submitted k c h => subst h; exact absurd rfl ha
    | refused k c h => subst h; exact absurd rfl ha
  · omega

theorem same_steps {cfg : Cfg} {as : List Act} : ∀ {s s' : State}, World.sysSteps cfg s as = some s' → ∀ {i : Nat}, i < s.nClients →
    (∀ a ∈ as, ¬ a.on i) → Same s s' i := by
  induction as with
  | nil => intro s s' h i hi _; cases h; exact ⟨hi, rfl, rfl, rfl, List.prefix_rfl⟩
  | cons a as ih =>
    intro s s' h i hi ha
    simp only [World.sysSteps] at h
    cases hx : step cfg s a with
    | none => rw [hx] at h; cases h
    | some s1 =>
      rw [hx] at h
      have h1 := same_step hx hi (ha a (by simp))
      have h2 := ih h h1.lt (fun b hb => ha b (by simp [hb]))
      exact ⟨h2.lt, h2.core.trans h1.core, h2.starting.trans h1.starting, h2.submitted.trans h1.submitted, h1.issued.trans h2.issued⟩

end Sys

namespace App

open Neutron World

variable {T : Type}

theorem consumer_step_tasks {cfg : Consumer.Cfg T} {s s' : Consumer.State T} {a : Consumer.Act} (h : Consumer.step cfg s a = some s')
    (ha : ∀ j, a ≠ .spawn j) (ht : s.tasks = []) : s'.tasks = [] := by
  cases a <;> simp only [Consumer.step, ht, List.getElem?_nil] at h
  · split at h
    · cases h; rfl
    · cases h
  · cases h; rfl
  · exact absurd rfl (ha _)
  all_goals cases h

/-- Calls on the consumer exist only if the consumer does. -/
theorem no_tasks {cfg : World.Cfg T} {acts : List World.Act} {w : World T} (h : World.Run cfg acts w) :
    w.sys.nClients ≤ cfg.me → w.app.tasks = [] := by
  induction h with
  | nil => intro _; rfl
  | @snoc as w w' a h hs ih =>
    intro hle
    have hmono : w.sys.nClients ≤ w'.sys.nClients :=
      world_step_induct (fun s => w.sys.nClients ≤ s.nClients) (fun s x s' h1 h2 => Nat.le_trans h1 (Sys.nClients_mono h2))
        (Nat.le_refl _) hs
    have ih := ih (Nat.le_trans hmono hle)
    cases a with
    | arrive b r =>
      simp only [World.step] at hs
      split at hs
      · cases hs; exact ih
      · cases hs
    | hold b =>
      simp only [World.step] at hs
      split at hs
      · cases hs; exact ih
      · cases hs
    | serve i' =>
      simp only [World.step] at hs
      split at hs
      · cases hs; exact ih
      · cases hs
    | poll b ans =>
      simp only [World.step] at hs
      split at hs
      · split at hs
        · cases hs; exact ih
        · cases hs
      · cases hs
    | write b now io =>
      simp only [World.step] at hs
      split at hs
      · split at hs
        · split at hs
          · cases hs; exact ih
          · cases hs
        · split at hs
          · split at hs
            · cases hs; exact ih
            · cases hs
          · cases hs
      · cases hs
    | sys a =>
      simp only [World.step] at hs
      split at hs
      · split at hs
        · cases hs; exact ih
        · cases hs
      · cases hs
    | app a =>
      simp only [World.step] at hs
      split at hs
      · rename_i ho
        split at hs
        · rename_i app happ
          split at hs
          · cases hs
            refine consumer_step_tasks happ ?_ ih
            rintro j rfl
            simp only [own, Bool.and_eq_true, decide_eq_true_eq] at ho
            omega
          · cases hs
        · cases hs
      · cases hs

theorem induced_on {cfg : World.Cfg T} {w : World T} {a : Consumer.Act} {x : Sys.Act} (hx : x ∈ World.induced cfg w a) {i : Nat}
    (hi : i = cfg.me → w.app.tasks = []) : ¬ x.on i := by
  have none' : w.app.tasks = [] → World.induced cfg w a = [] := by
    intro ht
    unfold World.induced
    cases a <;> simp [ht]
  by_cases hm : i = cfg.me
  · rw [none' (hi hm)] at hx; cases hx
  · have ne : cfg.me ≠ i := fun h => hm h.symm
    unfold World.induced at hx
    split at hx
    · split at hx
      · split at hx
        · cases hx
        · simp only [List.mem_singleton] at hx; subst hx; exact fun h => h
      · simp only [List.mem_cons, List.not_mem_nil, or_false] at hx
        rcases hx with rfl | rfl <;> exact ne
      · cases hx
    · split at hx
      · simp only [List.mem_cons, List.not_mem_nil, or_false] at hx
        rcases hx with rfl | rfl <;> exact ne
      · cases hx
    · cases hx

/-- A step of the whole that is not a call on client `i` leaves it as it is; without calls on the consumer there are none after. -/
theorem world_same {cfg : World.Cfg T} {w w' : World T} {x : World.Act} (hs : World.step cfg w x = some w') {i : Nat}
    (hi : i < w.sys.nClients) (ha : ∀ a, x = .sys a → ¬ a.on i) (hm : i = cfg.me → w.app.tasks = []) : Sys.Same w.sys w'.sys i := by
  cases x with
  | arrive b r =>
    simp only [World.step] at hs
    split at hs
    · cases hs; exact ⟨hi, rfl, rfl, rfl, List.prefix_rfl⟩
    · cases hs
  | hold b =>
    simp only [World.step] at hs
    split at hs
    · cases hs; exact ⟨hi, rfl, rfl, rfl, List.prefix_rfl⟩
    · cases hs
  | serve i' =>
    simp only [World.step] at hs
    split at hs
    · cases hs; exact ⟨hi, rfl, rfl, rfl, List.prefix_rfl⟩
    · cases hs
  | poll b ans =>
    simp only [World.step] at hs
    split at hs
    · split at hs
      · rename_i s hx
        cases hs
        refine Sys.same_steps hx hi ?_
        intro a ha
        obtain ⟨y, _, rfl⟩ := List.mem_map.mp ha
        exact fun h => h
      · cases hs
    · cases hs
  | write b now io =>
    simp only [World.step] at hs
    split at hs
    · split at hs
      · split at hs
        · rename_i s hx; cases hs; exact Sys.same_step hx hi (fun h => h)
        · cases hs
      · split at hs
        · split at hs
          · rename_i s hx; cases hs; exact Sys.same_step hx hi (fun h => h)
          · cases hs
        · cases hs
    · cases hs
  | sys a =>
    simp only [World.step] at hs
    split at hs
    · split at hs
      · rename_i s hx; cases hs; exact Sys.same_step hx hi (ha a rfl)
      · cases hs
    · cases hs
  | app a =>
    simp only [World.step] at hs
    split at hs
    · split at hs
      · split at hs
        · rename_i s hx
          cases hs
          exact Sys.same_steps hx hi (fun y hy => induced_on hy hm)
        · cases hs
      · cases hs
    · cases hs

/-- Steps that are not calls on client `i`, without calls on the consumer. -/
theorem world_tasks {cfg : World.Cfg T} {w w' : World T} {x : World.Act} (hs : World.step cfg w x = some w')
    (hx : ∀ j, x ≠ .app (.spawn j)) (ht : w.app.tasks = []) : w'.app.tasks = [] := by
  cases x with
  | arrive b r =>
    simp only [World.step] at hs
    split at hs
    · cases hs; exact ht
    · cases hs
  | hold b =>
    simp only [World.step] at hs
    split at hs
    · cases hs; exact ht
    · cases hs
  | serve i' =>
    simp only [World.step] at hs
    split at hs
    · cases hs; exact ht
    · cases hs
  | poll b ans =>
    simp only [World.step] at hs
    split at hs
    · split at hs
      · cases hs; exact ht
      · cases hs
    · cases hs
  | write b now io =>
    simp only [World.step] at hs
    split at hs
    · split at hs
      · split at hs
        · cases hs; exact ht
        · cases hs
      · split at hs
        · split at hs
          · cases hs; exact ht
          · cases hs
        · cases hs
    · cases hs
  | sys a =>
    simp only [World.step] at hs
    split at hs
    · split at hs
      · cases hs; exact ht
      · cases hs
    · cases hs
  | app a =>
    simp only [World.step] at hs
    split at hs
    · split at hs
      · rename_i app happ
        split at hs
        · cases hs
          exact consumer_step_tasks happ (fun j hj => hx j (by rw [hj])) ht
        · cases hs
      · cases hs
    · cases hs

theorem worldSteps_tasks {cfg : World.Cfg T} {as : List Sys.Act} : ∀ {w w' : World T},
    worldSteps cfg w (as.map .sys) = some w' → w'.app.tasks = w.app.tasks := by
  induction as with
  | nil => intro w w' h; cases h; rfl
  | cons a as ih =>
    intro w w' h
    simp only [List.map_cons, worldSteps] at h
    cases hw : World.step cfg w (.sys a) with
    | none => rw [hw] at h; cases h
    | some w1 =>
      rw [hw] at h
      rw [ih h]
      simp only [World.step] at hw
      split at hw
      · split at hw
        · cases hw; rfl
        · cases hw
      · cases hw

/-! ## The calls of a `connect` are all there is on its client -/

theorem calls_snoc_handed (evs : List Ev) (c : Call) (r : Outcome Nat) : calls (evs ++ [.handed c r]) = calls evs ++ [c] := by
  simp [calls]

theorem calls_snoc_waited (evs : List Ev) (t : Nat) (c : Call) (r : Outcome Response) : calls (evs ++ [.waited t c r]) = calls evs := by
  simp [calls]

theorem events_did {j : Job} {tr : List SetupEv} {c : Client} {ev : Ev} (h : j.trace = tr ++ [.did c ev]) {j0 : Job} (h0 : j0.trace = tr) :
    j.events = j0.events ++ [ev] := by
  simp [Job.events, h, h0]

theorem pending_nil {j : Job} (h : j.handing = none) : j.pending = [] := by
  simp [Job.pending, h]

/-- Each command handed over is the request its ticket says. -/
def Tickets (s : Sys.State) (i : Nat) (name : String) (evs : List Ev) : Prop :=
  ∀ (pre post : List Ev) (c : Call) (t : Nat), evs = pre ++ .handed c (.ok t) :: post → c.expectsResponse = true →
    s.issued[t]? = some (i, ((Sys.afterAll (new i name) (calls pre)).issue c).2)

structure Mine (s : Sys.State) (i : Nat) (j : Job) : Prop where
  core : (s.clients i).core = Sys.afterAll (new i j.name) (calls j.events ++ j.pending)
  starting : (s.clients i).starting.map (·.out) = Sys.issueAll (Sys.afterAll (new i j.name) (calls j.events)) j.pending
  submitted : Accepted j.events → (s.clients i).submitted.map (·.out) = Sys.issueAll (new i j.name) (calls j.events)
  ticket : ∀ t, j.handing = some (some t) → ∀ c ∈ j.pending,
    s.issued[t]? = some (i, ((Sys.afterAll (new i j.name) (calls j.events)).issue c).2)
  tickets : Tickets s i j.name j.events

theorem issued_mono {s s' : Sys.State} (h : s.issued <+: s'.issued) {t : Nat} {x : Nat × Outbound} (hx : s.issued[t]? = some x) :
    s'.issued[t]? = some x := by
  obtain ⟨l, hl⟩ := h
  rw [← hl, List.getElem?_append_left (List.getElem?_eq_some_iff.mp hx).1, hx]

theorem tickets_mono {s s' : Sys.State} {i : Nat} {name : String} {evs : List Ev} (h : s.issued <+: s'.issued)
    (ht : Tickets s i name evs) : Tickets s' i name evs :=
  fun pre post c t he hx => issued_mono h (ht pre post c t he hx)

theorem tickets_snoc {s : Sys.State} {i : Nat} {name : String} {evs : List Ev} {ev : Ev}
    (ht : Tickets s i name evs) (hev : ∀ c t, ev = .handed c (.ok t) → c.expectsResponse = true →
      s.issued[t]? = some (i, ((Sys.afterAll (new i name) (calls evs)).issue c).2)) : Tickets s i name (evs ++ [ev]) := by
  intro pre post c t he hx
  rcases List.eq_nil_or_concat post with rfl | ⟨post', ev', rfl⟩
  · have := List.append_inj' he (by simp)
    obtain ⟨rfl, h2⟩ := this
    simp only [List.cons.injEq, and_true] at h2
    exact hev c t h2 hx
  · have he' : evs ++ [ev] = (pre ++ .handed c (.ok t) :: post') ++ [ev'] := by simpa using he
    obtain ⟨h1, _⟩ := List.append_inj' he' (by simp)
    exact ht pre post' c t h1 hx

theorem mine_same {s s' : Sys.State} {i : Nat} {j : Job} (h : Sys.Same s s' i) (hm : Mine s i j) : Mine s' i j :=
  ⟨by rw [h.core, hm.core], by rw [h.starting, hm.starting], fun ha => by rw [h.submitted, hm.submitted ha],
   fun t ht c hc => issued_mono h.issued (hm.ticket t ht c hc), tickets_mono h.issued hm.tickets⟩

theorem mine_eq {s : Sys.State} {i : Nat} {j j' : Job} (hn : j'.name = j.name) (he : calls j'.events = calls j.events)
    (ha : Accepted j'.events → Accepted j.events) (hp : j'.pending = j.pending) (hh : j'.handing = j.handing)
    (ht : Tickets s i j.name j'.events) (hm : Mine s i j) : Mine s i j' :=
  ⟨by rw [hm.core, hn, he, hp], by rw [hm.starting, hn, he, hp], fun h => by rw [hm.submitted (ha h), hn, he],
   fun t ht c hc => by rw [hh] at ht; rw [hp] at hc; rw [hm.ticket t ht c hc, hn, he], by rw [hn]; exact ht⟩

theorem accepted_snoc {evs : List Ev} {ev : Ev} (h : Accepted (evs ++ [ev])) : Accepted evs :=
  fun c e hm => h c e (by simp [hm])

theorem handing_prog {s : Sys.State} {j : Job} (hh : ∀ tok, j.handing = some tok → Handing s j tok)
    (hp : ∀ core call k k', j.prog ≠ .session core (.hand call k) k') : j.handing = none := by
  cases h : j.handing with
  | none => rfl
  | some tok =>
    obtain ⟨i, core, call, k, _, h2, _⟩ := hh tok h
    exact absurd h2 (hp _ _ _ _)

theorem mine_after {cfg : Sys.Cfg} {s s' : Sys.State} {j : Job} {i : Nat} {as : List Sys.Act} (hi : i < s.nClients)
    (hh : ∀ tok, j.handing = some tok → Handing s j tok) (hc : j.client = some i) (ha : j.acts s = some as)
    (hs : sysSteps cfg s as = some s') (hm : Mine s i j) : Mine s' i (j.after s s') := by
  have quiet : (∀ a ∈ as, ¬ a.on i) → Mine s' i j := fun h => mine_same (Sys.same_steps hs hi h) hm
  have hn := (after_made s s' j).2.1
  have hc' := hc
  by_cases hhand : ∃ core call k k', j.prog = .session core (.hand call k) k'
  · obtain ⟨core, call, k, k', hp⟩ := hhand
    cases hg : j.handing with
    | none =>
      simp only [Job.acts, hp, hc, hg, Option.some.injEq] at ha
      subst ha
      have hb := begun hs
      have hpend : (j.after s s').pending = [call] := by rw [after_begin hp hc hg]; simp [Job.pending, hp]
      have hev : (j.after s s').events = j.events := by rw [after_begin hp hc hg]; rfl
      have h1 := hm.core
      have h2 := hm.starting
      rw [pending_nil hg, List.append_nil] at h1
      rw [pending_nil hg, Sys.issueAll] at h2
      have hiss : s.issued <+: s'.issued := by
        rw [hb.issued]; split
        · exact List.prefix_append _ _
        · exact List.prefix_rfl
      refine ⟨?_, ?_, ?_, ?_, by rw [hn, hev]; exact tickets_mono hiss hm.tickets⟩
      rotate_left 3
      · intro t ht c hc
        rw [hpend] at hc
        simp only [List.mem_singleton] at hc
        subst hc
        rw [after_begin hp hc' hg] at ht
        cases he : c.expectsResponse with
        | false => simp [he] at ht
        | true =>
          simp only [he, if_true, Option.some.injEq] at ht
          subst ht
          rw [hb.issued, he, hn, hev, h1]
          simp
      · rw [hb.core, h1, hn, hev, hpend, Sys.afterAll_append]; rfl
      · rw [hb.starting, List.map_append, h2, hn, hev, hpend, h1]; rfl
      · intro hacc
        rw [hb.submitted, hm.submitted (by rwa [hev] at hacc), hn, hev]
    | some tok =>
      simp only [Job.acts, hp, hc, hg, Option.some.injEq] at ha
      subst ha
      obtain ⟨cmd, hput⟩ := put hs
      have hpend : (j.after s s').pending = [] := by rw [after_put hp hc hg]; rfl
      have hpend0 : j.pending = [call] := by simp [Job.pending, hp, hg]
      have hev := events_did (j := j.after s s') (c := core) (j0 := j) (tr := j.trace)
        (ev := .handed call (if Sys.engineEnd s i then .ok (tok.getD 0) else .err .channelTerminated))
        (by rw [after_put hp hc hg]) rfl
      have h1 := hm.core
      have h2 := hm.starting
      rw [hpend0] at h1 h2
      simp only [Sys.issueAll] at h2
      obtain ⟨cmd', hcm⟩ : ∃ c, (s.clients i).starting = [c] := by
        cases hst : (s.clients i).starting with
        | nil => simp [hst] at h2
        | cons c cs =>
          cases cs with
          | nil => exact ⟨c, rfl⟩
          | cons d ds => simp [hst] at h2
      have hat := hput.at_
      rw [hcm] at hat h2
      have hslot : slot s i tok = 0 := by
        cases hsl : slot s i tok with
        | zero => rfl
        | succ n => simp [hsl] at hat
      rw [hslot] at hat
      simp only [List.getElem?_cons_zero, Option.some.injEq] at hat
      subst hat
      simp only [List.map_cons, List.map_nil, List.cons.injEq, and_true] at h2
      refine ⟨?_, ?_, ?_, ?_, ?_⟩
      rotate_left 3
      · intro t ht
        rw [after_put hp hc hg] at ht
        cases ht
      · rw [hn, hev]
        refine tickets_snoc (tickets_mono (by rw [hput.issued]; exact List.prefix_rfl) hm.tickets) ?_
        intro c t he hx
        cases hend : Sys.engineEnd s i with
        | false => simp [hend] at he
        | true =>
          simp only [hend, if_true, Ev.handed.injEq, Outcome.ok.injEq] at he
          obtain ⟨rfl, rfl⟩ := he
          obtain ⟨i', core2, call', k2, q1, q2, q3⟩ := hh tok hg
          rw [hp] at q2; cases q2
          rcases q3 with ⟨q3, _⟩ | ⟨_, t, core', rfl, _⟩
          · simp [hx] at q3
          · rw [hput.issued]
            exact hm.ticket t hg call (by simp [hpend0])
      · rw [hput.core, h1, hn, hev, hpend, calls_snoc_handed, List.append_nil]
      · rw [hput.starting, hcm, hslot, hpend]; rfl
      · intro hacc
        rw [hev] at hacc
        have hend : Sys.engineEnd s i = true := by
          cases he : Sys.engineEnd s i with
          | true => rfl
          | false => exact absurd (by simp [he]) (hacc call .channelTerminated)
        rw [hput.submitted, hend, hn, hev, calls_snoc_handed, Sys.issueAll_append]
        simp only [if_true, List.map_append, hm.submitted (accepted_snoc hacc), List.map_cons, List.map_nil, h2, Sys.issueAll]
  · have hp' : ∀ core call k k', j.prog ≠ .session core (.hand call k) k' := fun core call k k' h => hhand ⟨core, call, k, k', h⟩
    have hg := handing_prog hh hp'
    have hpend : (j.after s s').pending = j.pending := by
      rw [pending_nil hg, pending_nil (by rw [after_handing hp', hg])]
    have hq : ∀ a ∈ as, ¬ a.on i := by
      unfold Job.acts at ha
      split at ha <;> (try split at ha) <;> simp only [Option.some.injEq, reduceCtorEq] at ha
      all_goals first
        | (subst ha; intro a hm; cases hm; done)
        | (subst ha; intro a hm; simp only [List.mem_singleton] at hm; subst hm; exact fun h => h)
        | exact absurd (by assumption) (hp' _ _ _ _)
        | skip
      all_goals subst ha; intro a hm; simp at hm; subst hm; first | exact (fun h => h) | (split <;> exact (fun h => h))
    have hmq := quiet hq
    refine mine_eq hn ?_ ?_ hpend (after_handing hp') ?_ hmq
    rotate_left 2
    · unfold Job.after
      split <;> (try split) <;> first
        | exact hmq.tickets
        | exact absurd (by assumption) (hp' _ _ _ _)
        | (rw [show ∀ x y z w v u a b c : _, Job.events ⟨x, y, z, w, v, u, a, b, c⟩ = List.filterMap _ c from fun _ _ _ _ _ _ _ _ _ => rfl]
           simp only [List.filterMap_append, List.filterMap_cons, List.filterMap_nil, List.append_nil]
           exact hmq.tickets)
        | (rw [show ∀ x y z w v u a b c : _, Job.events ⟨x, y, z, w, v, u, a, b, c⟩ = List.filterMap _ c from fun _ _ _ _ _ _ _ _ _ => rfl]
           simp only [List.filterMap_append, List.filterMap_cons, List.filterMap_nil]
           exact tickets_snoc hmq.tickets (fun c t h => by cases h))
    · unfold Job.after
      split <;> (try split) <;> first | rfl | (simp [Job.events, calls]; done) | skip
      all_goals exact absurd (by assumption) (hp' _ _ _ _)
    · unfold Job.after
      intro hacc c e hmem
      refine hacc c e ?_
      split <;> (try split) <;> first | exact hmem | (simp only [Job.events, List.filterMap_append, List.mem_append] at hmem ⊢; exact .inl hmem)

structure Own (cfg : World.Cfg T) (a : State T) : Prop where
  alone : ∀ (n : Nat) (j : Job) (i : Nat), a.jobs[n]? = some j → j.owns = true → j.uses i = true → ∀ (m : Nat) (j' : Job), m ≠ n → a.jobs[m]? = some j' → j'.uses i = false
  tasks : ∀ j ∈ a.jobs, j.owns = true → j.uses cfg.me = true → a.world.app.tasks = []
  mine : ∀ j ∈ a.jobs, j.owns = true → ∀ i, j.uses i = true → Mine a.world.sys i j

theorem uses_iff {j : Job} {i : Nat} : j.uses i = true ↔ j.live = true ∧ j.ended = none ∧ j.client = some i := by
  simp [Job.uses, and_assoc]

theorem ended_ret {j : Job} {o : Outcome Unit} : j.ended = some o ↔ j.prog = .ret o := by
  unfold Job.ended
  split
  · rename_i h; rw [h]; simp
  · rename_i h; simp; exact fun h' => h _ h'

theorem uses_after {s s' : Sys.State} {j : Job} {i : Nat} (h : (j.after s s').uses i = true) :
    j.uses i = true ∨ ∃ k, j.prog = .newId k ∧ i = s.nClients ∧ j.live = true := by
  obtain ⟨h1, h2, h3⟩ := uses_iff.mp h
  rw [(after_made s s' j).2.2.2.1] at h1
  by_cases hp : ∃ k, j.prog = .newId k
  · obtain ⟨k, hp⟩ := hp
    refine .inr ⟨k, hp, ?_, h1⟩
    have : (j.after s s').client = some s.nClients := by unfold Job.after; rw [hp]
    rw [this] at h3
    exact (Option.some.inj h3).symm
  · left
    refine uses_iff.mpr ⟨h1, ?_, ?_⟩
    · cases he : j.ended with
      | none => rfl
      | some o => rw [after_ret (ended_ret.mp he), he] at h2; cases h2
    · rw [← h3]
      unfold Job.after
      split <;> (try rfl) <;> (try split) <;> first | rfl | exact absurd ⟨_, by assumption⟩ hp

theorem acts_on {s : Sys.State} {j : Job} {as : List Sys.Act} (ha : j.acts s = some as) {x : Sys.Act} (hx : x ∈ as) {i : Nat}
    (ho : x.on i) : j.client = some i ∧ j.ended = none := by
  unfold Job.acts at ha
  split at ha
  · simp only [Option.some.injEq] at ha; subst ha
    simp only [List.mem_singleton] at hx; subst hx; exact ho.elim
  · simp only [Option.some.injEq] at ha; subst ha
    simp only [List.mem_singleton] at hx; subst hx
    split at ho <;> exact ho.elim
  · rename_i c call k k' i' hp hc
    have he : j.ended = none := by unfold Job.ended; rw [hp]
    split at ha <;>
    · simp only [Option.some.injEq] at ha; subst ha
      simp only [List.mem_singleton] at hx; subst hx
      cases ho
      exact ⟨hc, he⟩
  · split at ha
    · simp only [Option.some.injEq] at ha; subst ha; cases hx
    · cases ha
  · simp only [Option.some.injEq] at ha; subst ha; cases hx
  · simp only [Option.some.injEq] at ha; subst ha
    split at hx
    · simp only [List.mem_singleton] at hx; subst hx; exact ho.elim
    · cases hx
  · cases ha

theorem dropActs_on {s : Sys.State} {j : Job} {x : Sys.Act} (hx : x ∈ j.dropActs s) {i : Nat} : ¬ x.on i := by
  unfold Job.dropActs at hx
  split at hx
  · split at hx
    · split at hx
      · simp only [List.mem_singleton] at hx; subst hx; exact fun h => h
      · split at hx
        · simp only [List.mem_singleton] at hx; subst hx; exact fun h => h
        · cases hx
    · cases hx
  · cases hx

theorem newClient_new {cfg : Sys.Cfg} {s s' : Sys.State} {name : String} (h : sysSteps cfg s [.newClient name] = some s') :
    s'.nClients = s.nClients + 1 ∧ (s'.clients s.nClients).core = ⟨UInt64.ofNat s.nClients, name, 0, 0⟩ ∧
    (s'.clients s.nClients).starting = [] ∧ (s'.clients s.nClients).submitted = [] := by
  simp only [sysSteps, Sys.step, Sys.newClient] at h
  split at h
  · rename_i hx
    split at hx
    · cases hx; cases h; simp [Sys.State.setClient]
    · cases hx
  · cases h

theorem lt_of_uses {cfg : World.Cfg T} {acts : List Act} {log : List World.Act} {a : State T} (h : Run cfg acts log a) {j : Job}
    (hj : j ∈ a.jobs) {i : Nat} (hu : j.uses i = true) : i < a.world.sys.nClients :=
  ((seen h j hj).client i (uses_iff.mp hu).2.2).1

theorem own_of {cfg : World.Cfg T} {acts : List Act} {log : List World.Act} {a : State T} (h : Run cfg acts log a) : Own cfg a := by
  induction h with
  | nil => exact ⟨fun n j i hj => by simp [init] at hj, fun j hj => by simp [init] at hj, fun j hj => by simp [init] at hj⟩
  | @snoc as log a a' x h hs ih =>
    obtain ⟨hp, hw, hj⟩ := step_some hs
    cases x with
    | world x =>
      simp only [jobsAfter] at hj
      simp only [induced, worldSteps] at hw
      cases hx : World.step cfg a.world x with
      | none => rw [hx] at hw; cases hw
      | some w1 =>
        rw [hx] at hw
        simp only [Option.some.injEq] at hw
        subst hw
        simp only [possible] at hp
        refine ⟨fun n j i hn => by rw [hj] at hn ⊢; exact ih.alone n j i hn, fun j hm ho hu => ?_, fun j hm ho i hu => ?_⟩
        · rw [hj] at hm
          refine world_tasks hx ?_ (ih.tasks j hm ho hu)
          rintro jb rfl
          simp only [free, Bool.not_eq_true', building, List.any_eq_false, Bool.and_eq_true] at hp
          exact hp j hm ⟨ho, hu⟩
        · rw [hj] at hm
          refine mine_same (world_same hx (lt_of_uses h hm hu) ?_ ?_) (ih.mine j hm ho i hu)
          · rintro y rfl hon
            cases y <;> first | exact hon.elim | (simp [free] at hp)
          · rintro rfl; exact ih.tasks j hm ho hu
    | start c =>
      simp only [jobsAfter] at hj
      simp only [induced, worldSteps, Option.some.injEq] at hw
      have new : ∀ i, (c.job a.world.sys).uses i = true → ∃ p, c = .call i p ∧ building a.jobs i = false := by
        intro i hu
        have := (uses_iff.mp hu).2.2
        cases c with
        | consumer b | producer b => simp [Start.job] at this
        | call k p =>
          simp only [Start.job, Option.some.injEq] at this
          subst this
          simp only [possible, Start.possible, Bool.and_eq_true, Bool.not_eq_true'] at hp
          exact ⟨p, rfl, hp.2⟩
      have newOwns : ∀ i, (c.job a.world.sys).uses i = true → (c.job a.world.sys).owns = true → False := by
        intro i hu ho
        obtain ⟨p, rfl, _⟩ := new i hu
        simp [Start.job] at ho
      refine ⟨fun n j i hn ho hu m j' hne hm => ?_, fun j hm ho hu => ?_, fun j hm ho i hu => ?_⟩
      · rw [hj] at hn hm
        rw [List.getElem?_append] at hn hm
        split at hn
        · split at hm
          · exact ih.alone n j i hn ho hu m j' hne hm
          · have : j' = c.job a.world.sys := by
              have := List.mem_of_getElem? hm
              simpa using this
            subst this
            cases hu' : (c.job a.world.sys).uses i with
            | false => rfl
            | true =>
              obtain ⟨p, _, hb⟩ := new i hu'
              simp only [building, List.any_eq_false, Bool.and_eq_true] at hb
              exact absurd ⟨ho, hu⟩ (hb j (List.mem_of_getElem? hn))
        · have : j = c.job a.world.sys := by
            have := List.mem_of_getElem? hn
            simpa using this
          subst this
          exact (newOwns i hu ho).elim
      · rw [hj] at hm
        rw [← hw]
        rcases List.mem_append.mp hm with hm | hm
        · exact ih.tasks j hm ho hu
        · simp only [List.mem_singleton] at hm; subst hm; exact (newOwns _ hu ho).elim
      · rw [hj] at hm
        rw [← hw]
        rcases List.mem_append.mp hm with hm | hm
        · exact ih.mine j hm ho i hu
        · simp only [List.mem_singleton] at hm; subst hm; exact (newOwns _ hu ho).elim
    | run k =>
      simp only [jobsAfter] at hj
      cases hk : a.jobs[k]? with
      | none => simp [possible, hk] at hp
      | some jk =>
        have hjk := List.mem_of_getElem? hk
        simp only [possible, hk, Bool.and_eq_true] at hp
        obtain ⟨acts', hacts⟩ := Option.isSome_iff_exists.mp hp.2
        simp only [induced, hk, hacts, Option.getD_some] at hw
        have htasks := worldSteps_tasks hw
        have hss := worldSteps_sys hw
        have lookup : ∀ n j, a'.jobs[n]? = some j → (n ≠ k ∧ a.jobs[n]? = some j) ∨ (n = k ∧ j = jk.after a.world.sys a'.world.sys) := by
          intro n j hn
          rw [hj, List.getElem?_modify] at hn
          cases hx : a.jobs[n]? with
          | none => simp [hx] at hn
          | some j0 =>
            simp only [hx, Option.map_eq_map, Option.map_some, Option.some.injEq] at hn
            split at hn
            · rename_i he
              subst he
              rw [hk] at hx
              cases hx
              exact .inr ⟨rfl, hn.symm⟩
            · rename_i he
              exact .inl ⟨fun h => he h.symm, by rw [hn]⟩
        have howns := (after_made a.world.sys a'.world.sys jk).2.2.1
        refine ⟨fun n j i hn ho hu m j' hne hm => ?_, fun j hm ho hu => ?_, fun j hm ho i hu => ?_⟩
        · rcases lookup n j hn with ⟨hnk, hn⟩ | ⟨rfl, rfl⟩
          · rcases lookup m j' hm with ⟨hmk, hm⟩ | ⟨rfl, rfl⟩
            · exact ih.alone n j i hn ho hu m j' hne hm
            · cases hu' : (jk.after a.world.sys a'.world.sys).uses i with
              | false => rfl
              | true =>
                rcases uses_after hu' with h1 | ⟨q, _, h2, _⟩
                · rw [ih.alone n j i hn ho hu m jk hne hk] at h1; cases h1
                · have := lt_of_uses h (List.mem_of_getElem? hn) hu
                  omega
          · rcases lookup m j' hm with ⟨hmk, hm⟩ | ⟨rfl, _⟩
            · cases hu' : j'.uses i with
              | false => rfl
              | true =>
                rcases uses_after hu with h1 | ⟨q, _, h2, _⟩
                · rw [howns] at ho
                  rw [ih.alone n jk i hk ho h1 m j' hne hm] at hu'; cases hu'
                · have := lt_of_uses h (List.mem_of_getElem? hm) hu'
                  omega
            · exact absurd rfl hne
        · rw [htasks]
          obtain ⟨n, hn⟩ := List.getElem?_of_mem hm
          rcases lookup n j hn with ⟨_, hn⟩ | ⟨rfl, rfl⟩
          · exact ih.tasks j (List.mem_of_getElem? hn) ho hu
          · rcases uses_after hu with h1 | ⟨q, _, h2, _⟩
            · rw [howns] at ho
              exact ih.tasks jk hjk ho h1
            · exact no_tasks (run_world h) (by omega)
        · obtain ⟨n, hn⟩ := List.getElem?_of_mem hm
          rcases lookup n j hn with ⟨hnk, hn⟩ | ⟨rfl, rfl⟩
          · refine mine_same (Sys.same_steps hss (lt_of_uses h (List.mem_of_getElem? hn) hu) ?_)
              (ih.mine j (List.mem_of_getElem? hn) ho i hu)
            intro y hy hon
            obtain ⟨h1, h2⟩ := acts_on hacts hy hon
            have := ih.alone n j i hn ho hu k jk (fun he => hnk he.symm) hk
            rw [uses_iff.mpr ⟨hp.1, h2, h1⟩] at this
            cases this
          · rw [howns] at ho
            rcases uses_after hu with h1 | ⟨q, hq, rfl, hl⟩
            · exact mine_after (lt_of_uses h hjk h1) (handing_ok h jk hjk) (uses_iff.mp h1).2.2 hacts hss (ih.mine jk hjk ho i h1)
            · have hkd := kind h jk hjk
              have hst : jk.trace = [] := by
                cases hkd with
                | missing hp' => rw [hq] at hp'; cases hp'
                | consumer b name topic subscription hb hm hn hs =>
                  cases hs with
                  | new _ _ ht => exact ht
                  | registering _ _ _ hp' => rw [hq] at hp'; cases hp'
                  | refused _ _ hp' => rw [hq] at hp'; cases hp'
                  | calls _ _ _ hp' => cases hp' with
                    | running _ hp' => rw [hq] at hp'; cases hp'
                    | over _ hp' => rw [hq] at hp'; cases hp'
                | producer b name topic hb hm hn hs =>
                  cases hs with
                  | new _ _ ht => exact ht
                  | registering _ _ _ hp' => rw [hq] at hp'; cases hp'
                  | refused _ _ hp' => rw [hq] at hp'; cases hp'
                  | calls _ _ _ hp' => cases hp' with
                    | running _ hp' => rw [hq] at hp'; cases hp'
                    | over _ hp' => rw [hq] at hp'; cases hp'
                | call _ _ _ _ _ _ hp' => cases hp' with
                    | running _ hp' => rw [hq] at hp'; cases hp'
                    | over _ hp' => rw [hq] at hp'; cases hp'
              have hg := handing_prog (handing_ok h jk hjk) (fun core call k k' he => by rw [hq] at he; cases he)
              have hev : (jk.after a.world.sys a'.world.sys).events = [] := by
                unfold Job.after Job.events; rw [hq]; simp [hst]
              have hpend : (jk.after a.world.sys a'.world.sys).pending = [] := by
                refine pending_nil ?_
                rw [after_handing (fun core call k k' he => by rw [hq] at he; cases he), hg]
              unfold Job.acts at hacts
              rw [hq] at hacts
              simp only [Option.some.injEq] at hacts
              subst hacts
              obtain ⟨_, c1, c2, c3⟩ := newClient_new hss
              refine ⟨?_, ?_, fun _ => ?_, fun t _ c hc => by (rw [hpend] at hc; cases hc), by
                rw [hev]; intro pre post c t he; simp at he⟩
              · rw [c1, hev, hpend, (after_made a.world.sys a'.world.sys jk).2.1]; rfl
              · rw [c2, hev, hpend]; rfl
              · rw [c3, hev]; rfl
    | drop k =>
      simp only [jobsAfter] at hj
      cases hk : a.jobs[k]? with
      | none => simp [possible, hk] at hp
      | some jk =>
        simp only [induced, hk] at hw
        have htasks := worldSteps_tasks hw
        have hss := worldSteps_sys hw
        have lookup : ∀ (n : Nat) (j : Job) (i : Nat), a'.jobs[n]? = some j → j.uses i = true → a.jobs[n]? = some j := by
          intro n j i hn hu
          rw [hj, List.getElem?_modify] at hn
          cases hx : a.jobs[n]? with
          | none => simp [hx] at hn
          | some j0 =>
            simp only [hx, Option.map_eq_map, Option.map_some, Option.some.injEq] at hn
            split at hn
            · subst hn
              simp [Job.uses] at hu
            · rw [hn]
        refine ⟨fun n j i hn ho hu m j' hne hm => ?_, fun j hm ho hu => ?_, fun j hm ho i hu => ?_⟩
        · cases hu' : j'.uses i with
          | false => rfl
          | true =>
            have := ih.alone n j i (lookup n j i hn hu) ho hu m j' hne (lookup m j' i hm hu')
            rw [hu'] at this; cases this
        · rw [htasks]
          obtain ⟨n, hn⟩ := List.getElem?_of_mem hm
          exact ih.tasks j (List.mem_of_getElem? (lookup n j _ hn hu)) ho hu
        · obtain ⟨n, hn⟩ := List.getElem?_of_mem hm
          have hm' := List.mem_of_getElem? (lookup n j _ hn hu)
          refine mine_same (Sys.same_steps hss (lt_of_uses h hm' hu) ?_) (ih.mine j hm' ho i hu)
          intro y hy
          exact dropActs_on hy

theorem submitted_mono {cfg : Sys.Cfg} {s s' : Sys.State} {a : Sys.Act} (hs : Sys.step cfg s a = some s') {i : Nat}
    (hi : i < s.nClients) : (s.clients i).submitted <+: (s'.clients i).submitted := by
  rcases Sys.client_step hs (Nat.lt_of_lt_of_le hi (Sys.nClients_mono hs)) with ⟨_, hc⟩ | ⟨h, _⟩
  · cases hc with
    | same h1 h2 h3 => rw [h3]; exact List.prefix_rfl
    | began call ha h1 h2 h3 => rw [h3]; exact List.prefix_rfl
    | submitted k c ha hk h1 h2 h3 => rw [h3]; exact List.prefix_append _ _
    | refused k c ha hk h1 h2 h3 => rw [h3]; exact List.prefix_rfl
  · omega

theorem acts_unended {s : Sys.State} {j : Job} {as : List Sys.Act} (ha : j.acts s = some as) : j.ended = none := by
  cases he : j.ended with
  | none => rfl
  | some o =>
    have := ended_ret.mp he
    unfold Job.acts at ha
    rw [this] at ha
    cases ha

/-- What a `connect` handed over is what its client submitted first. -/
theorem submitted_first {cfg : World.Cfg T} {acts : List Act} {log : List World.Act} {a : State T} (h : Run cfg acts log a) :
    ∀ j ∈ a.jobs, j.owns = true → ∀ i, j.client = some i → i < a.world.sys.nClients ∧ (Accepted j.events →
      Sys.issueAll (new i j.name) (calls j.events) <+: (a.world.sys.clients i).submitted.map Sys.ClientCmd.out) ∧
      Tickets a.world.sys i j.name j.events := by
  refine job_induct_with (I := fun s j => (∀ tok, j.handing = some tok → Handing s j tok) ∧ (j.owns = true → ∀ i, j.uses i = true →
      Mine s i j) ∧ Kind j) (fun h j hj => ⟨handing_ok h j hj, (own_of h).mine j hj, kind h j hj⟩)
    (fun s j => j.owns = true → ∀ i, j.client = some i → i < s.nClients ∧ (Accepted j.events →
      Sys.issueAll (new i j.name) (calls j.events) <+: (s.clients i).submitted.map Sys.ClientCmd.out) ∧
      Tickets s i j.name j.events) ?_ ?_ ?_ (fun _ _ h => h) h
  · intro s a s' j hr hq hs ho i hc
    obtain ⟨h1, h2, h3⟩ := hq ho i hc
    exact ⟨Nat.lt_of_lt_of_le h1 (Sys.nClients_mono hs), fun hacc => (h2 hacc).trans ((submitted_mono hs h1).map _),
      tickets_mono (Sys.issued_step hs) h3⟩
  · intro s c hr _ ho i hc
    cases c with
    | consumer b | producer b => simp [Start.job] at hc
    | call k p => simp [Start.job] at ho
  · rintro s s' j as hr ⟨hh, hm, hkd⟩ hq hl ha hs hq' ho i hc
    have howns := (after_made s s' j).2.2.1
    rw [howns] at ho
    cases hcl : j.client with
    | some i0 =>
      have hi0 := hq ho i0 hcl
      have hmine := mine_after hi0.1 hh hcl ha hs (hm ho i0 (uses_iff.mpr ⟨hl, acts_unended ha, hcl⟩))
      have hi : i = i0 := by
        by_cases hnew : ∃ k, j.prog = .newId k
        · obtain ⟨k, hp⟩ := hnew
          have stage : ∀ {name topic : String} {q : Prog Unit}, Stage name topic q j → False := by
            intro name topic q hs
            cases hs with
            | new h1 => rw [hcl] at h1; cases h1
            | registering _ _ _ hp' => rw [hp] at hp'; cases hp'
            | refused _ _ hp' => rw [hp] at hp'; cases hp'
            | calls _ _ _ hp' => cases hp' with
              | running _ hp' => rw [hp] at hp'; cases hp'
              | over _ hp' => rw [hp] at hp'; cases hp'
          cases hkd with
          | missing hp' => rw [hp] at hp'; cases hp'
          | consumer b name topic subscription hb hm hn hs => exact (stage hs).elim
          | producer b name topic hb hm hn hs => exact (stage hs).elim
          | call _ _ _ _ _ _ hp' => cases hp' with
            | running _ hp' => rw [hp] at hp'; cases hp'
            | over _ hp' => rw [hp] at hp'; cases hp'
        · have : (j.after s s').client = j.client := by
            unfold Job.after
            split <;> (try rfl) <;> (try split) <;> first | rfl | exact absurd ⟨_, by assumption⟩ hnew
          rw [this, hcl] at hc
          exact (Option.some.inj hc).symm
      subst hi
      refine ⟨(hq' ho i hcl).1, fun hacc => ?_, hmine.tickets⟩
      rw [hmine.submitted hacc]; exact List.prefix_rfl
    | none =>
      have hnew : ∃ k, j.prog = .newId k := by
        unfold Job.acts at ha
        rw [hcl] at ha
        split at ha <;> first | exact ⟨_, by assumption⟩ | simp_all
      obtain ⟨k, hp⟩ := hnew
      have hst : j.trace = [] := by
        have stage : ∀ {name topic : String} {q : Prog Unit}, Stage name topic q j → j.trace = [] := by
          intro name topic q hs
          cases hs with
          | new _ _ ht => exact ht
          | registering _ hc' => rw [hcl] at hc'; cases hc'
          | refused _ hc' => rw [hcl] at hc'; cases hc'
          | calls _ _ hc' => rw [hcl] at hc'; cases hc'
        cases hkd with
        | missing hp' => rw [hp] at hp'; cases hp'
        | consumer b name topic subscription hb hm hn hs => exact stage hs
        | producer b name topic hb hm hn hs => exact stage hs
        | call _ _ _ _ _ hc' => rw [hcl] at hc'; cases hc'
      have hcl' : (j.after s s').client = some s.nClients := by unfold Job.after; rw [hp]
      have hev : (j.after s s').events = [] := by unfold Job.after Job.events; rw [hp]; simp [hst]
      rw [hcl'] at hc
      cases hc
      unfold Job.acts at ha
      rw [hp] at ha
      simp only [Option.some.injEq] at ha
      subst ha
      obtain ⟨h1, _⟩ := newClient_new hs
      refine ⟨by omega, fun _ => ?_, by rw [hev]; intro pre post c t he; simp at he⟩
      rw [hev]
      exact List.nil_prefix

end App
end Neutron
