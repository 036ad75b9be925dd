import Verif.Proof.AppLive
import Verif.Proof.AppOrder
import Verif.Spec.Asked

/-!
# Every command the engine is given was asked for
-/

namespace Neutron

namespace Sys

/-- Requests carry the id and the name of their client. -/
theorem issued_named {cfg : Cfg} {s : State} (h : Reachable cfg s) : ∀ (t i : Nat) (out : Outbound), s.issued[t]? = some (i, out) →
    i < s.nClients ∧ ∃ (core : Client) (call : Call), core.clientId = UInt64.ofNat i ∧
      core.clientName = (s.clients i).core.clientName ∧ call.expectsResponse = true ∧ out = (core.issue call).2 := by
  refine h.induct (P := fun s => ∀ (t i : Nat) (out : Outbound), s.issued[t]? = some (i, out) →
    i < s.nClients ∧ ∃ (core : Client) (call : Call), core.clientId = UInt64.ofNat i ∧
      core.clientName = (s.clients i).core.clientName ∧ call.expectsResponse = true ∧ out = (core.issue call).2) (by simp [init]) ?_
  intro s a s' hr ih hs t i out ht
  have lift : s.issued[t]? = some (i, out) → i < s'.nClients ∧ ∃ (core : Client) (call : Call), core.clientId = UInt64.ofNat i ∧
      core.clientName = (s'.clients i).core.clientName ∧ call.expectsResponse = true ∧ out = (core.issue call).2 := by
    intro hx
    obtain ⟨h1, core, call, h2, h3, h4, h5⟩ := ih t i out hx
    exact ⟨Nat.lt_of_lt_of_le h1 (nClients_mono hs), core, call, h2, h3.trans (App.name_step hs h1).symm, h4, h5⟩
  have hi : i < s'.nClients := ((req (hr.step hs)).issued t i out ht).1
  rcases client_step hs hi with ⟨hi', hc⟩ | ⟨rfl, h2, _⟩
  · cases hc with
    | same _ _ _ h4 =>
      rcases h4 with h4 | ⟨j, o, hj, h4⟩
      · rw [h4] at ht; exact lift ht
      · rw [h4, List.getElem?_append] at ht
        split at ht
        · exact lift ht
        · have := List.mem_of_getElem? ht
          simp only [List.mem_singleton, Prod.mk.injEq] at this
          exact absurd this.1.symm hj
    | began call ha h1 h2 h3 h4 =>
      cases he : call.expectsResponse with
      | false => rw [h4, he] at ht; exact lift ht
      | true =>
        rw [h4, he, if_pos rfl, List.getElem?_append] at ht
        split at ht
        · exact lift ht
        · have := List.mem_of_getElem? ht
          simp only [List.mem_singleton, Prod.mk.injEq] at this
          exact ⟨hi, (s.clients i).core, call, (wf hr).ids i hi', (App.name_step hs hi').symm, he, this.2⟩
    | submitted k c ha hk h1 h2 h3 h4 => rw [h4] at ht; exact lift ht
    | refused k c ha hk h1 h2 h3 h4 => rw [h4] at ht; exact lift ht
  · rw [h2] at ht; exact lift ht

/-- A step that puts nothing in a channel adds nothing to what the engine was given. -/
theorem submitted_step {cfg : Cfg} {s s' : State} {a : Act} (hs : step cfg s a = some s') (ha : ∀ i k, a ≠ .submit i k) {i : Nat}
    (hi : i < s'.nClients) {cmd : ClientCmd} (hm : cmd ∈ (s'.clients i).submitted) :
    i < s.nClients ∧ cmd ∈ (s.clients i).submitted := by
  rcases client_step hs hi with ⟨hi', hc⟩ | ⟨rfl, _, name, _, hc⟩
  · cases hc with
    | same h1 h2 h3 => rw [h3] at hm; exact ⟨hi', hm⟩
    | began call _ h1 h2 h3 => rw [h3] at hm; exact ⟨hi', hm⟩
    | submitted k c h => exact absurd h (ha _ _)
    | refused k c h => exact absurd h (ha _ _)
  · rw [hc] at hm; cases hm

end Sys

namespace App

open Neutron World

variable {T : Type}

theorem submitted_steps {cfg : Sys.Cfg} : ∀ {as : List Sys.Act} {s s' : Sys.State}, sysSteps cfg s as = some s' →
    (∀ a ∈ as, ∀ i k, a ≠ .submit i k) → ∀ {i : Nat}, i < s'.nClients → ∀ {cmd : Sys.ClientCmd}, cmd ∈ (s'.clients i).submitted →
    i < s.nClients ∧ cmd ∈ (s.clients i).submitted := by
  intro as
  induction as with
  | nil => intro s s' h _ i hi cmd hm; cases h; exact ⟨hi, hm⟩
  | cons a as ih =>
    intro s s' h ha i hi cmd hm
    simp only [sysSteps] at h
    cases hx : Sys.step cfg s a with
    | none => rw [hx] at h; cases h
    | some s1 =>
      rw [hx] at h
      obtain ⟨h1, h2⟩ := ih h (fun b hb => ha b (List.mem_cons_of_mem _ hb)) hi hm
      exact Sys.submitted_step hx (ha a (List.mem_cons_self ..)) h1 h2

/-- A hand-over by step `c` of a call, accepted as request `t`. -/
def Handed (j : Job) (c : Call) (t : Nat) : Prop := .handed c (.ok t) ∈ j.events

/-- The command was asked for by one of the calls (or it is a `FLOW` of the consumer whose receiving calls run). -/
def AskedBy (me : Nat) (jobs : List Job) (i : Nat) (cmd : Sys.ClientCmd) : Prop :=
  match cmd.tok with
  | some t => ∃ (n : Nat) (j : Job), jobs[n]? = some j ∧ j.client = some i ∧ t ∈ requests j.events
  | none => i = me ∨ ∃ (n : Nat) (j : Job) (c : Call) (t : Nat), jobs[n]? = some j ∧ j.client = some i ∧ Handed j c t ∧
      c.expectsResponse = false

/-- A job does not forget. -/
def Grows (j j' : Job) : Prop := (∀ i, j.client = some i → j'.client = some i) ∧ j.events <+: j'.events

theorem askedBy_mono {me : Nat} {jobs jobs' : List Job} (h : ∀ (n : Nat) (j : Job), jobs[n]? = some j → ∃ j', jobs'[n]? = some j' ∧ Grows j j')
    {i : Nat} {cmd : Sys.ClientCmd} (ha : AskedBy me jobs i cmd) : AskedBy me jobs' i cmd := by
  unfold AskedBy at ha ⊢
  split at ha
  · obtain ⟨n, j, h1, h2, h3⟩ := ha
    obtain ⟨j', g1, g2, l, g3⟩ := h n j h1
    exact ⟨n, j', g1, g2 _ h2, by rw [← g3, requests_append]; exact List.mem_append_left _ h3⟩
  · rcases ha with ha | ⟨n, j, c, t, h1, h2, h3, h4⟩
    · exact .inl ha
    · obtain ⟨j', g1, g2, g3⟩ := h n j h1
      exact .inr ⟨n, j', c, t, g1, g2 _ h2, g3.subset h3, h4⟩

theorem after_grows {s s' : Sys.State} {j : Job} (hk : ∀ k, j.prog = .newId k → j.client = none) : Grows j (j.after s s') := by
  have hev : ∀ (j' : Job) (ev : SetupEv), j'.trace = j.trace ++ [ev] → j.events <+: j'.events := by
    intro j' ev hj
    unfold Job.events
    rw [hj, List.filterMap_append]
    exact List.prefix_append ..
  unfold Job.after
  split
  · rename_i k hp
    exact ⟨fun i hi => (by rw [hk _ hp] at hi; cases hi), hev _ _ rfl⟩
  · split
    · exact ⟨fun _ h => h, hev _ _ rfl⟩
    · exact ⟨fun _ h => h, hev _ _ rfl⟩
    · exact ⟨fun _ h => h, List.prefix_rfl⟩
  · split
    · exact ⟨fun _ h => h, List.prefix_rfl⟩
    · exact ⟨fun _ h => h, hev _ _ rfl⟩
  · split
    · exact ⟨fun _ h => h, hev _ _ rfl⟩
    · exact ⟨fun _ h => h, List.prefix_rfl⟩
  · exact ⟨fun _ h => h, List.prefix_rfl⟩
  · exact ⟨fun _ h => h, List.prefix_rfl⟩

theorem kind_newId {j : Job} (h : Kind j) {k : UInt64 → Setup Unit} (hp : j.prog = .newId k) : j.client = none := by
  have calls : ∀ {core : Client} {evs : List Ev}, Calls core evs j.prog → False := by
    intro core evs h
    cases h with
    | running _ h => rw [hp] at h; cases h
    | over _ h => rw [hp] at h; cases h
  have stage : ∀ {name topic : String} {q : Prog Unit}, Stage name topic q j → j.client = none := by
    intro name topic q hs
    cases hs with
    | new hc => exact hc
    | registering i hc ht h => rw [hp] at h; cases h
    | refused i hc h => rw [hp] at h; cases h
    | calls i evs hc h => exact (calls h).elim
  cases h with
  | missing h => rw [hp] at h; cases h
  | consumer b name topic subscription hb hm hn hs => exact stage hs
  | producer b name topic hb hm hn hs => exact stage hs
  | call i p core evs hm hc hp => exact (calls hp).elim

/-- Calls stay, and do not forget. -/
theorem jobs_grow {cfg : World.Cfg T} {acts : List Act} {log : List World.Act} {a a' : State T} {x : Act} (h : Run cfg acts log a)
    (hs : step cfg a x = some a') : ∀ (n : Nat) (j : Job), a.jobs[n]? = some j → ∃ j', a'.jobs[n]? = some j' ∧ Grows j j' := by
  intro n j hn
  obtain ⟨hp, hw, hj⟩ := step_some hs
  rw [hj]
  have refl : Grows j j := ⟨fun _ h => h, List.prefix_rfl⟩
  cases x with
  | world _ => exact ⟨j, hn, refl⟩
  | start c => exact ⟨j, by simp only [jobsAfter]; exact Sys.getElem?_append_some hn, refl⟩
  | run k =>
    simp only [jobsAfter, List.getElem?_modify, hn, Option.map_eq_map, Option.map_some]
    split
    · exact ⟨_, rfl, after_grows fun _ => kind_newId (kind h j (List.mem_of_getElem? hn))⟩
    · exact ⟨j, rfl, refl⟩
  | drop k =>
    simp only [jobsAfter, List.getElem?_modify, hn, Option.map_eq_map, Option.map_some]
    split
    · exact ⟨_, rfl, ⟨fun _ h => h, List.prefix_rfl⟩⟩
    · exact ⟨j, rfl, refl⟩

theorem asked {cfg : World.Cfg T} {acts : List Act} {log : List World.Act} {a : State T} (h : Run cfg acts log a) :
    ∀ i, i < a.world.sys.nClients → ∀ cmd ∈ (a.world.sys.clients i).submitted, AskedBy cfg.me a.jobs i cmd := by
  induction h with
  | nil => intro i hi; exact absurd hi (Nat.not_lt_zero i)
  | @snoc acts log a a' x h hs ih =>
    intro i hi cmd hm
    have hgrow := jobs_grow h hs
    obtain ⟨hp, hw, hj⟩ := step_some hs
    have old : i < a.world.sys.nClients ∧ cmd ∈ (a.world.sys.clients i).submitted → AskedBy cfg.me a'.jobs i cmd :=
      fun ho => askedBy_mono hgrow (ih i ho.1 cmd ho.2)
    cases x with
    | world y =>
      simp only [induced, worldSteps] at hw
      cases hy : World.step cfg a.world y with
      | none => rw [hy] at hw; cases hw
      | some w1 =>
        rw [hy] at hw
        cases hw
        simp only [possible] at hp
        obtain ⟨as, h1, h2⟩ := world_acts hy
        rcases h2 with ⟨z, rfl, rfl⟩ | h2 | rfl | ⟨n, rfl⟩
        · refine old (submitted_steps h1 ?_ hi hm)
          intro z' hz i k he
          simp only [List.mem_singleton] at hz
          subst hz; subst he
          simp [free] at hp
        · refine old (submitted_steps h1 ?_ hi hm)
          intro z' hz i k he
          subst he
          obtain ⟨b, ⟨r, hr⟩ | ⟨r, hr⟩⟩ := h2 _ hz <;> cases hr
        · refine old (submitted_steps h1 ?_ hi hm)
          intro z' hz i k he
          simp only [List.mem_singleton] at hz
          subst hz; cases he
        · by_cases hme : i = cfg.me
          · simp only [sysSteps] at h1
            cases hb : Sys.step cfg.sys a.world.sys (.beginCall cfg.me (.flow n)) with
            | none => rw [hb] at h1; cases h1
            | some s1 =>
              rw [hb] at h1
              have hbeg := begun (s := a.world.sys) (s' := s1) (i := cfg.me) (c := .flow n) (cfg := cfg.sys) (by simp only [sysSteps, hb])
              obtain ⟨c2, hput⟩ := put h1
              subst hme
              rw [hput.submitted, hbeg.submitted, List.mem_append] at hm
              rcases hm with hm | hm
              · exact old ⟨by rw [hput.nClients, hbeg.nClients] at hi; exact hi, hm⟩
              · split at hm
                · rw [List.mem_singleton] at hm
                  subst hm
                  have := hput.at_
                  rw [hbeg.starting, List.getElem?_append_right (Nat.le_refl _)] at this
                  simp only [Nat.sub_self, List.getElem?_cons_zero, Option.some.injEq] at this
                  unfold AskedBy
                  rw [← this]
                  exact .inl rfl
                · cases hm
          · simp only [sysSteps] at h1
            cases hb : Sys.step cfg.sys a.world.sys (.beginCall cfg.me (.flow n)) with
            | none => rw [hb] at h1; cases h1
            | some s1 =>
              rw [hb] at h1
              have hbeg := begun (s := a.world.sys) (s' := s1) (i := cfg.me) (c := .flow n) (cfg := cfg.sys) (by simp only [sysSteps, hb])
              obtain ⟨c2, hput⟩ := put h1
              rw [hput.nClients, hbeg.nClients] at hi
              rw [hput.others i hme, hbeg.others i hme] at hm
              exact old ⟨hi, hm⟩
    | start c =>
      simp only [induced, worldSteps, Option.some.injEq] at hw
      rw [← hw] at hi hm
      exact old ⟨hi, hm⟩
    | drop k =>
      cases hk : a.jobs[k]? with
      | none => simp [possible, hk] at hp
      | some j =>
        simp only [induced, hk] at hw
        refine old (submitted_steps (worldSteps_sys hw) ?_ hi hm)
        intro z hz i k he
        subst he
        rcases dropActs_cases (s := a.world.sys) (j := j) with hd | ⟨_, _, _, ⟨hd, _⟩ | ⟨hd, _⟩⟩ <;> rw [hd] at hz <;> simp at hz
    | run k =>
      cases hk : a.jobs[k]? with
      | none => simp [possible, hk] at hp
      | some j =>
        simp only [possible, hk, Bool.and_eq_true] at hp
        obtain ⟨as, has⟩ := Option.isSome_iff_exists.mp hp.2
        simp only [induced, hk, has, Option.getD_some] at hw
        have hsys := worldSteps_sys hw
        by_cases hhand : ∃ core call q k' tok i', j.prog = .session core (.hand call q) k' ∧ j.client = some i' ∧ j.handing = some tok
        · obtain ⟨core, call, q, k', tok, i', hpr, hc, hh⟩ := hhand
          have hmem := List.mem_of_getElem? hk
          obtain ⟨rfl, _⟩ := kind_ret (kind h j hmem) hpr
          have haa : as = [.submit i' (slot a.world.sys i' tok)] := by
            unfold Job.acts at has
            rw [hpr, hc, hh] at has
            exact (Option.some.inj has).symm
          subst haa
          obtain ⟨c2, hput⟩ := put hsys
          by_cases hii : i = i'
          · subst hii
            rw [hput.submitted, List.mem_append] at hm
            rcases hm with hm | hm
            · exact old ⟨hput.lt, hm⟩
            · split at hm
              · rename_i hend
                rw [List.mem_singleton] at hm
                subst hm
                have htok := slot_tok hput.at_
                have hjob : a'.jobs[k]? = some (j.after a.world.sys a'.world.sys) := by
                  rw [hj]
                  simp only [jobsAfter, List.getElem?_modify, hk, Option.map_eq_map, Option.map_some, if_pos]
                obtain ⟨i2, core2, call2, k2, g1, g2, g3⟩ := handing_ok h j hmem tok hh
                rw [hpr] at g2; cases g2
                have hin : Handed (j.after a.world.sys a'.world.sys) call (tok.getD 0) := by
                  rw [after_put hpr hc hh, hend]
                  unfold Handed Job.events
                  rw [List.filterMap_append]
                  exact List.mem_append_right _ (by simp)
                have hc' : (j.after a.world.sys a'.world.sys).client = some i := by rw [after_put hpr hc hh]; exact hc
                unfold AskedBy
                rw [htok]
                rcases g3 with ⟨g3, rfl⟩ | ⟨g3, t, core', rfl, g5⟩
                · exact .inr ⟨k, _, call, _, hjob, hc', hin, g3⟩
                · refine ⟨k, _, hjob, hc', ?_⟩
                  unfold requests
                  rw [List.mem_filterMap]
                  exact ⟨_, hin, by simp [g3]⟩
              · cases hm
          · rw [hput.nClients] at hi
            rw [hput.others i hii] at hm
            exact old ⟨hi, hm⟩
        · refine old (submitted_steps hsys ?_ hi hm)
          intro z hz i k2 he
          subst he
          cases doing has with
          | put core call q k' i' tok hp hc hh ha => exact hhand ⟨_, _, _, _, _, _, hp, hc, hh⟩
          | over core o k' i' hp hc ha => rcases ha with rfl | ⟨_, rfl⟩ <;> simp at hz
          | _ => simp_all

end App

end Neutron
