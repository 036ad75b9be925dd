import Verif.Spec.OnePlace
import Verif.Proof.AppConnect
import Verif.Proof.AppAsked
import Verif.Props.ConnectReturns

/-!
# After it has registered, a client does not connect again
-/

namespace Neutron

/-- Commands that change the connection of a client. -/
def Moves : Outbound → Prop
  | .connect _ => True
  | _ => False

/-- Commands other than those that lead to the topic's broker. -/
def Late : Outbound → Prop
  | .connect _ => False
  | .lookupTopic _ => False
  | _ => True

/-- Nothing is followed by a move except what leads to the topic's broker. -/
def Settles (l : List Outbound) : Prop := l.Pairwise fun x y => Late x → ¬ Moves y

theorem settles_append {l : List Outbound} (h : Settles l) {x : Outbound} (hx : ¬ Moves x) : Settles (l ++ [x]) := by
  unfold Settles
  rw [List.pairwise_append]
  refine ⟨h, List.pairwise_singleton .., ?_⟩
  intro a _ b hb _
  rw [List.mem_singleton] at hb
  subst hb
  exact hx

theorem settles_early {l : List Outbound} (h : ∀ x ∈ l, ¬ Late x) : Settles l :=
  List.Pairwise.imp_of_mem (R := fun _ _ => True) (fun {a _} ha _ _ hl => absurd hl (h a ha)) (List.pairwise_of_forall fun _ _ => trivial)

namespace Sys

theorem hop_still {cfg : Cfg} {cur : BrokerAddress} {x : Outbound} (h : ¬ Moves x) : hop cfg cur x = cur := by
  cases x <;> first | rfl | exact absurd trivial h

theorem route_still {cfg : Cfg} {cur : BrokerAddress} {l : List ClientCmd} (h : ∀ c ∈ l, ¬ Moves c.out) :
    ∀ p ∈ routeAll cfg cur l, p.1 = cur := by
  induction l with
  | nil => intro p hp; cases hp
  | cons c l ih =>
    intro p hp
    have hc := hop_still (cfg := cfg) (cur := cur) (h c (by simp))
    simp only [routeAll, hc, List.mem_cons] at hp
    rcases hp with rfl | hp
    · rfl
    · exact ih (fun c hc => h c (List.mem_cons_of_mem _ hc)) p hp

/-- All late commands of a client take the same way. -/
theorem route_one {cfg : Cfg} {l : List ClientCmd} : ∀ {cur : BrokerAddress}, Settles (l.map (·.out)) →
    ∀ p ∈ routeAll cfg cur l, ∀ q ∈ routeAll cfg cur l, Late p.2.out → Late q.2.out → p.1 = q.1 := by
  induction l with
  | nil => intro cur _ p hp; cases hp
  | cons c l ih =>
    intro cur hs p hp q hq lp lq
    rw [List.map_cons] at hs
    obtain ⟨h1, h2⟩ := List.pairwise_cons.mp hs
    by_cases hl : Late c.out
    · have still : ∀ x ∈ routeAll cfg (hop cfg cur c.out) l, x.1 = hop cfg cur c.out :=
        route_still fun x hx => h1 x.out (List.mem_map_of_mem hx) hl
      simp only [routeAll, List.mem_cons] at hp hq
      have e : ∀ x, x = (hop cfg cur c.out, c) ∨ x ∈ routeAll cfg (hop cfg cur c.out) l → x.1 = hop cfg cur c.out := by
        rintro x (rfl | hx)
        · rfl
        · exact still x hx
      rw [e p hp, e q hq]
    · simp only [routeAll, List.mem_cons] at hp hq
      rcases hp with rfl | hp
      · exact absurd lp hl
      rcases hq with rfl | hq
      · exact absurd lq hl
      exact ih h2 p hp q hq lp lq

/-- If nothing is put in a client's channel, it keeps what is there; a new client has put nothing there. -/
theorem submitted_same {cfg : Cfg} {as : List Act} : ∀ {s s' : State}, World.sysSteps cfg s as = some s' → ∀ {i : Nat}, i < s'.nClients →
    (∀ a ∈ as, ∀ k, a ≠ .submit i k) →
    (i < s.nClients ∧ (s'.clients i).submitted = (s.clients i).submitted) ∨ (s'.clients i).submitted = [] := by
  induction as with
  | nil => intro s s' h i hi _; cases h; exact .inl ⟨hi, rfl⟩
  | cons a as ih =>
    intro s s' h i hi ha
    simp only [World.sysSteps] at h
    cases hx : step cfg s a with
    | none => rw [hx] at h; cases h
    | some s1 =>
      rw [hx] at h
      rcases ih h hi (fun b hb => ha b (by simp [hb])) with ⟨h1, h2⟩ | h2
      · rcases client_step hx h1 with ⟨h3, hc⟩ | ⟨rfl, _, name, _, hc⟩
        · cases hc with
          | same g1 g2 g3 => exact .inl ⟨h3, h2.trans g3⟩
          | began call hb g1 g2 g3 => exact .inl ⟨h3, h2.trans g3⟩
          | submitted k c hb => exact absurd hb (ha a (by simp) k)
          | refused k c hb => exact absurd hb (ha a (by simp) k)
        · right; rw [h2, hc]
      · exact .inr h2

end Sys

/-- The calls an application can make do not connect. -/
theorem onlyHands_handAll {P : Call → Prop} {cs : List (Outcome Call)} (h : ∀ c, .ok c ∈ cs → P c) : OnlyHands P (Session.handAll cs) := by
  induction cs with
  | nil => exact trivial
  | cons x cs ih =>
    have ih := ih fun c hc => h c (List.mem_cons_of_mem _ hc)
    cases x with
    | ok c =>
      refine ⟨h c (by simp), fun r => ?_⟩
      cases r with
      | ok t => exact onlyHands_bind ih fun ts => trivial
      | err e => exact onlyHands_bind ih fun ts => trivial
      | panic => exact trivial
    | err e => exact ih
    | panic => exact ih

theorem onlyHands_waitAll {P : Call → Prop} (ts : List (Nat × Call)) : OnlyHands P (Session.waitAll ts) := by
  induction ts with
  | nil => exact trivial
  | cons x ts ih =>
    intro r
    cases r with
    | ok t => exact ih
    | err e => exact ih
    | panic => exact trivial

def Uses : Call → Prop
  | .sendMessage _ => True
  | .sendBatch _ => True
  | .ack _ => True
  | _ => False

theorem Offered.only {p : Prog Unit} (h : Offered p) : OnlyHands Uses p := by
  cases h with
  | send serialize m =>
    unfold Session.send
    split
    · exact trivial
    · exact onlyHands_bind (onlyHands_call trivial) fun _ => trivial
  | sendBatch serialize ms =>
    unfold Session.sendBatch
    split
    · exact trivial
    · exact onlyHands_bind (onlyHands_call trivial) fun _ => trivial
  | sendAll serialize ms =>
    refine onlyHands_bind (onlyHands_handAll fun c hc => ?_) fun ts => onlyHands_bind (onlyHands_waitAll ts) fun _ => trivial
    obtain ⟨m, _, hm⟩ := List.mem_map.mp hc
    cases hs : serialize m with
    | none => rw [hs] at hm; cases hm
    | some x => rw [hs] at hm; cases hm; exact trivial
  | ack id => exact onlyHands_bind (onlyHands_call trivial) fun _ => trivial
  | ackAll ids =>
    refine onlyHands_bind (onlyHands_handAll fun c hc => ?_) fun ts => onlyHands_bind (onlyHands_waitAll ts) fun _ => trivial
    obtain ⟨m, _, hm⟩ := List.mem_map.mp hc
    cases hm
    exact trivial

theorem settles_script {topic : String} {tgt : Option String} {rest : List Call} (hr : ∀ c ∈ rest, ∀ core : Client, ¬ Moves (core.issue c).2)
    (core : Client) {cs : List Call} (h : cs <+: resolveScript topic tgt ++ rest) : Settles (Sys.issueAll core cs) := by
  have still : ∀ (cs : List Call) (core : Client), (∀ c ∈ cs, ∀ core : Client, ¬ Moves (core.issue c).2) →
      ∀ x ∈ Sys.issueAll core cs, ¬ Moves x := by
    intro cs
    induction cs with
    | nil => intro core _ x hx; cases hx
    | cons c cs ih =>
      intro core hc x hx
      simp only [Sys.issueAll, List.mem_cons] at hx
      rcases hx with rfl | hx
      · exact hc c (by simp) core
      · exact ih _ (fun c h => hc c (List.mem_cons_of_mem _ h)) x hx
  have early : ∀ (cs : List Call) (core : Client), (∀ c ∈ cs, ∀ core : Client, ¬ Late (core.issue c).2) →
      ∀ x ∈ Sys.issueAll core cs, ¬ Late x := by
    intro cs
    induction cs with
    | nil => intro core _ x hx; cases hx
    | cons c cs ih =>
      intro core hc x hx
      simp only [Sys.issueAll, List.mem_cons] at hx
      rcases hx with rfl | hx
      · exact hc c (by simp) core
      · exact ih _ (fun c h => hc c (List.mem_cons_of_mem _ h)) x hx
  have hres : ∀ c ∈ resolveScript topic tgt, ∀ core : Client, ¬ Late (core.issue c).2 := by
    intro c hc core
    unfold resolveScript at hc
    cases tgt <;> simp at hc
    · rcases hc with rfl | rfl <;> simp [Client.issue, Late]
    · rcases hc with rfl | rfl | rfl | rfl <;> simp [Client.issue, Late]
  have whole : ∀ core : Client, Settles (Sys.issueAll core (resolveScript topic tgt ++ rest)) := by
    intro core
    rw [Sys.issueAll_append]
    unfold Settles
    rw [List.pairwise_append]
    refine ⟨settles_early (early _ core hres), ?_, ?_⟩
    · exact List.Pairwise.imp_of_mem (R := fun _ _ => True) (fun {_ b} _ hb _ _ => still _ _ hr b hb) (List.pairwise_of_forall fun _ _ => trivial)
    · intro a _ b hb _
      exact still _ _ hr b hb
  obtain ⟨q, hq⟩ := h
  have := whole core
  rw [← hq, Sys.issueAll_append] at this
  exact (List.pairwise_append.mp this).1

namespace App

open World

variable {T : Type}

theorem follows_accepted {cs : List Call} {tr : List Ev} (h : Follows cs tr) : ∀ {evs : List Ev} {c : Call} {t : Nat}, tr = evs ++ [.handed c (.ok t)] →
    Accepted tr := by
  induction h with
  | stop cs => intro evs c t h; simp at h
  | refused c cs e =>
    intro evs c' t h
    have := congrArg List.getLast? h
    simp at this
  | handed c cs t => intro evs c' t' _ c2 e hm; simp at hm
  | failed c cs t e =>
    intro evs c' t' h
    have := congrArg List.getLast? h
    simp at this
  | done c cs t r tr hf ih =>
    intro evs c' t' h
    match evs, h with
    | [], h => simp at h
    | [x], h => simp at h
    | x :: y :: evs, h =>
      simp only [List.cons_append, List.cons.injEq] at h
      have := ih h.2.2
      intro c2 e hm
      simp only [List.mem_cons, Ev.handed.injEq, reduceCtorEq, and_false, false_or] at hm
      exact this c2 e hm

/-- What a `connect` follows. -/
theorem connect_follows {cfg : World.Cfg T} {acts : List Act} {log : List World.Act} {a : State T} (h : Run cfg acts log a) {j : Job}
    (hj : j ∈ a.jobs) (hm : ∀ i p, j.made ≠ .call i p) :
    j.trace = [] ∨ ∃ topic tgt rest, (∀ c ∈ rest, ∀ core : Client, ¬ Moves (core.issue c).2) ∧
      Follows (resolveScript topic tgt ++ rest) j.events := by
  cases kind h j hj with
  | missing _ _ ht => exact .inl ht
  | consumer b name topic subscription hb hm' =>
    refine .inr ⟨topic, target j.events, [.subscribe topic subscription, .flow (250 * 2)], ?_, Props.C40_consumer_order (Props.connect_steps h hj
      (((Props.start_of h j hj).1 b hm').1.trans (consumer_setup b hb.1 hb.2.1 hb.2.2)))⟩
    intro c hc core
    simp only [List.mem_cons, List.not_mem_nil, or_false] at hc
    rcases hc with rfl | rfl <;> simp [Client.issue, Moves]
  | producer b name topic hb hm' =>
    refine .inr ⟨topic, target j.events, [.producer topic], ?_, Props.C40_producer_order (Props.connect_steps h hj
      (((Props.start_of h j hj).2.1 b hm').1.trans (producer_setup b hb.1 hb.2)))⟩
    intro c hc core
    rw [List.mem_singleton] at hc
    subst hc
    simp [Client.issue, Moves]
  | call i p core evs hmc => exact absurd hmc (hm i p)

theorem jobs_made {cfg : World.Cfg T} {a a' : State T} {x : Act} (hs : step cfg a x = some a') :
    ∀ (n : Nat) (j : Job), a.jobs[n]? = some j → ∃ j', a'.jobs[n]? = some j' ∧ j'.made = j.made := by
  intro n j hn
  obtain ⟨hp, hw, hj⟩ := step_some hs
  rw [hj]
  cases x with
  | world _ => exact ⟨j, hn, rfl⟩
  | start c => exact ⟨j, by simp only [jobsAfter]; exact Sys.getElem?_append_some hn, rfl⟩
  | run k =>
    simp only [jobsAfter, List.getElem?_modify, hn, Option.map_eq_map, Option.map_some]
    split
    · exact ⟨_, rfl, (after_made _ _ _).1⟩
    · exact ⟨j, rfl, rfl⟩
  | drop k =>
    simp only [jobsAfter, List.getElem?_modify, hn, Option.map_eq_map, Option.map_some]
    split
    · exact ⟨_, rfl, rfl⟩
    · exact ⟨j, rfl, rfl⟩

/-- What a client gave to the engine settles. -/
theorem settles {cfg : World.Cfg T} {acts : List Act} {log : List World.Act} {a : State T} (h : Run cfg acts log a) (ho : Offers a) :
    ∀ i, i < a.world.sys.nClients → Settles ((a.world.sys.clients i).submitted.map (·.out)) := by
  induction h with
  | nil => intro i hi; exact absurd hi (Nat.not_lt_zero i)
  | @snoc acts log a a' x h hs ih =>
    have h' : Run cfg _ _ a' := .snoc h hs
    have ho0 : Offers a := by
      intro j hj i p hm
      obtain ⟨n, hn⟩ := List.mem_iff_getElem?.mp hj
      obtain ⟨j', g1, g2⟩ := jobs_made hs n j hn
      exact ho j' (List.mem_of_getElem? g1) i p (g2.trans hm)
    have ih := ih ho0
    intro i hi
    obtain ⟨hp, hw, hj⟩ := step_some hs
    have old : (i < a.world.sys.nClients ∧ (a'.world.sys.clients i).submitted = (a.world.sys.clients i).submitted) ∨
        (a'.world.sys.clients i).submitted = [] → Settles ((a'.world.sys.clients i).submitted.map (·.out)) := by
      rintro (⟨h1, h2⟩ | h2)
      · rw [h2]; exact ih i h1
      · rw [h2]; exact List.Pairwise.nil
    cases x with
    | world y =>
      simp only [induced, worldSteps] at hw
      cases hy : World.step cfg a.world y with
      | none => rw [hy] at hw; cases hw
      | some w1 =>
        rw [hy] at hw
        cases hw
        simp only [possible] at hp
        obtain ⟨as, h1, h2⟩ := world_acts hy
        rcases h2 with ⟨z, rfl, rfl⟩ | h2 | rfl | ⟨n, rfl⟩
        · refine old (Sys.submitted_same h1 hi ?_)
          intro z' hz k he
          simp only [List.mem_singleton] at hz
          subst hz; subst he
          simp [free] at hp
        · refine old (Sys.submitted_same h1 hi ?_)
          intro z' hz k he
          subst he
          obtain ⟨b, ⟨r, hr⟩ | ⟨r, hr⟩⟩ := h2 _ hz <;> cases hr
        · refine old (Sys.submitted_same h1 hi ?_)
          intro z' hz k he
          simp only [List.mem_singleton] at hz
          subst hz; cases he
        · simp only [sysSteps] at h1
          cases hb : Sys.step cfg.sys a.world.sys (.beginCall cfg.me (.flow n)) with
          | none => rw [hb] at h1; cases h1
          | some s1 =>
            rw [hb] at h1
            have hbeg := begun (s := a.world.sys) (s' := s1) (i := cfg.me) (c := .flow n) (cfg := cfg.sys) (by simp only [sysSteps, hb])
            obtain ⟨c2, hput⟩ := put h1
            rw [hput.nClients, hbeg.nClients] at hi
            by_cases hme : i = cfg.me
            · subst hme
              rw [hput.submitted, hbeg.submitted]
              split
              · rw [List.map_append]
                refine settles_append (ih _ hi) ?_
                have := hput.at_
                rw [hbeg.starting, List.getElem?_append_right (Nat.le_refl _)] at this
                simp only [Nat.sub_self, List.getElem?_cons_zero, Option.some.injEq] at this
                rw [← this]
                simp [Client.issue, Moves]
              · rw [List.append_nil]; exact ih _ hi
            · exact old (.inl ⟨hi, by rw [hput.others i hme, hbeg.others i hme]⟩)
    | start c =>
      simp only [induced, worldSteps, Option.some.injEq] at hw
      exact old (.inl ⟨by rw [hw]; exact hi, by rw [hw]⟩)
    | drop k =>
      cases hk : a.jobs[k]? with
      | none => simp [possible, hk] at hp
      | some j =>
        simp only [induced, hk] at hw
        refine old (Sys.submitted_same (worldSteps_sys hw) hi ?_)
        intro z hz k he
        subst he
        rcases dropActs_cases (s := a.world.sys) (j := j) with hd | ⟨_, _, _, ⟨hd, _⟩ | ⟨hd, _⟩⟩ <;> rw [hd] at hz <;> simp at hz
    | run k =>
      cases hk : a.jobs[k]? with
      | none => simp [possible, hk] at hp
      | some j =>
        simp only [possible, hk, Bool.and_eq_true] at hp
        obtain ⟨as, has⟩ := Option.isSome_iff_exists.mp hp.2
        simp only [induced, hk, has, Option.getD_some] at hw
        have hsys := worldSteps_sys hw
        by_cases hhand : ∃ core call q k' tok i', j.prog = .session core (.hand call q) k' ∧ j.client = some i' ∧ j.handing = some tok
        · obtain ⟨core, call, q, k', tok, i', hpr, hc, hh⟩ := hhand
          have hmem := List.mem_of_getElem? hk
          obtain ⟨rfl, _⟩ := kind_ret (kind h j hmem) hpr
          have haa : as = [.submit i' (slot a.world.sys i' tok)] := by
            unfold Job.acts at has
            rw [hpr, hc, hh] at has
            exact (Option.some.inj has).symm
          subst haa
          obtain ⟨c2, hput⟩ := put hsys
          by_cases hii : i = i'
          · subst hii
            cases hend : Sys.engineEnd a.world.sys i with
            | false =>
              refine old (.inl ⟨hput.lt, ?_⟩)
              rw [hput.submitted, hend]
              simp
            | true =>
              have hjob : a'.jobs[k]? = some (j.after a.world.sys a'.world.sys) := by
                rw [hj]
                simp only [jobsAfter, List.getElem?_modify, hk, Option.map_eq_map, Option.map_some, if_pos]
              have hmem' := List.mem_of_getElem? hjob
              have hmade := (after_made a.world.sys a'.world.sys j).1
              by_cases hcall : ∃ i p, j.made = .call i p
              · obtain ⟨i2, p, hm⟩ := hcall
                obtain ⟨_, hwi⟩ := within h j hmem i2 p hm
                have honly := (ho0 j hmem i2 p hm).only
                have hu : Uses call := by
                  rcases hwi with ⟨core2, q2, g1, g2⟩ | ⟨o, g1, _⟩
                  · rw [hpr] at g1; cases g1
                    exact (within_only g2 honly).1.1
                  · rw [hpr] at g1; cases g1
                rw [hput.submitted, hend, if_pos rfl, List.map_append]
                refine settles_append (ih i hput.lt) ?_
                have htok := slot_tok hput.at_
                obtain ⟨i2, core2, call2, k2, g1, g2, g3⟩ := handing_ok h j hmem tok hh
                rw [hpr] at g2; cases g2
                rcases g3 with ⟨g3, rfl⟩ | ⟨g3, t, core', rfl, g5⟩
                · cases call <;> first | exact hu.elim | cases g3
                · rw [hc] at g1; cases g1
                  have hpend := (Sys.req (reachable h)).pending i hput.lt c2 (List.mem_append_left _ (List.mem_of_getElem? hput.at_)) t htok
                  rw [g5] at hpend
                  have : (core'.issue call).2 = c2.out := (Prod.mk.inj (Option.some.inj hpend)).2
                  show ¬ Moves c2.out
                  rw [← this]
                  cases call <;> first | exact hu.elim | simp [Client.issue, Moves]
              · have hnc : ∀ i p, (j.after a.world.sys a'.world.sys).made ≠ .call i p := by
                  intro i p hm; rw [hmade] at hm; exact hcall ⟨i, p, hm⟩
                have hev : (j.after a.world.sys a'.world.sys).events = j.events ++ [.handed call (.ok (tok.getD 0))] := by
                  rw [after_put hpr hc hh, hend]
                  rw [events_did (j0 := j) rfl rfl]
                  rfl
                have hown : (j.after a.world.sys a'.world.sys).owns = true := by
                  rw [owns_made h' _ hmem']
                  split
                  · rename_i hm; exact absurd hm (hnc _ _)
                  · rfl
                have huse : (j.after a.world.sys a'.world.sys).uses i = true := by
                  rw [uses_iff]
                  refine ⟨by rw [(after_made a.world.sys a'.world.sys j).2.2.2.1]; exact hp.1, ?_, ?_⟩
                  · rw [after_put hpr hc hh]; rfl
                  · rw [after_put hpr hc hh]; exact hc
                rcases connect_follows h' hmem' hnc with ht | ⟨topic, tgt, rest, hrest, hf⟩
                · rw [after_put hpr hc hh] at ht
                  simp at ht
                · rw [((own_of h').mine _ hmem' hown i huse).submitted (follows_accepted hf hev)]
                  exact settles_script hrest _ (Props.follows_calls hf)
          · rw [hput.nClients] at hi
            exact old (.inl ⟨hi, by rw [hput.others i hii]⟩)
        · refine old (Sys.submitted_same hsys hi ?_)
          intro z hz k2 he
          subst he
          cases doing has with
          | put core call q k' i' tok hp hc hh ha => exact hhand ⟨_, _, _, _, _, _, hp, hc, hh⟩
          | over core o k' i' hp hc ha => rcases ha with rfl | ⟨_, rfl⟩ <;> simp at hz
          | _ => simp_all

end App

end Neutron
