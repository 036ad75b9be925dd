import Verif.Proof.App

/-!
# Where a call is in its program
-/

namespace Neutron.App

open Neutron World

variable {T : Type}

/-- `connect` of both builders after the registration. -/
def registered (name : String) (p : Prog Unit) (id : UInt64) : Outcome Unit → Setup Unit
  | .err e => .ret (.err e)
  | .panic => .ret .panic
  | .ok _ => .session ⟨id, name, 0, 0⟩ p .ret

/-- `connect` of both builders, with name, topic and the calls on the new client. -/
def setup (name topic : String) (p : Prog Unit) : Setup Unit :=
  .newId fun id => .register topic id (registered name p id)

theorem void_finish {α : Type} (a : α) (o : Outcome Unit) : void (Setup.finish a o) = .ret o := by
  cases o <;> rfl

theorem consumer_setup (b : ConsumerBuilder Unit) {name topic subscription : String} (hn : b.consumerName = some name)
    (ht : b.topic = some topic) (hs : b.subscription = some subscription) :
    void b.connect = setup name topic (Session.consumerConnect topic subscription 250) := by
  unfold ConsumerBuilder.connect setup
  simp only [hn, ht, hs, void]
  congr 1
  funext id
  congr 1
  funext r
  cases r <;> simp only [void, registered]
  congr 1
  funext o
  exact void_finish _ o

theorem producer_setup (b : ProducerBuilder) {name topic : String} (hn : b.producerName = some name) (ht : b.topic = some topic) :
    void b.connect = setup name topic (Session.producerConnect topic) := by
  unfold ProducerBuilder.connect setup
  simp only [hn, ht, void]
  congr 1
  funext id
  congr 1
  funext r
  cases r <;> simp only [void, registered]
  congr 1
  funext o
  exact void_finish _ o

/-- The calls on a client: those of `core` are in progress, or have ended; what they did is `evs`. -/
inductive Calls (core : Client) (evs : List Ev) (prog : Setup Unit) : Prop where
  | running (p : Prog Unit) (h : prog = .session core p .ret)
  | over (o : Outcome Unit) (h : prog = .ret o)

/-- Where a `connect` is. -/
inductive Stage (name topic : String) (p : Prog Unit) (j : Job) : Prop where
  | new (hc : j.client = none) (hp : j.prog = setup name topic p) (ht : j.trace = [])
  | registering (i : Nat) (hc : j.client = some i) (ht : j.trace = [.allocated (UInt64.ofNat i)])
      (hp : j.prog = .register topic (UInt64.ofNat i) (registered name p (UInt64.ofNat i)))
  | refused (i : Nat) (hc : j.client = some i) (hp : j.prog = .ret (.err .channelTerminated))
      (ht : j.trace = [.allocated (UInt64.ofNat i), .registered topic (UInt64.ofNat i) (.err .channelTerminated)])
  | calls (i : Nat) (evs : List Ev) (hc : j.client = some i) (hp : Calls ⟨UInt64.ofNat i, name, 0, 0⟩ evs j.prog)
      (ht : j.trace = .allocated (UInt64.ofNat i) :: .registered topic (UInt64.ofNat i) (.ok ()) ::
        evs.map (.did ⟨UInt64.ofNat i, name, 0, 0⟩))

/-- Where any call is. -/
inductive Kind (j : Job) : Prop where
  | missing (hp : j.prog = .ret .panic) (hc : j.client = none) (ht : j.trace = [])
      (hm : (∃ b : ConsumerBuilder Unit, j.made = .consumer b ∧ (b.consumerName = none ∨ b.topic = none ∨ b.subscription = none)) ∨
        ∃ b : ProducerBuilder, j.made = .producer b ∧ (b.producerName = none ∨ b.topic = none))
  | consumer (b : ConsumerBuilder Unit) (name topic subscription : String) (hb : b.consumerName = some name ∧ b.topic = some topic ∧
      b.subscription = some subscription) (hm : j.made = .consumer b) (hn : j.name = name)
      (hs : Stage name topic (Session.consumerConnect topic subscription 250) j)
  | producer (b : ProducerBuilder) (name topic : String) (hb : b.producerName = some name ∧ b.topic = some topic)
      (hm : j.made = .producer b) (hn : j.name = name) (hs : Stage name topic (Session.producerConnect topic) j)
  | call (i : Nat) (p : Prog Unit) (core : Client) (evs : List Ev) (hm : j.made = .call i p) (hc : j.client = some i)
      (hp : Calls core evs j.prog) (ht : j.trace = evs.map (.did core)) (hs : j.start = .session core p .ret)

theorem after_ret {s s' : Sys.State} {j : Job} {o : Outcome Unit} (hp : j.prog = .ret o) : j.after s s' = j := by
  unfold Job.after
  rw [hp]

theorem after_made (s s' : Sys.State) (j : Job) : (j.after s s').made = j.made ∧ (j.after s s').name = j.name ∧
    (j.after s s').owns = j.owns ∧ (j.after s s').live = j.live ∧ (j.after s s').start = j.start := by
  unfold Job.after
  split <;> (try exact ⟨rfl, rfl, rfl, rfl, rfl⟩) <;> split <;> exact ⟨rfl, rfl, rfl, rfl, rfl⟩

theorem after_begin {s s' : Sys.State} {j : Job} {core : Client} {call : Call} {k : Outcome Nat → Prog Unit}
    {k' : Outcome Unit → Setup Unit} {i : Nat} (h : j.prog = .session core (.hand call k) k') (hc : j.client = some i)
    (hh : j.handing = none) :
    j.after s s' = { j with handing := some (if call.expectsResponse then some s.issued.length else none) } := by
  unfold Job.after; rw [h, hc]; simp only [hh]

theorem after_put {s s' : Sys.State} {j : Job} {core : Client} {call : Call} {k : Outcome Nat → Prog Unit}
    {k' : Outcome Unit → Setup Unit} {i : Nat} {tok : Option Nat} (h : j.prog = .session core (.hand call k) k')
    (hc : j.client = some i) (hh : j.handing = some tok) :
    j.after s s' = { j with
      handing := none
      prog := .session core (k (if Sys.engineEnd s i then .ok (tok.getD 0) else .err .channelTerminated)) k'
      trace := j.trace ++ [.did core (.handed call (if Sys.engineEnd s i then .ok (tok.getD 0) else .err .channelTerminated))] } := by
  unfold Job.after; rw [h, hc]; simp only [hh]

/-- How a step of a call on client `i` goes. -/
theorem after_calls {s s' : Sys.State} {j : Job} {core : Client} {evs : List Ev} {i : Nat} (hc : j.client = some i)
    (hp : Calls core evs j.prog) {pre : List SetupEv} (ht : j.trace = pre ++ evs.map (.did core)) :
    (j.after s s').client = some i ∧ ∃ evs', Calls core evs' (j.after s s').prog ∧ (j.after s s').trace = pre ++ evs'.map (.did core) := by
  cases hp with
  | over o h => rw [after_ret h]; exact ⟨hc, evs, .over o h, ht⟩
  | running p h =>
    cases p with
    | ret o =>
      have : j.after s s' = { j with prog := .ret o } := by unfold Job.after; rw [h, hc]
      rw [this]
      exact ⟨hc, evs, .over o rfl, ht⟩
    | hand call k =>
      cases hh : j.handing with
      | none =>
        rw [after_begin h hc hh]
        exact ⟨hc, evs, .running _ h, ht⟩
      | some tok =>
        rw [after_put h hc hh]
        exact ⟨hc, evs ++ [.handed call (if Sys.engineEnd s i then .ok (tok.getD 0) else .err .channelTerminated)], .running _ rfl,
          by simp [ht]⟩
    | wait t call k =>
      cases ho : outcome s t with
      | none =>
        have : j.after s s' = j := by unfold Job.after; rw [h, hc]; simp only [ho]
        rw [this]
        exact ⟨hc, evs, .running _ h, ht⟩
      | some x =>
        have : j.after s s' = { j with prog := .session core (k (call.resolve x)) .ret
                                       trace := j.trace ++ [.did core (.waited t call (call.resolve x))] } := by
          unfold Job.after; rw [h, hc]; simp only [ho]
        rw [this]
        exact ⟨hc, evs ++ [.waited t call (call.resolve x)], .running _ rfl, by simp [ht]⟩

theorem after_stage {s s' : Sys.State} {name topic : String} {p : Prog Unit} {j : Job} (h : Stage name topic p j) :
    Stage name topic p (j.after s s') := by
  cases h with
  | new hc hp ht =>
    have : j.after s s' = { j with client := some s.nClients, trace := j.trace ++ [.allocated (UInt64.ofNat s.nClients)], prog := .register topic (UInt64.ofNat s.nClients) (registered name p (UInt64.ofNat s.nClients)) } := by
      unfold Job.after; rw [hp]; rfl
    rw [this]
    exact .registering s.nClients rfl (by simp [ht]) rfl
  | registering i hc ht hp =>
    cases hph : (s'.clients i).phase with
    | fresh | waiting =>
      have : j.after s s' = j := by unfold Job.after; rw [hp, hc]; simp only [hph]
      rw [this]; exact .registering i hc ht hp
    | ready =>
      have : j.after s s' = { j with prog := .session ⟨UInt64.ofNat i, name, 0, 0⟩ p .ret
                                     trace := j.trace ++ [.registered topic (UInt64.ofNat i) (.ok ())] } := by
        unfold Job.after; rw [hp, hc]; simp only [hph, registered]
      rw [this]
      exact .calls i [] hc (.running _ rfl) (by simp [ht])
    | gone =>
      have : j.after s s' = { j with prog := .ret (.err .channelTerminated)
                                     trace := j.trace ++ [.registered topic (UInt64.ofNat i) (.err .channelTerminated)] } := by
        unfold Job.after; rw [hp, hc]; simp only [hph, registered]
      rw [this]
      exact .refused i hc rfl (by simp [ht])
  | refused i hc hp ht => rw [after_ret hp]; exact .refused i hc hp ht
  | calls i evs hc hp ht =>
    obtain ⟨h1, evs', h2, h3⟩ := after_calls (s := s) (s' := s') hc hp (pre := [_, _]) ht
    exact .calls i evs' h1 h2 h3

theorem stage_drop {name topic : String} {p : Prog Unit} {j : Job} (h : Stage name topic p j) :
    Stage name topic p { j with live := false } := by
  cases h with
  | new hc hp ht => exact .new hc hp ht
  | registering i hc ht hp => exact .registering i hc ht hp
  | refused i hc hp ht => exact .refused i hc hp ht
  | calls i evs hc hp ht => exact .calls i evs hc hp ht

theorem kind {cfg : World.Cfg T} {acts : List Act} {log : List World.Act} {a : State T} (h : Run cfg acts log a) :
    ∀ j ∈ a.jobs, Kind j := by
  refine job_induct (fun _ j => Kind j) (fun _ _ _ _ _ h _ => h) ?_ ?_ ?_ h
  · intro s c _ _
    cases c with
    | consumer b =>
      cases hn : b.consumerName with
      | none => exact .missing (by simp [Start.job, ConsumerBuilder.connect, hn, void]) rfl rfl (.inl ⟨b, rfl, .inl hn⟩)
      | some name =>
        cases ht : b.topic with
        | none => exact .missing (by simp [Start.job, ConsumerBuilder.connect, hn, ht, void]) rfl rfl (.inl ⟨b, rfl, .inr (.inl ht)⟩)
        | some topic =>
          cases hs : b.subscription with
          | none =>
            exact .missing (by simp [Start.job, ConsumerBuilder.connect, hn, ht, hs, void]) rfl rfl (.inl ⟨b, rfl, .inr (.inr hs)⟩)
          | some subscription =>
            exact .consumer b name topic subscription ⟨hn, ht, hs⟩ rfl (by simp [Start.job, hn])
              (.new rfl (consumer_setup b hn ht hs) rfl)
    | producer b =>
      cases hn : b.producerName with
      | none => exact .missing (by simp [Start.job, ProducerBuilder.connect, hn, void]) rfl rfl (.inr ⟨b, rfl, .inl hn⟩)
      | some name =>
        cases ht : b.topic with
        | none => exact .missing (by simp [Start.job, ProducerBuilder.connect, hn, ht, void]) rfl rfl (.inr ⟨b, rfl, .inr ht⟩)
        | some topic =>
          exact .producer b name topic ⟨hn, ht⟩ rfl (by simp [Start.job, hn]) (.new rfl (producer_setup b hn ht) rfl)
    | call i p => exact .call i p _ [] rfl rfl (.running _ rfl) rfl rfl
  · intro s s' j as _ hq _ _ _ _
    obtain ⟨m1, m2, m3, m4, m5⟩ := after_made s s' j
    cases hq with
    | missing hp hc ht hm => rw [after_ret hp]; exact .missing hp hc ht hm
    | consumer b name topic subscription hb hm hn hs => exact .consumer b name topic subscription hb (m1.trans hm) (m2.trans hn) (after_stage hs)
    | producer b name topic hb hm hn hs => exact .producer b name topic hb (m1.trans hm) (m2.trans hn) (after_stage hs)
    | call i p core evs hm hc hp ht hs =>
      obtain ⟨h1, evs', h2, h3⟩ := after_calls (s := s) (s' := s') hc hp (pre := []) ht
      exact .call i p core evs' (m1.trans hm) h1 h2 h3 (m5.trans hs)
  · intro s j hq
    cases hq with
    | missing hp hc ht hm => exact .missing hp hc ht hm
    | consumer b name topic subscription hb hm hn hs => exact .consumer b name topic subscription hb hm hn (stage_drop hs)
    | producer b name topic hb hm hn hs => exact .producer b name topic hb hm hn (stage_drop hs)
    | call i p core evs hm hc hp ht hs => exact .call i p core evs hm hc hp ht hs

/-! ## What a call saw is what happened -/

theorem name_step {cfg : Sys.Cfg} {s s' : Sys.State} {a : Sys.Act} (hs : Sys.step cfg s a = some s') {i : Nat} (hi : i < s.nClients) :
    (s'.clients i).core.clientName = (s.clients i).core.clientName := by
  rcases Sys.client_step hs (Nat.lt_of_lt_of_le hi (Sys.nClients_mono hs)) with ⟨_, hc⟩ | ⟨h, _⟩
  · cases hc with
    | same h1 => rw [h1]
    | began call ha h1 => rw [h1]; cases call <;> rfl
    | submitted k c ha hk h1 => rw [h1]
    | refused k c ha hk h1 => rw [h1]
  · omega

theorem fits_mono {s s' : Sys.State} {i : Nat} {ev : Ev} (hi : s.issued <+: s'.issued) (ho : s.outcomes <+: s'.outcomes)
    (h : Sys.Fits s i ev) : Sys.Fits s' i ev := by
  unfold Sys.Fits at h ⊢
  split
  · intro he
    obtain ⟨core, hc⟩ := h he
    obtain ⟨l, hl⟩ := hi
    exact ⟨core, by rw [← hl, List.getElem?_append_left (List.getElem?_eq_some_iff.mp hc).1, hc]⟩
  · exact h
  · exact h
  · obtain ⟨res, h1, h2⟩ := h
    exact ⟨res, ho.subset h1, h2⟩

/-- A command that is made but not in the channel yet belongs to a request of this client. -/
def Handing (s : Sys.State) (j : Job) (tok : Option Nat) : Prop :=
  ∃ i core call k, j.client = some i ∧ j.prog = .session core (.hand call k) .ret ∧
    (call.expectsResponse = false ∧ tok = none ∨
      call.expectsResponse = true ∧ ∃ t core', tok = some t ∧ s.issued[t]? = some (i, (Client.issue core' call).2))

/-- The client of a call exists and has the name given; what the call saw on it is what happened. -/
structure Seen (s : Sys.State) (j : Job) : Prop where
  client : ∀ i, j.client = some i → i < s.nClients ∧ (j.owns = true → (s.clients i).core.clientName = j.name)
  events : ∀ i, j.client = some i → ∀ c ev, .did c ev ∈ j.trace → Sys.Fits s i ev

theorem outcome_some {s : Sys.State} {t : Nat} {x : Option Inbound} (h : outcome s t = some x) :
    ∃ res, (t, res) ∈ s.outcomes ∧ x = match res with
      | .resolved e => some e.inb
      | .cancelled => none := by
  unfold outcome at h
  split at h
  · rename_i e hf
    cases h
    have h1 := List.find?_some hf
    have h2 := List.mem_of_find?_eq_some hf
    simp only [beq_iff_eq] at h1
    subst h1
    exact ⟨_, h2, rfl⟩
  · rename_i hf
    cases h
    have h1 := List.find?_some hf
    have h2 := List.mem_of_find?_eq_some hf
    simp only [beq_iff_eq] at h1
    subst h1
    exact ⟨_, h2, rfl⟩
  · cases h

theorem after_handing {s s' : Sys.State} {j : Job}
    (hp : ∀ core call k k', j.prog ≠ .session core (.hand call k) k') : (j.after s s').handing = j.handing := by
  unfold Job.after
  split <;> (try rfl) <;> (try (split <;> rfl))
  rename_i h _
  exact absurd h (hp _ _ _ _)

theorem handing_mono {s s' : Sys.State} {j : Job} {tok : Option Nat} (hi : s.issued <+: s'.issued) (h : Handing s j tok) :
    Handing s' j tok := by
  obtain ⟨i, core, call, k, h1, h2, h3⟩ := h
  refine ⟨i, core, call, k, h1, h2, ?_⟩
  rcases h3 with h3 | ⟨h3, t, core', h4, h5⟩
  · exact .inl h3
  · obtain ⟨l, hl⟩ := hi
    exact .inr ⟨h3, t, core', h4, by rw [← hl, List.getElem?_append_left (List.getElem?_eq_some_iff.mp h5).1, h5]⟩

theorem kind_ret {j : Job} (h : Kind j) {core : Client} {p : Prog Unit} {k' : Outcome Unit → Setup Unit}
    (hp : j.prog = .session core p k') : k' = .ret ∧ ∃ i, j.client = some i := by
  have calls : ∀ {c : Client} {evs : List Ev}, Calls c evs j.prog → k' = .ret := by
    intro c evs hc
    cases hc with
    | running q h => rw [hp] at h; cases h; rfl
    | over o h => rw [hp] at h; cases h
  have stage : ∀ {name topic : String} {q : Prog Unit}, Stage name topic q j → k' = .ret ∧ ∃ i, j.client = some i := by
    intro name topic q hs
    cases hs with
    | new hc h ht => rw [hp] at h; cases h
    | registering i hc ht h => rw [hp] at h; cases h
    | refused i hc h ht => rw [hp] at h; cases h
    | calls i evs hc h ht => exact ⟨calls h, i, hc⟩
  cases h with
  | missing h hc ht hm => rw [hp] at h; cases h
  | consumer b name topic subscription hb hm hn hs => exact stage hs
  | producer b name topic hb hm hn hs => exact stage hs
  | call i p core evs hm hc hp ht hs => exact ⟨calls hp, i, hc⟩

theorem handing_ok {cfg : World.Cfg T} {acts : List Act} {log : List World.Act} {a : State T} (h : Run cfg acts log a) :
    ∀ j ∈ a.jobs, ∀ tok, j.handing = some tok → Handing a.world.sys j tok := by
  refine job_induct_with (I := fun _ j => Kind j) (fun h => kind h) (fun s j => ∀ tok, j.handing = some tok → Handing s j tok)
    ?_ ?_ ?_ (fun _ _ h => h) h
  · intro s a s' j hr hq hs tok ht
    exact handing_mono (Sys.issued_step hs) (hq tok ht)
  · intro s c hr _ tok ht
    cases c <;> cases ht
  · intro s s' j as hr hk hq hl ha hs hq' tok ht
    by_cases hp : ∃ core call k k', j.prog = .session core (.hand call k) k'
    · obtain ⟨core, call, k, k', hp⟩ := hp
      obtain ⟨rfl, i, hc⟩ := kind_ret hk hp
      cases hh : j.handing with
      | none =>
        rw [after_begin hp hc hh] at ht ⊢
        refine ⟨i, core, call, k, hc, hp, ?_⟩
        simp only [Job.acts, hp, hc, hh, Option.some.injEq] at ha
        subst ha
        have hb := begun hs
        cases he : call.expectsResponse with
        | false => simp only [he, Bool.false_eq_true, if_false, Option.some.injEq] at ht; exact .inl ⟨rfl, ht.symm⟩
        | true =>
          simp only [he, if_true, Option.some.injEq] at ht
          refine .inr ⟨rfl, _, (s.clients i).core, ht.symm, ?_⟩
          rw [hb.issued, he]
          simp
      | some tok =>
        rw [after_put hp hc hh] at ht
        cases ht
    · have hp' : ∀ core call k k', j.prog ≠ .session core (.hand call k) k' := fun core call k k' h => hp ⟨core, call, k, k', h⟩
      rw [after_handing hp'] at ht
      obtain ⟨i, core, call, k, _, h2, _⟩ := hq' tok ht
      exact absurd h2 (hp' _ _ _ _)

theorem seen {cfg : World.Cfg T} {acts : List Act} {log : List World.Act} {a : State T} (h : Run cfg acts log a) :
    ∀ j ∈ a.jobs, Seen a.world.sys j := by
  refine job_induct_with (I := fun s j => Kind j ∧ ∀ tok, j.handing = some tok → Handing s j tok)
    (fun h j hj => ⟨kind h j hj, handing_ok h j hj⟩) Seen ?_ ?_ ?_ (fun _ _ h => ⟨h.client, h.events⟩) h
  · intro s a s' j hr hq hs
    refine ⟨fun i hi => ?_, fun i hi c ev hm => fits_mono (Sys.issued_step hs) (Sys.outcomes_step hs) (hq.events i hi c ev hm)⟩
    obtain ⟨h1, h2⟩ := hq.client i hi
    exact ⟨Nat.lt_of_lt_of_le h1 (Sys.nClients_mono hs), fun ho => (name_step hs h1).trans (h2 ho)⟩
  · intro s c hr hlt
    cases c with
    | consumer b | producer b => exact ⟨fun i hi => by simp [Start.job] at hi, fun i hi => by simp [Start.job] at hi⟩
    | call i p =>
      refine ⟨fun k hk => ?_, fun k hk c ev hm => by simp [Start.job] at hm⟩
      simp only [Start.job, Option.some.injEq] at hk
      subst hk
      exact ⟨hlt i p rfl, fun ho => by simp [Start.job] at ho⟩
  · intro s s' j as hr hk hq hl ha hs hq'
    obtain ⟨m1, m2, m3, m4, m5⟩ := after_made s s' j
    have calls : ∀ {core : Client} {evs : List Ev}, Calls core evs j.prog → Seen s' (j.after s s') := by
      intro core evs hc
      cases hc with
      | over o hp => rw [after_ret hp]; exact hq'
      | running p hp =>
        cases hcl : j.client with
        | none =>
          unfold Job.acts at ha
          rw [hp, hcl] at ha
          cases p with
          | ret o => cases o <;> simp at ha
          | hand | wait => simp at ha
        | some i =>
          have add : ∀ (hg : Option (Option Nat)) (q : Setup Unit) (ev : Ev), Sys.Fits s' i ev →
              Seen s' { j with handing := hg, prog := q, trace := j.trace ++ [.did core ev] } := by
            intro hg q ev hf
            refine ⟨hq'.client, fun k hk c ev' hm => ?_⟩
            rcases List.mem_append.mp hm with hm | hm
            · exact hq'.events k hk c ev' hm
            · simp only [List.mem_singleton, SetupEv.did.injEq] at hm
              obtain ⟨rfl, rfl⟩ := hm
              have : k = i := by simpa [hcl] using hk.symm
              subst this; exact hf
          cases p with
          | ret o =>
            have : j.after s s' = { j with prog := .ret o } := by unfold Job.after; rw [hp, hcl]
            rw [this]; exact ⟨hq'.client, hq'.events⟩
          | hand call k =>
            cases hh : j.handing with
            | none =>
              rw [after_begin hp hcl hh]
              exact ⟨hq'.client, hq'.events⟩
            | some tok =>
              rw [after_put hp hcl hh]
              refine add none _ _ ?_
              unfold Job.acts at ha
              rw [hp, hcl, hh] at ha
              simp only [Option.some.injEq] at ha
              subst ha
              obtain ⟨cmd, hput⟩ := put hs
              split
              · intro he
                obtain ⟨i', core2, call', k2, h1, h2, h3⟩ := hk.2 tok hh
                rw [hcl] at h1; cases h1
                rw [hp] at h2; cases h2
                rcases h3 with ⟨h3, _⟩ | ⟨_, t, core', rfl, h5⟩
                · simp [he] at h3
                · exact ⟨core', by rw [hput.issued]; exact h5⟩
              · rfl
          | wait t call k =>
            cases ho : outcome s t with
            | none =>
              unfold Job.acts at ha
              rw [hp, hcl] at ha
              simp [ho] at ha
            | some x =>
              have : j.after s s' = { j with prog := .session core (k (call.resolve x)) .ret
                                             trace := j.trace ++ [.did core (.waited t call (call.resolve x))] } := by
                unfold Job.after; rw [hp, hcl]; simp only [ho]
              rw [this]
              refine add j.handing _ _ ?_
              unfold Job.acts at ha
              rw [hp, hcl] at ha
              simp only [ho, Option.isSome_some, if_true, Option.some.injEq] at ha
              subst ha
              cases hs
              obtain ⟨res, h1, h2⟩ := outcome_some ho
              exact ⟨res, h1, by subst h2; cases res <;> rfl⟩
    have stage : ∀ {name topic : String} {p : Prog Unit}, j.name = name → Stage name topic p j → Seen s' (j.after s s') := by
      intro name topic p hn hst
      cases hst with
      | new hc hp ht =>
        have : j.after s s' = { j with client := some s.nClients, trace := j.trace ++ [.allocated (UInt64.ofNat s.nClients)], prog := .register topic (UInt64.ofNat s.nClients) (registered name p (UInt64.ofNat s.nClients)) } := by
          unfold Job.after; rw [hp]; rfl
        rw [this]
        unfold Job.acts at ha
        rw [hp] at ha
        simp only [setup, Option.some.injEq] at ha
        subst ha
        refine ⟨fun i hi => ?_, fun i hi c ev hm => by simp [ht] at hm⟩
        cases hi
        simp only [sysSteps, Sys.step, Sys.newClient] at hs
        split at hs
        · rename_i hx
          split at hx
          · cases hx; cases hs; simp [Sys.State.setClient]
          · cases hx
        · cases hs
      | registering i hc ht hp =>
        cases hph : (s'.clients i).phase with
        | fresh | waiting =>
          have : j.after s s' = j := by unfold Job.after; rw [hp, hc]; simp only [hph]
          rw [this]; exact hq'
        | ready =>
          have : j.after s s' = { j with prog := .session ⟨UInt64.ofNat i, name, 0, 0⟩ p .ret
                                         trace := j.trace ++ [.registered topic (UInt64.ofNat i) (.ok ())] } := by
            unfold Job.after; rw [hp, hc]; simp only [hph, registered]
          rw [this]
          exact ⟨hq'.client, fun i hi c ev hm => by simp [ht] at hm⟩
        | gone =>
          have : j.after s s' = { j with prog := .ret (.err .channelTerminated)
                                         trace := j.trace ++ [.registered topic (UInt64.ofNat i) (.err .channelTerminated)] } := by
            unfold Job.after; rw [hp, hc]; simp only [hph, registered]
          rw [this]
          exact ⟨hq'.client, fun i hi c ev hm => by simp [ht] at hm⟩
      | refused i hc hp ht => rw [after_ret hp]; exact hq'
      | calls i evs hc hp ht => exact calls hp
    cases hk.1 with
    | missing hp hc ht hm => rw [after_ret hp]; exact hq'
    | consumer b name topic subscription hb hm hn hs => exact stage hn hs
    | producer b name topic hb hm hn hs => exact stage hn hs
    | call i p core evs hm hc hp ht hs => exact calls hp

end Neutron.App
