import Verif.Spec.Builder
import Verif.Props.Calls
import Verif.Proof.ConsumerCodes
import Mathlib.Data.List.Induction

/-!
# Builders: C106, C107
-/

namespace Neutron.Props

open Neutron

theorem steps_of_runs {α : Type} {p : Prog α} {tr : List Ev} {o : Outcome α} (h : Runs p tr o) : Steps p tr := by
  induction h with
  | ret o => exact .nil _
  | hand c k r tr o hp _ ih => exact .hand c k r tr hp ih
  | wait t c k r tr o hp _ ih => exact .wait t c k r tr hp ih

/-! ## C106 -/

section Consumer

open ConsumerSetting

variable {P : Type}

theorem built_consumer (l : List (ConsumerSetting P)) :
    built l = ⟨plugins l, (names l).getLast?, (topics l).getLast?, (subscriptions l).getLast?⟩ := by
  induction l using List.reverseRecOn with
  | nil => rfl
  | append_singleton l x ih =>
    unfold built at ih ⊢
    rw [List.foldl_append, ih]
    cases x <;> simp [apply, ConsumerBuilder.withConsumerName, ConsumerBuilder.withTopic, ConsumerBuilder.withSubscription,
      ConsumerBuilder.addPlugin, names, topics, subscriptions, plugins]

/-- Without a name, a topic or a subscription, `connect` panics before it does anything: no id, no registration, no command. -/
theorem C106_missing (l : List (ConsumerSetting P)) (h : names l = [] ∨ topics l = [] ∨ subscriptions l = []) :
    (∀ tr o, (built l).connect.Runs tr o ↔ tr = [] ∧ o = .panic) ∧ ∀ tr, (built l).connect.Steps tr → tr = [] := by
  have : (built l).connect = .ret .panic := by
    rw [built_consumer]
    unfold ConsumerBuilder.connect
    rcases h with h | h | h
    · simp [h]
    · cases (names l).getLast? <;> simp [h]
    · cases (names l).getLast? <;> cases (topics l).getLast? <;> simp [h]
  rw [this]
  refine ⟨fun tr o => ⟨fun hr => ?_, fun hr => ?_⟩, fun tr hs => ?_⟩
  · cases hr; exact ⟨rfl, rfl⟩
  · rw [hr.1, hr.2]; exact .ret _
  · cases hs; rfl

/-- Otherwise the values given last count, whatever the order of the calls: one id is allocated, it is registered under the topic, and
everything then done is done by `Consumer::connect` (C40) for that topic and subscription on a client with that id and name. -/
theorem C106_steps (l : List (ConsumerSetting P)) {name topic subscription : String} (hn : (names l).getLast? = some name)
    (ht : (topics l).getLast? = some topic) (hs : (subscriptions l).getLast? = some subscription) (tr : List SetupEv) :
    (built l).connect.Steps tr ↔ SetsUp name topic (Steps (Session.consumerConnect topic subscription 250)) tr := by
  rw [built_consumer, hn, ht, hs]
  unfold ConsumerBuilder.connect
  constructor
  · intro h
    cases h with
    | nil => exact .nothing
    | newId _ id tr hk =>
      cases hk with
      | nil => exact .allocated id
      | register _ _ _ r tr hr hk =>
        rcases hr with rfl | rfl
        · cases hk with
          | nil => exact .registered id [] (.nil _)
          | inSession _ _ _ evs hp => exact .registered id evs hp
          | session _ _ _ evs r tr hp hk =>
            have : tr = [] := by cases r <;> (cases hk; rfl)
            subst this
            rw [List.append_nil]
            exact .registered id evs (steps_of_runs hp)
        · cases hk; exact .refused id
  · intro h
    cases h with
    | nothing => exact .nil _
    | allocated id => exact .newId _ _ _ (.nil _)
    | refused id => exact .newId _ _ _ (.register _ _ _ _ _ (.inr rfl) (.nil _))
    | registered id evs h => exact .newId _ _ _ (.register _ _ _ _ _ (.inl rfl) (.inSession _ _ _ _ h))

/-- And the consumer returned has the topic and subscription given last, the plugins in the order they were added, 250 permits
per grant and none counted yet; any other result is the error of the registration or of `Consumer::connect`. -/
theorem C106_result (l : List (ConsumerSetting P)) {name topic subscription : String} (hn : (names l).getLast? = some name)
    (ht : (topics l).getLast? = some topic) (hs : (subscriptions l).getLast? = some subscription) {tr : List SetupEv}
    {o : Outcome (ConsumerObj P)} (h : (built l).connect.Runs tr o) :
    (∃ id, tr = [.allocated id, .registered topic id (.err .channelTerminated)] ∧ o = .err .channelTerminated) ∨
    ∃ id evs r, tr = .allocated id :: .registered topic id (.ok ()) :: evs.map (.did ⟨id, name, 0, 0⟩) ∧
      Runs (Session.consumerConnect topic subscription 250) evs r ∧
      o = match r with
        | .ok _ => .ok ⟨topic, subscription, 250, 0, plugins l, ⟨id, name, 0, 0⟩⟩
        | .err e => .err e
        | .panic => .panic := by
  rw [built_consumer, hn, ht, hs] at h
  unfold ConsumerBuilder.connect at h
  cases h with
  | newId _ id tr _ hk =>
    cases hk with
    | register _ _ _ r tr _ hr hk =>
      rcases hr with rfl | rfl
      · cases hk with
        | session _ _ _ evs r tr _ hp hk =>
          refine .inr ⟨id, evs, r, ?_, hp, ?_⟩
          · have : tr = [] := by cases r <;> (cases hk; rfl)
            rw [this, List.append_nil]
          · cases r <;> (cases hk; rfl)
      · cases hk; exact .inl ⟨id, rfl, rfl⟩

/-- A builder used in two different orders, one with a correction: the same `connect`. (The hypotheses of C106_missing, C106_steps and
C106_result are met.) -/
example : names [ConsumerSetting.topic "x", .name "n", .plugin 1, .topic "t", .subscription "s", .plugin 2] = ["n"] ∧
    (topics [ConsumerSetting.topic "x", .name "n", .plugin 1, .topic "t", .subscription "s", .plugin 2]).getLast? = some "t" ∧
    plugins [ConsumerSetting.topic "x", .name "n", .plugin 1, .topic "t", .subscription "s", .plugin 2] = [1, 2] ∧
    names [ConsumerSetting.topic "x", .plugin 1] = [] := ⟨rfl, rfl, rfl, rfl⟩

end Consumer

section Producer

open ProducerSetting

theorem built_producer (l : List ProducerSetting) : built l = ⟨(names l).getLast?, (topics l).getLast?⟩ := by
  induction l using List.reverseRecOn with
  | nil => rfl
  | append_singleton l x ih =>
    unfold built at ih ⊢
    rw [List.foldl_append, ih]
    cases x <;> simp [apply, ProducerBuilder.withProducerName, ProducerBuilder.withTopic, names, topics]

/-- Without a name or a topic, a producer's `connect` panics before it does anything. -/
theorem C106_producer_missing (l : List ProducerSetting) (h : names l = [] ∨ topics l = []) :
    (∀ tr o, (built l).connect.Runs tr o ↔ tr = [] ∧ o = .panic) ∧ ∀ tr, (built l).connect.Steps tr → tr = [] := by
  have : (built l).connect = .ret .panic := by
    rw [built_producer]
    unfold ProducerBuilder.connect
    rcases h with h | h
    · simp [h]
    · cases (names l).getLast? <;> simp [h]
  rw [this]
  refine ⟨fun tr o => ⟨fun hr => ?_, fun hr => ?_⟩, fun tr hs => ?_⟩
  · cases hr; exact ⟨rfl, rfl⟩
  · rw [hr.1, hr.2]; exact .ret _
  · cases hs; rfl

/-- Otherwise the values given last count. -/
theorem C106_producer_steps (l : List ProducerSetting) {name topic : String} (hn : (names l).getLast? = some name)
    (ht : (topics l).getLast? = some topic) (tr : List SetupEv) :
    (built l).connect.Steps tr ↔ SetsUp name topic (Steps (Session.producerConnect topic)) tr := by
  rw [built_producer, hn, ht]
  unfold ProducerBuilder.connect
  constructor
  · intro h
    cases h with
    | nil => exact .nothing
    | newId _ id tr hk =>
      cases hk with
      | nil => exact .allocated id
      | register _ _ _ r tr hr hk =>
        rcases hr with rfl | rfl
        · cases hk with
          | nil => exact .registered id [] (.nil _)
          | inSession _ _ _ evs hp => exact .registered id evs hp
          | session _ _ _ evs r tr hp hk =>
            have : tr = [] := by cases r <;> (cases hk; rfl)
            subst this
            rw [List.append_nil]
            exact .registered id evs (steps_of_runs hp)
        · cases hk; exact .refused id
  · intro h
    cases h with
    | nothing => exact .nil _
    | allocated id => exact .newId _ _ _ (.nil _)
    | refused id => exact .newId _ _ _ (.register _ _ _ _ _ (.inr rfl) (.nil _))
    | registered id evs h => exact .newId _ _ _ (.register _ _ _ _ _ (.inl rfl) (.inSession _ _ _ _ h))

/-- And the producer returned has the topic given last. -/
theorem C106_producer_result (l : List ProducerSetting) {name topic : String} (hn : (names l).getLast? = some name)
    (ht : (topics l).getLast? = some topic) {tr : List SetupEv} {o : Outcome ProducerObj} (h : (built l).connect.Runs tr o) :
    (∃ id, tr = [.allocated id, .registered topic id (.err .channelTerminated)] ∧ o = .err .channelTerminated) ∨
    ∃ id evs r, tr = .allocated id :: .registered topic id (.ok ()) :: evs.map (.did ⟨id, name, 0, 0⟩) ∧
      Runs (Session.producerConnect topic) evs r ∧
      o = match r with
        | .ok _ => .ok ⟨topic, ⟨id, name, 0, 0⟩⟩
        | .err e => .err e
        | .panic => .panic := by
  rw [built_producer, hn, ht] at h
  unfold ProducerBuilder.connect at h
  cases h with
  | newId _ id tr _ hk =>
    cases hk with
    | register _ _ _ r tr _ hr hk =>
      rcases hr with rfl | rfl
      · cases hk with
        | session _ _ _ evs r tr _ hp hk =>
          refine .inr ⟨id, evs, r, ?_, hp, ?_⟩
          · have : tr = [] := by cases r <;> (cases hk; rfl)
            rw [this, List.append_nil]
          · cases r <;> (cases hk; rfl)
      · cases hk; exact .inl ⟨id, rfl, rfl⟩

/-- A producer whose topic was corrected: it is registered under the second one, and the engine may be gone by then. (The hypotheses of
C106_producer_missing, C106_producer_steps and C106_producer_result are met.) -/
example : (built [.topic "x", .name "n", .topic "t"]).connect.Runs [.allocated 3, .registered "t" 3 (.err .channelTerminated)]
    (.err .channelTerminated) :=
  .newId _ _ _ _ (.register _ _ _ _ _ _ (.inr rfl) (.ret _))

end Producer

section Instance

open PulsarSetting

variable {A : Type}

/-- `build` panics exactly if no config was given; otherwise config and plugin given last count (no plugin if none was given). -/
theorem C106_instance (l : List (PulsarSetting A)) :
    (built l).build = match (configs l).getLast? with
      | some c => .ok ⟨c, (auths l).getLast?⟩
      | none => .panic := by
  have : built l = ⟨(configs l).getLast?, (auths l).getLast?⟩ := by
    induction l using List.reverseRecOn with
    | nil => rfl
    | append_singleton l x ih =>
      unfold built at ih ⊢
      rw [List.foldl_append, ih]
      cases x <;> simp [apply, PulsarBuilder.withConfig, PulsarBuilder.withAuthPlugin, configs, auths]
  rw [this]
  unfold PulsarBuilder.build
  cases (configs l).getLast? <;> rfl

end Instance

/-! ## C107 -/

theorem mapM_some_iff {α β : Type} {f : α → Option β} {l : List α} {bs : List β} (h : l.mapM f = some bs) : l.map f = bs.map some := by
  induction l generalizing bs with
  | nil => rw [List.mapM_nil] at h; cases h; rfl
  | cons a l ih =>
    rw [Consumer.mapM_cons'] at h
    cases ha : f a with
    | none => simp [ha] at h
    | some b =>
      cases hl : l.mapM f with
      | none => simp [ha, hl] at h
      | some bs' =>
        simp only [ha, hl] at h
        cases h
        rw [List.map_cons, List.map_cons, ha, ih hl]

section Serialise

open Prog Session

variable {T : Type} {serialize : T → Option Bytes}

/-- `send` of a value that cannot be serialised does nothing but return the error. -/
theorem C107_send {m : T} (hm : serialize m = none) :
    (∀ tr o, Runs (send serialize m) tr o ↔ tr = [] ∧ o = .err .serializationFailed) ∧ ∀ tr, Steps (send serialize m) tr → tr = [] := by
  have : send serialize m = .ret (.err .serializationFailed) := by unfold send; rw [hm]
  rw [this]
  exact ⟨fun tr o => runs_ret, fun tr h => steps_ret.mp h⟩

/-- Whatever is handed over by `send`, `send_batch` and `send_all`, at any time, are serialisations of values given: the value of the
call, all values of the batch, the values that can be serialised; nothing else, and nothing twice. -/
theorem C107_only_serialised (m : T) (ms : List T) :
    (∀ tr, Steps (send serialize m) tr → calls tr = [] ∨ ∃ p, serialize m = some p ∧ calls tr = [.sendMessage p]) ∧
    (∀ tr, Steps (sendBatch serialize ms) tr → calls tr = [] ∨ ∃ ps, ms.map serialize = ps.map some ∧ calls tr = [.sendBatch ps]) ∧
    ∀ tr, Steps (sendAll serialize ms) tr → calls tr <+: (ms.filterMap serialize).map .sendMessage := by
  have one : ∀ {c : Call} {tr : List Ev}, Steps (do let _ ← call c; pure ()) tr → calls tr = [] ∨ calls tr = [c] := by
    intro c tr h
    have : Steps (call c) tr := by
      rcases steps_bind h with h | ⟨tr1, tr2, r, rfl, h1, h2⟩
      · exact h
      · rw [steps_pure] at h2; subst h2; rw [List.append_nil]; exact steps_of_runs h1
    rcases steps_call this with rfl | rfl | ⟨t, rfl⟩ | ⟨t, i, rfl⟩
    · exact .inl rfl
    · exact .inr rfl
    · exact .inr rfl
    · exact .inr rfl
  have all : ∀ (cs : List (Outcome Call)) (tr : List Ev), Steps (handAll cs) tr → calls tr <+: (cs.filterMap fun c => match c with
        | .ok c => some c
        | _ => none) := by
    intro cs
    induction cs with
    | nil =>
      intro tr h
      unfold handAll at h
      rw [steps_pure] at h; subst h; exact List.prefix_rfl
    | cons c cs ih =>
      intro tr h
      cases c with
      | ok c =>
        unfold handAll at h
        have key : ∀ {tr1 tr2 : List Ev}, calls tr1 = [c] → calls tr2 <+: (cs.filterMap fun c => match c with
            | .ok c => some c
            | _ => none) → calls (tr1 ++ tr2) <+: ((Outcome.ok c :: cs).filterMap fun c => match c with
            | .ok c => some c
            | _ => none) := by
          intro tr1 tr2 h1 h2
          rw [calls_append, h1, List.filterMap_cons]
          exact List.cons_prefix_cons.mpr ⟨rfl, h2⟩
        rcases steps_andThen h with h | ⟨tr1, tr2, r, rfl, h1, _, h2⟩
        · rcases steps_handOver h with rfl | ⟨r, rfl, _⟩
          · exact List.nil_prefix
          · simpa using key (tr1 := [.handed c r]) (tr2 := []) rfl List.nil_prefix
        · rw [runs_handOver] at h1
          obtain ⟨rfl, _⟩ := h1
          refine key rfl ?_
          rcases steps_bind h2 with h2 | ⟨tr3, tr4, ts, rfl, h3, h4⟩
          · exact ih _ h2
          · have : tr4 = [] := by cases r <;> exact steps_pure.mp h4
            subst this; rw [List.append_nil]; exact ih _ (steps_of_runs h3)
      | err e => unfold handAll at h; simpa using ih tr h
      | panic => unfold handAll at h; simpa using ih tr h
  have hcs : ∀ ms : List T, ((ms.map fun m => match serialize m with
        | some payload => Outcome.ok (Call.sendMessage payload)
        | none => .err .serializationFailed).filterMap fun c => match c with
        | .ok c => some c
        | _ => none) = (ms.filterMap serialize).map .sendMessage := by
    intro ms
    induction ms with
    | nil => rfl
    | cons m ms ih =>
      rw [List.map_cons, List.filterMap_cons, List.filterMap_cons]
      cases hm : serialize m with
      | none => exact ih
      | some p => exact congrArg (Call.sendMessage p :: ·) ih
  refine ⟨fun tr h => ?_, fun tr h => ?_, fun tr h => ?_⟩
  · unfold send at h
    cases hm : serialize m with
    | none => rw [hm] at h; rw [steps_ret.mp h]; exact .inl rfl
    | some p =>
      rw [hm] at h
      rcases one h with h | h
      · exact .inl h
      · exact .inr ⟨p, rfl, h⟩
  · unfold sendBatch at h
    cases hm : ms.mapM serialize with
    | none => rw [hm] at h; rw [steps_ret.mp h]; exact .inl rfl
    | some ps =>
      rw [hm] at h
      rcases one h with h | h
      · exact .inl h
      · exact .inr ⟨ps, mapM_some_iff hm, h⟩
  · unfold sendAll at h
    rcases steps_bind h with h | ⟨tr1, tr2, ts, rfl, h1, h2⟩
    · rw [← hcs]; exact all _ _ h
    · have hw : calls tr2 = [] := by
        have hwa : ∀ (ts : List (Nat × Call)) (tr : List Ev), Steps (waitAll ts) tr → calls tr = [] := by
          intro ts
          induction ts with
          | nil => intro tr h; unfold waitAll at h; rw [steps_pure.mp h]; rfl
          | cons x ts ih =>
            intro tr h
            obtain ⟨t, c⟩ := x
            unfold waitAll at h
            rcases steps_andThen h with h | ⟨tr1, tr2, r, rfl, h1, _, h2⟩
            · rcases steps_await h with rfl | ⟨r, rfl⟩ <;> rfl
            · rw [runs_await] at h1
              obtain ⟨rfl, _⟩ := h1
              rw [calls_append, ih _ h2]; rfl
        rcases steps_bind h2 with h2 | ⟨tr3, tr4, _, rfl, h3, h4⟩
        · exact hwa _ _ h2
        · rw [steps_pure.mp h4, List.append_nil]; exact hwa _ _ (steps_of_runs h3)
      rw [calls_append, hw, List.append_nil, ← hcs]
      exact all _ _ (steps_of_runs h1)

/-- The claim is false of `send_batch`: one value that cannot be serialised, and the call panics (with nothing handed over). -/
theorem C107_refuted_batch {ms : List T} {m : T} (hm : m ∈ ms) (h : serialize m = none) :
    ∀ tr o, Runs (sendBatch serialize ms) tr o ↔ tr = [] ∧ o = .panic := by
  have : ms.mapM serialize = none := by
    cases hx : ms.mapM serialize with
    | none => rfl
    | some ps =>
      have := mapM_some_iff hx
      have h1 : serialize m ∈ ms.map serialize := List.mem_map_of_mem hm
      rw [this, h] at h1
      simp at h1
  have : sendBatch serialize ms = .ret .panic := by unfold sendBatch; rw [this]
  rw [this]
  exact fun tr o => runs_ret

/-- And of `send_all`, which leaves the value out and returns Ok. -/
theorem C107_refuted_all {m : T} (h : serialize m = none) : ∀ tr o, Runs (sendAll serialize [m]) tr o ↔ tr = [] ∧ o = .ok () := by
  have : sendAll serialize [m] = .ret (.ok ()) := by
    unfold sendAll
    simp only [List.map_cons, List.map_nil, h, handAll]
    rfl
  rw [this]
  exact fun tr o => runs_ret

/-- A serialiser that refuses zero: one value of the batch is refused, the others are handed over by `send_all`. (The hypotheses of C107_send
and C107_only_serialised are met.) -/
example : let ser : Nat → Option Bytes := fun n => if n = 0 then none else some [n.toUInt8]
    ser 0 = none ∧ [1, 0, 2].filterMap ser = [[1], [2]] ∧ (0 ∈ [1, 0, 2]) ∧
    Steps (sendAll ser [1, 0, 2]) [.handed (.sendMessage [1]) (.ok 7)] := by
  refine ⟨rfl, rfl, by decide, ?_⟩
  exact .hand _ _ _ _ (.handed _ _) (.nil _)

end Serialise

end Neutron.Props
