import Verif.Proof.ConsumerPlugins
import Verif.Proof.ConsumerTraces

/-!
# C59: `consume` and its plugins
-/

namespace Neutron.Props

open Neutron Neutron.Consumer

variable {T : Type}

theorem told_map (xs : List (Nat × Received T)) : (told xs).map (fun x => (x.1, x.2.1)) = xs := by
  simp [told, Function.comp_def]

theorem told_ok {xs : List (Nat × Received T)} {x : Nat × Received T × Outcome Unit} (h : x ∈ told xs) : x.2.2 = .ok () := by
  simp only [told, List.mem_map] at h
  obtain ⟨_, _, rfl⟩ := h
  rfl

theorem upto_prefix {k P : Nat} (h : k ≤ P) (m : Received T) : upto k m <+: upto P m := by
  obtain ⟨d, rfl⟩ := Nat.exists_eq_add_of_le h
  unfold upto
  rw [List.range_add, List.map_append]
  exact List.prefix_append _ _

theorem told_prefix {P k : Nat} (h : k ≤ P) (ms : List (Received T)) (m : Received T) : offering P ms ++ upto k m <+: offering P (ms ++ [m]) := by
  rw [offering_snoc]
  exact List.prefix_append_right_inj _ |>.mpr (upto_prefix h m)

theorem Stopped.parts {P : Nat} {c : Prop} {ms : List (Received T)} {fs : List (Outcome (List (Received T)))}
    {os : List (Nat × Received T × Outcome Unit)} (h : Stopped P c ms fs os) :
    os.map (fun x => (x.1, x.2.1)) <+: offering P ms ∧ (∀ x ∈ os.dropLast, x.2.2 = .ok ()) ∧ offering P ms.dropLast <+: os.map (fun x => (x.1, x.2.1)) := by
  have hd : ∀ ms : List (Received T), offering P ms.dropLast <+: offering P ms := by
    intro ms
    rcases List.eq_nil_or_concat ms with rfl | ⟨l, x, rfl⟩
    · exact List.prefix_rfl
    · rw [List.concat_eq_append, List.dropLast_concat, offering_snoc]
      exact List.prefix_append _ _
  cases h with
  | failed _ o ho =>
    rw [told_map]
    exact ⟨List.prefix_rfl, fun x hx => told_ok (List.dropLast_subset _ hx), hd ms⟩
  | rejected ms m k r hk hr =>
    have e : (told (offering P ms ++ upto k m) ++ [(k, m, r)]).map (fun x => (x.1, x.2.1)) = offering P ms ++ upto (k + 1) m := by
      rw [List.map_append, told_map, upto_succ, List.append_assoc]
      rfl
    rw [e, List.dropLast_concat, List.dropLast_concat]
    exact ⟨told_prefix hk ms m, fun x hx => told_ok hx, List.prefix_append _ _⟩
  | idle _ hc =>
    rw [told_map]
    exact ⟨List.prefix_rfl, fun x hx => told_ok (List.dropLast_subset _ hx), hd ms⟩
  | busy ms m k hk hc =>
    rw [told_map, List.dropLast_concat]
    exact ⟨told_prefix hk ms m, fun x hx => told_ok (List.dropLast_subset _ hx), List.prefix_append _ _⟩

/-- What the parts of C59 say about a call in any stage. -/
theorem plugin_parts {cfg : Cfg T} {as : List Act} {s : State T} (h : Run cfg as s) {i : Nat} {t : Consumer.Task T}
    (ht : s.tasks[i]? = some t) (hj : t.job = .consume) :
    ∃ c, Stopped cfg.plugins c (s.handedTo i) (s.failures i) (s.offersOf i) ∧ (t.stage ≠ .ended → s.failures i = [] ∧ ∀ x ∈ s.offersOf i, x.2.2 = .ok ()) := by
  have := (plugged h).told i t ht hj
  generalize s.handedTo i = A at this
  generalize s.failures i = F at this
  generalize s.offersOf i = O at this
  generalize t.stage = st at this
  cases this with
  | running c ms => exact ⟨True, .idle _ trivial, fun _ => ⟨rfl, fun x => told_ok⟩⟩
  | plugins m ms =>
    refine ⟨True, ?_, fun _ => ⟨rfl, fun x => told_ok⟩⟩
    have := Stopped.busy (P := cfg.plugins) (cancelled := True) ms m 0 (Nat.zero_le _) trivial
    rw [upto_zero, List.append_nil] at this
    exact this
  | offering m k ms hk => exact ⟨True, .busy ms m k hk trivial, fun _ => ⟨rfl, fun x => told_ok⟩⟩
  | ended _ _ _ h => exact ⟨_, h, fun h => absurd rfl h⟩

/-- Every message `consume` receives goes to every plugin once, in the order received, and for each message in the order of
registration: the plugin calls made so far are a prefix of "each message to each plugin", and they cover all messages but the
last one.  Only the last plugin call can have failed. -/
theorem C59_offers {cfg : Cfg T} {as : List Act} {s : State T} (h : Run cfg as s) {i : Nat} (hi : s.jobOf i = some .consume) :
    (s.offersOf i).map (fun x => (x.1, x.2.1)) <+: offering cfg.plugins (s.handedTo i) ∧
    offering cfg.plugins (s.handedTo i).dropLast <+: (s.offersOf i).map (fun x => (x.1, x.2.1)) ∧
    ∀ x ∈ (s.offersOf i).dropLast, x.2.2 = .ok () := by
  rw [State.jobOf, Option.map_eq_some_iff] at hi
  obtain ⟨t, ht, hj⟩ := hi
  obtain ⟨_, hp, _⟩ := plugin_parts h ht hj
  obtain ⟨h1, h2, h3⟩ := Stopped.parts hp
  exact ⟨h1, h3, h2⟩

/-- `consume` goes on as long as nothing fails: if it has ended and was not dropped, either receiving failed (after the last
message went to every plugin, each accepting it) or the last plugin call failed (and receiving did not). -/
theorem C59_stops {cfg : Cfg T} {as : List Act} {s : State T} (h : Run cfg as s) {i : Nat} {t : Consumer.Task T}
    (ht : s.tasks[i]? = some t) (hj : t.job = .consume) (he : t.stage = .ended) (hc : .cancel i ∉ as) :
    ((∃ o, s.failures i = [o] ∧ ∀ r, o ≠ .ok r) ∧ (s.offersOf i).map (fun x => (x.1, x.2.1)) = offering cfg.plugins (s.handedTo i) ∧
      ∀ x ∈ s.offersOf i, x.2.2 = .ok ()) ∨
    (s.failures i = [] ∧ ∃ x, (s.offersOf i).getLast? = some x ∧ x.2.2 ≠ .ok ()) := by
  have := (plugged h).told i t ht hj
  rw [he] at this
  generalize s.handedTo i = A at this ⊢
  generalize s.failures i = F at this ⊢
  generalize s.offersOf i = O at this ⊢
  cases this with
  | ended _ _ _ h =>
    cases h with
    | failed _ o ho => exact .inl ⟨⟨o, rfl, ho⟩, told_map _, fun x => told_ok⟩
    | rejected ms m k r hk hr => exact .inr ⟨rfl, (k, m, r), by simp, hr⟩
    | idle _ h => exact absurd h hc
    | busy _ _ _ _ h => exact absurd h hc

/-- It stops at the first failure: a `consume` that has not ended has seen no failure. -/
theorem C59_first_failure {cfg : Cfg T} {as : List Act} {s : State T} (h : Run cfg as s) {i : Nat} {t : Consumer.Task T}
    (ht : s.tasks[i]? = some t) (hj : t.job = .consume) (he : t.stage ≠ .ended) :
    s.failures i = [] ∧ ∀ x ∈ s.offersOf i, x.2.2 = .ok () := by
  obtain ⟨_, _, h2⟩ := plugin_parts h ht hj
  exact h2 he

/-- Two plugins, two messages; the second plugin fails on the second message: four plugin calls, then `consume` has ended. (The hypotheses of
C59_offers and C59_stops are met.) -/
example : ∃ (as : List Act) (s : State UInt8), Run (byteCfg 250 2) as s ∧ s.jobOf 0 = some .consume ∧
    (s.handedTo 0).map (·.payload) = [1, 2] ∧ (s.offersOf 0).map (fun x => (x.1, x.2.1.payload, x.2.2)) =
      [(0, 1, .ok ()), (1, 1, .ok ()), (0, 2, .ok ()), (1, 2, .err .channelTerminated)] ∧ (s.tasks[0]?).map (fun t => t.stage.live) = some false := by
  refine ⟨[one 5 [1], one 6 [2], .spawn .consume] ++ go 0 7 ++ [.offer 0 (.ok ()), .offer 0 (.ok ())] ++ go 0 8 ++
    [.offer 0 (.ok ()), .offer 0 (.err .channelTerminated)], _, atMost_run (n := 1) (atMost_of rfl), ?_, ?_, ?_, ?_⟩ <;> rfl

/-- Receiving fails: the engine goes away after one message. -/
example : ∃ (as : List Act) (s : State UInt8), Run (byteCfg 250 2) as s ∧ s.jobOf 0 = some .consume ∧
    (s.handedTo 0).map (·.payload) = [1] ∧ (s.offersOf 0).map (fun x => (x.1, x.2.1.payload, x.2.2)) = [(0, 1, .ok ()), (1, 1, .ok ())] ∧
    s.failures 0 = [.err .channelTerminated] ∧ (s.tasks[0]?).map (fun t => t.stage.live) = some false := by
  refine ⟨[one 5 [1], .spawn .consume] ++ go 0 7 ++ [.offer 0 (.ok ()), .offer 0 (.ok ()), .close] ++ go 0 5, _,
    atMost_run (n := 1) (atMost_of rfl), ?_, ?_, ?_, ?_, ?_⟩ <;> rfl

/-! ## C115: dropping `consume` -/

/-- The claim is false: two `consume` calls share one plugin; the plugin works on the first message while the second call, which
has taken the second message, waits for its turn.  The second call is dropped: its message is offered to no plugin, and the next call
does not return it but waits. -/
theorem C115_refuted : ∃ (as : List Act) (s : State UInt8), Run (byteCfg 250 1) as s ∧
    (delivered as).flatMap (yields (byteCfg 250 1).decode) = [.ok ⟨1, msgId 5⟩, .ok ⟨2, msgId 6⟩] ∧ .cancel 1 ∈ as ∧
    s.handedTo 1 = [⟨2, msgId 6⟩] ∧ s.offersOf 1 = [] ∧ s.offers.map (fun x => (x.2.1, x.2.2.1)) = [(0, ⟨1, msgId 5⟩)] ∧
    s.waiting 2 ∧ step (byteCfg 250 1) s (.run 2) = none :=
  ⟨[one 5 [1], one 6 [2], .spawn .consume, .spawn .consume] ++ go 0 7 ++ go 1 6 ++ [.cancel 1, .offer 0 (.ok ()), .spawn .message] ++ go 2 2, _,
    run_exec rfl, rfl, by simp, rfl, rfl, rfl, ⟨_, _, rfl, rfl⟩, rfl⟩

/-- The same with one call only, dropped while the first of two plugins works on the message: the second plugin never sees it. -/
theorem C115_second_plugin_refuted : ∃ (as : List Act) (s : State UInt8), Run (byteCfg 250 2) as s ∧ jobs as = [.consume, .message] ∧
    .cancel 0 ∈ as ∧ s.handedTo 0 = [⟨1, msgId 5⟩] ∧ (s.offers.map fun x => x.2.1) = [0] ∧ s.waiting 1 ∧
    step (byteCfg 250 2) s (.run 1) = none :=
  ⟨[one 5 [1], .spawn .consume] ++ go 0 7 ++ [.offer 0 (.ok ()), .cancel 0, .spawn .message] ++ go 1 2, _,
    run_exec rfl, rfl, by simp, rfl, rfl, ⟨_, _, rfl, rfl⟩, rfl⟩

/-- What holds: wherever `consume` is dropped, at most the last message it received is affected; every earlier one was offered to
every plugin. -/
theorem C115_at_most_the_last {cfg : Cfg T} {as : List Act} {s : State T} (h : Run cfg as s) {i : Nat} (hi : s.jobOf i = some .consume)
    {ms : List (Received T)} {m last : Received T} (hms : s.handedTo i = ms ++ [last]) (hm : m ∈ ms) {k : Nat} (hk : k < cfg.plugins) :
    ∃ r, (i, k, m, r) ∈ s.offers := by
  have h2 := (C59_offers h hi).2.1
  rw [hms, List.dropLast_concat] at h2
  have : (k, m) ∈ offering cfg.plugins ms := List.mem_flatMap.mpr ⟨m, hm, List.mem_map.mpr ⟨k, List.mem_range.mpr hk, rfl⟩⟩
  have := h2.subset this
  rw [List.mem_map] at this
  obtain ⟨x, hx, he⟩ := this
  simp only [State.offersOf, List.mem_filterMap] at hx
  obtain ⟨y, hy, hyx⟩ := hx
  split at hyx
  · rename_i hyi
    cases hyx
    cases he
    exact ⟨y.2.2.2, by rw [← hyi]; exact hy⟩
  · cases hyx

end Neutron.Props
