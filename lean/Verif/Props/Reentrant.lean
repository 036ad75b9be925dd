import Verif.Props.Plugins
import Verif.Props.Receive
import Verif.Proof.WorldCalls

/-!
# A plugin that uses its consumer: C137
-/

namespace Neutron.Consumer

variable {T : Type}

/-- A plugin works on message `m` for call `i`; it is the `k`-th plugin. -/
def State.pluginWorks (s : State T) (i k : Nat) (m : Received T) : Prop :=
  ∃ t, s.tasks[i]? = some t ∧ t.stage = .offering m k

/-- Call `j` has received message `m` and waits for its turn with the plugins. -/
def State.waitsForPlugins (s : State T) (j : Nat) (m : Received T) : Prop :=
  ∃ t, s.tasks[j]? = some t ∧ t.stage = .plugins m

theorem goto_get {s : State T} {i : Nat} {t : Task T} {st : Stage T} (ht : s.tasks[i]? = some t) {j : Nat} {t' : Task T}
    (h : (s.goto i t st).tasks[j]? = some t') : (j = i ∧ t'.stage = st) ∨ (j ≠ i ∧ s.tasks[j]? = some t') := by
  have hlt : i < s.tasks.length := (List.getElem?_eq_some_iff.mp ht).1
  simp only [State.goto] at h
  by_cases hj : j = i
  · subst hj
    rw [List.getElem?_set_self hlt] at h
    cases h
    exact .inl ⟨rfl, rfl⟩
  · rw [List.getElem?_set_ne (Ne.symm hj)] at h
    exact .inr ⟨hj, h⟩

theorem get_append {l : List (Task T)} {l' : List (Task T)} {i : Nat} {t : Task T} (h : l[i]? = some t) : (l ++ l')[i]? = some t := by
  rw [List.getElem?_append_left (List.getElem?_eq_some_iff.mp h).1]; exact h

/-- Whoever is with the plugins holds them. -/
def Occupied (s : State T) : Prop := ∀ i k m, s.pluginWorks i k m → s.pluginHolder = some i

theorem occupied_step {cfg : Cfg T} {s s' : State T} {a : Act} (h : Occupied s) (hs : step cfg s a = some s') : Occupied s' := by
  have keep : ∀ {i : Nat} {t : Task T} {st : Stage T} (s' : State T), s.tasks[i]? = some t → (∀ m k, st ≠ .offering m k) →
      s'.tasks = (s.goto i t st).tasks → (s'.pluginHolder = s.pluginHolder ∨ s'.pluginHolder = release s.pluginHolder i) → Occupied s' := by
    intro i t st s' ht hst h1 h2 i' k m ⟨t', ht', hp⟩
    rw [h1] at ht'
    rcases goto_get ht ht' with ⟨_, he⟩ | ⟨hne, he⟩
    · exact absurd (he.symm.trans hp) (hst m k)
    · have := h i' k m ⟨t', he, hp⟩
      rcases h2 with h2 | h2
      · rw [h2]; exact this
      · rw [h2, this]
        unfold release
        rw [if_neg (fun hc => hne (Option.some.inj hc))]
  cases step_cases hs with
  | deliver | close => exact h
  | spawn j =>
    intro i k m ⟨t, ht, hp⟩
    rw [List.getElem?_append] at ht
    split at ht
    · exact h i k m ⟨t, ht, hp⟩
    · rw [List.getElem?_singleton] at ht
      split at ht
      · cases ht; cases hp
      · cases ht
  | ret i t ht o hc =>
    refine keep _ ht (st := after t.job o) (fun m k => ?_) rfl (.inl rfl)
    unfold after
    split <;> simp
  | load i t ht k hc | store i t ht n k hc | add i t ht n k hc | flow i t ht n k hc | lock i t ht k hc | write i t ht b k hc
    | recv i t ht k hc | gone i t ht k hc | refuse i t ht n k hc => exact keep _ ht (fun m k => by simp) rfl (.inl rfl)
  | skip i t ht k hc => exact h
  | plugins i t ht m hc hh =>
    intro i' k' m' ⟨t', ht', hp⟩
    rcases goto_get ht ht' with ⟨he, _⟩ | ⟨hne, he⟩
    · rw [he]
    · exact absurd (h i' k' m' ⟨t', he, hp⟩) (by rw [hh]; simp)
  | loop i t ht m k hc hk => exact keep _ ht (fun m k => by simp) rfl (.inr rfl)
  | accepted i t ht m k hc hk =>
    intro i' k' m' ⟨t', ht', hp⟩
    rcases goto_get ht ht' with ⟨he, _⟩ | ⟨hne, he⟩
    · rw [he]; exact h i k m ⟨t, ht, hc⟩
    · exact h i' k' m' ⟨t', he, hp⟩
  | rejected i t ht m k hc hk r hr => exact keep _ ht (fun m k => by simp) rfl (.inr rfl)
  | cancel i t ht hw => exact keep _ ht (fun m k => by simp) rfl (.inr rfl)

theorem occupied {cfg : Cfg T} {as : List Act} {s : State T} (h : Run cfg as s) : Occupied s := by
  induction h with
  | nil => intro i k m ⟨t, ht, _⟩; cases ht
  | snoc _ hs ih => exact occupied_step ih hs

/-- While the plugin works, one step. -/
theorem works_step {cfg : Cfg T} {s s' : State T} {a : Act} (hh : Occupied s) (hs : step cfg s a = some s') {i k : Nat} {m : Received T}
    (hi : s.pluginWorks i k m) (hk : k < cfg.plugins) (h1 : ∀ r, a ≠ .offer i r) (h2 : a ≠ .cancel i) :
    s'.pluginWorks i k m ∧ s'.offers = s.offers ∧ ∀ j m', a ≠ .cancel j → s.waitsForPlugins j m' → s'.waitsForPlugins j m' := by
  obtain ⟨ti, hti, hsi⟩ := hi
  have hold := hh i k m ⟨ti, hti, hsi⟩
  have other : ∀ {l : Nat} {t : Task T} {st : Stage T} (s' : State T), s.tasks[l]? = some t → (∀ m k, t.stage ≠ .offering m k) →
      (∀ m, t.stage = .plugins m → a = .cancel l) → s'.tasks = (s.goto l t st).tasks →
      s'.offers = s.offers → s'.pluginWorks i k m ∧ s'.offers = s.offers ∧ ∀ j m', a ≠ .cancel j → s.waitsForPlugins j m' → s'.waitsForPlugins j m' := by
    intro l t st s' ht hst hpl h3 h4
    have get : ∀ {j : Nat} {t' : Task T}, j ≠ l → s.tasks[j]? = some t' → s'.tasks[j]? = some t' := by
      intro j t' hj h
      rw [h3]
      simp only [State.goto]
      rw [List.getElem?_set_ne (Ne.symm hj)]
      exact h
    refine ⟨⟨ti, get ?_ hti, hsi⟩, h4, ?_⟩
    · intro he
      subst he
      rw [hti] at ht
      cases ht
      exact hst _ _ hsi
    · rintro j m' hc ⟨t', ht', hs'⟩
      refine ⟨t', get ?_ ht', hs'⟩
      intro he
      subst he
      rw [ht'] at ht
      cases ht
      exact hc (hpl _ hs')
  cases step_cases hs with
  | deliver | close | skip => exact ⟨⟨ti, hti, hsi⟩, rfl, fun _ _ _ h => h⟩
  | spawn j =>
    refine ⟨⟨ti, ?_, hsi⟩, rfl, ?_⟩
    · exact Consumer.get_append hti
    · rintro j m' _ ⟨t, ht, hs⟩
      exact ⟨t, Consumer.get_append ht, hs⟩
  | ret l t ht o hc | load l t ht _ hc | store l t ht _ _ hc | add l t ht _ _ hc | flow l t ht _ _ hc | lock l t ht _ hc | write l t ht _ _ hc
    | recv l t ht _ hc | gone l t ht _ hc | refuse l t ht _ _ hc =>
    exact other _ ht (by rw [hc]; simp) (by rw [hc]; simp) rfl rfl
  | plugins l t ht m' hc hn => rw [hold] at hn; cases hn
  | loop l t ht m' k' hc hk' =>
    have : l = i := by
      have := hh l k' m' ⟨t, ht, hc⟩
      rw [hold] at this
      exact (Option.some.inj this).symm
    subst this
    rw [hti] at ht
    cases ht
    rw [hsi] at hc
    cases hc
    exact absurd hk hk'
  | accepted l t ht m' k' hc hk' | rejected l t ht m' k' hc hk' =>
    have : l = i := by
      have := hh l k' m' ⟨t, ht, hc⟩
      rw [hold] at this
      exact (Option.some.inj this).symm
    subst this
    exact absurd rfl (h1 _)
  | cancel l t ht hw =>
    refine other _ ht ?_ (fun _ _ => rfl) rfl rfl
    intro m' k' hc
    have := hh l k' m' ⟨t, ht, hc⟩
    rw [hold] at this
    exact h2 (by rw [Option.some.inj this])

/-- While the plugin works, any number of steps. -/
theorem works_run {cfg : Cfg T} {as : List Act} {s : State T} (h : Run cfg as s) {i k : Nat} {m : Received T} (hi : s.pluginWorks i k m)
    (hk : k < cfg.plugins) {bs : List Act} (hb1 : ∀ r, .offer i r ∉ bs) (hb2 : .cancel i ∉ bs) {s' : State T} (h' : Run cfg (as ++ bs) s') :
    s'.pluginWorks i k m ∧ s'.offers = s.offers ∧ ∀ j m', .cancel j ∉ bs → s.waitsForPlugins j m' → s'.waitsForPlugins j m' := by
  generalize hn : bs.length = n
  induction n generalizing bs s' with
  | zero =>
    rw [List.length_eq_zero_iff.mp hn, List.append_nil] at h'
    cases run_unique h h'
    exact ⟨hi, rfl, fun _ _ _ h => h⟩
  | succ n ih =>
    rcases List.eq_nil_or_concat bs with rfl | ⟨bs, a, rfl⟩
    · cases hn
    · rw [List.concat_eq_append] at *
      rw [← List.append_assoc] at h'
      obtain ⟨s1, hr, hs⟩ := run_last h' rfl
      obtain ⟨k1, k2, k3⟩ := ih (bs := bs) (fun r hc => hb1 r (by simp [hc])) (fun hc => hb2 (by simp [hc])) hr (by simpa using hn)
      obtain ⟨l1, l2, l3⟩ := works_step (occupied hr) hs k1 hk (fun r hc => hb1 r (by simp [hc])) (fun hc => hb2 (by simp [hc]))
      exact ⟨l1, l2.trans k2, fun j m' hc hw => l3 j m' (fun he => hc (by simp [he])) (k3 j m' (fun he => hc (by simp [he])) hw)⟩

end Neutron.Consumer

namespace Neutron.Props

open Neutron Neutron.Consumer

variable {T : Type}

/-- A plugin may receive from the consumer it is given: while it works on a message, a `next_message` call it makes returns the next
message, if there is one, by its own steps alone. -/
theorem C137_next_message {cfg : Cfg T} {as : List Act} {s : State T} (h : Run cfg as s) (hj : ∀ n, Job.batch n ∉ jobs as) {i k : Nat}
    {m : Received T} (hi : s.pluginWorks i k m) (hk : k < cfg.plugins) (hf : s.free) (ho : s.isOpen = true) {x : Outcome (Received T)}
    {rest : List (Outcome (Received T))} (hx : stream cfg as = s.handedOut ++ x :: rest) :
    ∃ bs s' o, (∀ a ∈ bs, a = .run s.tasks.length) ∧ Run cfg (as ++ .spawn .message :: bs) s' ∧
      s'.results = s.results ++ [(s.tasks.length, o)] ∧ handed o = [x] ∧ s'.pluginWorks i k m := by
  obtain ⟨bs, s', o, h1, h2, h3, h4⟩ := C48_next_is_returned h hj hf ho hx
  refine ⟨bs, s', o, h1, h2, h3, h4, (works_run h hi hk ?_ ?_ h2).1⟩
  · intro r hc
    rcases List.mem_cons.mp hc with hc | hc
    · cases hc
    · cases h1 _ hc
  · intro hc
    rcases List.mem_cons.mp hc with hc | hc
    · cases hc
    · cases h1 _ hc

/-- While a plugin works on a message, no message is offered to a plugin, whatever else happens. -/
theorem C137_one_at_a_time {cfg : Cfg T} {as : List Act} {s : State T} (h : Run cfg as s) {i k : Nat} {m : Received T}
    (hi : s.pluginWorks i k m) (hk : k < cfg.plugins) {bs : List Act} (hb1 : ∀ r, .offer i r ∉ bs) (hb2 : .cancel i ∉ bs) {s' : State T}
    (h' : Run cfg (as ++ bs) s') : s'.pluginWorks i k m ∧ s'.offers = s.offers :=
  ⟨(works_run h hi hk hb1 hb2 h').1, (works_run h hi hk hb1 hb2 h').2.1⟩

/-- So a `consume` the plugin itself makes returns only if receiving fails before it has received anything. -/
theorem C137_inner_consume {cfg : Cfg T} {as : List Act} {s : State T} (h : Run cfg as s) {i k : Nat} {m : Received T}
    (hi : s.pluginWorks i k m) (hk : k < cfg.plugins) {bs : List Act} (hb1 : ∀ r, .offer i r ∉ bs) (hb2 : .cancel i ∉ bs) {s' : State T}
    (h' : Run cfg (as ++ .spawn .consume :: bs) s') (hc : .cancel s.tasks.length ∉ as ++ bs) {t : Consumer.Task T}
    (ht : s'.tasks[s.tasks.length]? = some t) (hj : t.job = .consume) (he : t.stage = .ended) :
    s'.handedTo s.tasks.length = [] ∧ ∃ o, s'.failures s.tasks.length = [o] ∧ ∀ r, o ≠ .ok r := by
  have hoff := (works_run h hi hk (bs := .spawn .consume :: bs) (fun r hc => hb1 r (by simpa using hc)) (fun hc => hb2 (by simpa using hc)) h').2.1
  have hnone : s'.offersOf s.tasks.length = [] := by
    unfold State.offersOf
    rw [hoff]
    exact ((plugged h).fresh _ (Nat.le_refl _)).2.2
  rcases C59_stops h' ht hj he (by
    intro hx
    rcases List.mem_append.mp hx with hx | hx
    · exact hc (List.mem_append_left _ hx)
    · rcases List.mem_cons.mp hx with hx | hx
      · cases hx
      · exact hc (List.mem_append_right _ hx)) with ⟨h1, h2, _⟩ | ⟨_, x, hx, _⟩
  · refine ⟨?_, h1⟩
    rw [hnone] at h2
    cases hh : s'.handedTo s.tasks.length with
    | nil => rfl
    | cons y l =>
      rw [hh] at h2
      have := congrArg List.length h2
      simp only [offering, List.flatMap_cons, List.length_append, List.length_map, List.length_range, List.map_nil, List.length_nil] at this
      omega
  · rw [hnone] at hx; cases hx

/-- And once it has received a message it waits for as long as the plugin that made it waits for it: for ever. -/
theorem C137_inner_waits {cfg : Cfg T} {as : List Act} {s : State T} (h : Run cfg as s) {i k : Nat} {m m' : Received T}
    (hi : s.pluginWorks i k m) (hk : k < cfg.plugins) {j : Nat} (hj : s.waitsForPlugins j m') {bs : List Act} (hb1 : ∀ r, .offer i r ∉ bs)
    (hb2 : .cancel i ∉ bs) (hb3 : .cancel j ∉ bs) {s' : State T} (h' : Run cfg (as ++ bs) s') :
    s'.pluginWorks i k m ∧ s'.waitsForPlugins j m' ∧ step cfg s' (.run j) = none := by
  obtain ⟨h1, _, h3⟩ := works_run h hi hk hb1 hb2 h'
  obtain ⟨t, ht, hs⟩ := h3 j m' hb3 hj
  refine ⟨h1, ⟨t, ht, hs⟩, ?_⟩
  have hh := occupied h' i k m h1
  simp [step, ht, runTask, hs, hh]

/-- The claim is false: a plugin that calls `consume` on the consumer it is given never gets to the end of it, once a second message
is there: whatever happens (short of dropping one of the two calls), neither call ends. -/
theorem C137_refuted : ∃ (as : List Act) (s : State UInt8), Run (byteCfg 250 1) as s ∧
    (delivered as).flatMap (yields (byteCfg 250 1).decode) = [.ok ⟨1, msgId 5⟩, .ok ⟨2, msgId 6⟩] ∧
    s.pluginWorks 0 0 ⟨1, msgId 5⟩ ∧ s.jobOf 1 = some .consume ∧ s.waitsForPlugins 1 ⟨2, msgId 6⟩ ∧
    ∀ bs s', (∀ r, .offer 0 r ∉ bs) → .cancel 0 ∉ bs → .cancel 1 ∉ bs → Run (byteCfg 250 1) (as ++ bs) s' →
      s'.pluginWorks 0 0 ⟨1, msgId 5⟩ ∧ s'.waitsForPlugins 1 ⟨2, msgId 6⟩ ∧ step (byteCfg 250 1) s' (.run 1) = none := by
  have hr : ∃ s, Run (byteCfg 250 1) ([one 5 [1], one 6 [2], .spawn .consume] ++ go 0 7 ++ [.spawn .consume] ++ go 1 6) s ∧
      s.pluginWorks 0 0 ⟨1, msgId 5⟩ ∧ s.jobOf 1 = some .consume ∧ s.waitsForPlugins 1 ⟨2, msgId 6⟩ :=
    ⟨_, run_exec rfl, ⟨_, rfl, rfl⟩, rfl, ⟨_, rfl, rfl⟩⟩
  obtain ⟨s, h1, h2, h3, h4⟩ := hr
  exact ⟨_, s, h1, rfl, h2, h3, h4, fun bs s' hb1 hb2 hb3 h' => C137_inner_waits h1 h2 (by decide) h4 hb1 hb2 hb3 h'⟩

/-- The hypotheses of the other parts are met: a plugin works on the first message; the second is there, and the plugin can ask for it. (The
hypotheses of C137_next_message, C137_one_at_a_time, C137_inner_consume and C137_inner_waits are met.) -/
example : ∃ (as : List Act) (s : State UInt8), Run (byteCfg 250 1) as s ∧ s.pluginWorks 0 0 ⟨1, msgId 5⟩ ∧ s.free ∧ s.isOpen = true ∧
    jobs as = [.consume] ∧ stream (byteCfg 250 1) as = s.handedOut ++ [.ok ⟨2, msgId 6⟩] :=
  ⟨[one 5 [1], one 6 [2], .spawn .consume] ++ go 0 7, _, run_exec rfl, ⟨_, rfl, rfl⟩, rfl, rfl, rfl, rfl⟩

/-- And an inner `consume` whose receiving fails does return. -/
example : ∃ (s : State UInt8) (bs : List Act) (s' : State UInt8), Run (byteCfg 250 1) ([one 5 [1], .spawn .consume] ++ go 0 7) s ∧
    s.pluginWorks 0 0 ⟨1, msgId 5⟩ ∧ s.tasks.length = 1 ∧ Run (byteCfg 250 1) ([one 5 [1], .spawn .consume] ++ go 0 7 ++ .spawn .consume :: bs) s' ∧
    s'.jobOf 1 = some .consume ∧ (s'.tasks[1]?).map (fun t => t.stage.live) = some false ∧ s'.failures 1 = [.err .channelTerminated] := by
  refine ⟨_, .close :: go 1 4, _, atMost_run (n := 1) (atMost_of rfl), ⟨_, rfl, rfl⟩, rfl, run_exec rfl, ?_, ?_, ?_⟩
  · rfl
  · rfl
  · rfl

end Neutron.Props
