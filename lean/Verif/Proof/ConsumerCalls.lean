import Verif.Proof.ConsumerSolo

/-!
# What follows for calls: the stream, new calls, waiting
-/

namespace Neutron.Consumer

open Neutron
open scoped List

variable {T : Type}

theorem run_of_exec {cfg : Cfg T} {as bs : List Act} {s s' : State T} (h : Run cfg as s) (he : exec cfg s bs = some s') :
    Run cfg (as ++ bs) s' := by
  induction bs generalizing as s with
  | nil => cases he; simpa using h
  | cons b bs ih =>
    simp only [exec] at he
    split at he
    · have := ih (Run.snoc h (by assumption)) he
      simpa using this
    · cases he

/-- A concrete run. -/
theorem run_exec {cfg : Cfg T} {as : List Act} {s : State T} (he : exec cfg (init cfg) as = some s) : Run cfg as s :=
  run_of_exec .nil he

theorem stream_received {cfg : Cfg T} {as : List Act} {s : State T} (h : Run cfg as s) :
    s.received.flatMap (yields cfg.decode) ++ (pendingIn s.inbox).flatMap (yields cfg.decode) = stream cfg as := by
  rw [stream, ← received_delivered h, List.flatMap_append]

theorem flatMap_received {cfg : Cfg T} {as : List Act} {s : State T} (h : Run cfg as s) (y : Message → List (Outcome (Received T))) :
    s.received.flatMap y ++ (pendingIn s.inbox).flatMap y = (delivered as).flatMap y := by
  rw [← received_delivered h, List.flatMap_append]

theorem Inv.run {R : List (Outcome (Received T)) → List (Outcome (Received T)) → Prop} {B : List (Received T) → Prop}
    {M : Message → Prop} {y : Message → List (Outcome (Received T))} {cfg : Cfg T} {as : List Act} {s : State T} (hR : Compat R) (hB : B [])
    (hj : ∀ j ∈ jobs as, Pre R B M y (j.code cfg))
    (hm : ∀ m ∈ delivered as, M m) (h : Run cfg as s) : Inv R B M y s := by
  induction h with
  | nil => exact .init hR hB
  | @snoc as s s' a h hs ih =>
    have h' := Run.snoc h hs
    refine (ih (fun j h => hj j (by simp [h])) (fun m h => hm m (by simp [h]))).step hR ?_ ?_ ?_ hs
    · intro i t m k ht hc
      have hjob := (along h (M := fun _ => True) fun _ _ => trivial).consume i t ht (by rw [hc]; simp) (by rw [hc]; simp)
      refine hj .consume ?_
      rw [jobs_append, ← task_jobs h]
      refine List.mem_append_left _ (List.mem_map.mpr ⟨t, List.mem_of_getElem? ht, hjob⟩)
    · rintro j rfl
      exact hj j (by simp [jobs])
    · intro m h
      exact hm m (mem_delivered_of_received h' h)

theorem message_inv {cfg : Cfg T} {as : List Act} {s : State T} (h : Run cfg as s) (hj : ∀ n, Job.batch n ∉ jobs as) :
    Inv Eq (fun _ => True) (fun _ => True) (yields cfg.decode) s := by
  refine .run compat_eq trivial ?_ (fun _ _ => trivial) h
  intro j hm
  cases j with
  | batch n => exact absurd hm (hj n)
  | message => exact pre_nextMessage cfg
  | consume => exact pre_nextMessage cfg

theorem single_inv {cfg : Cfg T} {as : List Act} {s : State T} (h : Run cfg as s) (hm : ∀ m ∈ delivered as, isSingle m = true) :
    Inv Eq (fun b => b = []) (fun m => isSingle m = true) (yields cfg.decode) s :=
  .run compat_eq rfl (fun j _ => pre_single cfg j) hm h

theorem prefix_of_inv {cfg : Cfg T} {as : List Act} {s : State T} (h : Run cfg as s) {B : List (Received T) → Prop}
    {M : Message → Prop} {y : Message → List (Outcome (Received T))} (hi : Inv Eq B M y s) : s.handedOut <+: (delivered as).flatMap y := by
  obtain ⟨p, hp⟩ := hi.handed
  rw [← flatMap_received h, ← hp]
  exact ⟨p ++ (pendingIn s.inbox).flatMap y, by simp⟩

/-- When a call waits with nothing in the channel, everything that arrived has been handed out. -/
theorem nothing_left {cfg : Cfg T} {as : List Act} {s : State T} (h : Run cfg as s) {B : List (Received T) → Prop}
    {M : Message → Prop} {y : Message → List (Outcome (Received T))} (hi : Inv Eq B M y s) {i : Nat} (hw : s.waiting i) (hq : s.inbox = []) :
    s.handedOut = (delivered as).flatMap y := by
  obtain ⟨t, k, ht, hc⟩ := hw
  by_cases hh : s.holder = some i
  · obtain ⟨t', c, p, h1, h2, h3, h4⟩ := hi.held i hh
    rw [ht] at h1; cases h1
    rw [hc] at h2; cases h2
    have hp : [] = p := h3.1.2
    subst hp
    rw [← flatMap_received h, hq, ← h4]
    simp [pendingIn]
  · exact (hi.pre i t _ ht hc hh).elim

/-- What a `next_message` that is not cut off by the end of the engine hands out: one thing. -/
theorem all_nextMessage (cfg : Cfg T) :
    All False (fun _ => True) (fun o => (handed o).length = 1) True (nextMessage cfg) := by
  apply all_checkAndFlow _ _ (fun h => h.elim)
  intro b
  cases b with
  | cons m rest => simp [All, handed]
  | nil =>
    refine ⟨trivial, fun m _ => ?_, fun h => h.elim⟩
    rcases unpack_yields cfg.decode m with ⟨r, rs, h1, _⟩ | ⟨h1, _⟩ | ⟨h1, _⟩ | ⟨h1, _⟩ <;> simp [h1, All, handed]

/-- A new call, run on its own while no call has the buffer and the engine is there, returns or waits with nothing to come. -/
theorem new_call {cfg : Cfg T} {as : List Act} {s : State T} (h : Run cfg as s) {B : List (Received T) → Prop} {M : Message → Prop}
    {R : List (Outcome (Received T)) → List (Outcome (Received T)) → Prop} {y : Message → List (Outcome (Received T))} (j : Job)
    (hi : ∀ {bs s'}, (∀ a ∈ bs, a = .spawn j ∨ a = .run s.tasks.length) → Run cfg (as ++ bs) s' → Inv R B M y s')
    (hf : s.free) (ho : s.isOpen = true) :
    ∃ (bs : List Act) (s' : State T) (t' : Task T) (c' : Code T), (∀ a ∈ bs, a = .run s.tasks.length) ∧
      Run cfg (as ++ .spawn j :: bs) s' ∧ s'.tasks[s.tasks.length]? = some t' ∧
      t'.stage = .running c' ∧ s'.results = s.results ∧ t'.job = j ∧ s'.isOpen = true ∧
      Leads False (fun _ => True) (j.code cfg) c' ∧
      ((∃ o, c' = .ret o) ∨ (∃ k, c' = .recv k ∧ s'.inbox = [])) := by
  have h1 : Run cfg (as ++ [.spawn j]) { s with tasks := s.tasks ++ [⟨j, .running (j.code cfg)⟩] } := .snoc h rfl
  obtain ⟨bs, s', t', c', g1, g2, g3, g4, g5, g6, g7, g8, _, g9, g10⟩ := solo (cfg := cfg) (i := s.tasks.length) (j.code cfg)
    { s with tasks := s.tasks ++ [⟨j, .running (j.code cfg)⟩] } ⟨j, .running (j.code cfg)⟩ (by simp) rfl ho (.inl hf)
  have h2 : Run cfg (as ++ .spawn j :: bs) s' := by simpa using g1.run h1
  refine ⟨bs, s', t', c', g1.acts, h2, g2, g4, g6, g3, g5, g9, ?_⟩
  rcases g10 with g | g | ⟨k, rfl, g⟩
  · exact .inl g
  · exact .inr g
  · have hI := hi (bs := .spawn j :: bs) (by
      intro a ha
      rcases List.mem_cons.mp ha with rfl | ha
      · exact .inl rfl
      · exact .inr (g1.acts a ha)) h2
    obtain ⟨t, c, p, e1, e2, e3, _⟩ := hI.held _ g
    rw [g2] at e1; cases e1
    rw [g4] at e2; cases e2
    exact e3.elim

theorem jobs_runs {i : Nat} {bs : List Act} (h : ∀ a ∈ bs, a = .run i) : jobs bs = [] ∧ delivered bs = [] := by
  induction bs with
  | nil => exact ⟨rfl, rfl⟩
  | cons b bs ih =>
    have := h b (by simp)
    subst this
    exact ih fun a ha => h a (by simp [ha])

theorem jobs_spawn {i : Nat} {j : Job} {bs : List Act} (h : ∀ a ∈ bs, a = .spawn j ∨ a = .run i) :
    (∀ x ∈ jobs bs, x = j) ∧ delivered bs = [] := by
  induction bs with
  | nil => exact ⟨by simp [jobs], rfl⟩
  | cons b bs ih =>
    have ih := ih fun a ha => h a (by simp [ha])
    rcases h b (by simp) with rfl | rfl
    · refine ⟨?_, ih.2⟩
      intro x hx
      simp only [jobs, List.mem_cons] at hx
      rcases hx with rfl | hx
      · rfl
      · exact ih.1 x hx
    · exact ih

/-- While the engine is there and nobody has the buffer, a new `next_message` returns the next thing of the stream. -/
theorem next_available {cfg : Cfg T} {as : List Act} {s : State T} (h : Run cfg as s) {B : List (Received T) → Prop}
    {M : Message → Prop}
    (hi : ∀ {bs s'}, (∀ a ∈ bs, a = .spawn .message ∨ a = .run s.tasks.length) → Run cfg (as ++ bs) s' → Inv Eq B M (yields cfg.decode) s')
    (hf : s.free) (ho : s.isOpen = true) {x : Outcome (Received T)} {rest : List (Outcome (Received T))}
    (hx : stream cfg as = s.handedOut ++ x :: rest) :
    ∃ bs s' o, (∀ a ∈ bs, a = .run s.tasks.length) ∧ Run cfg (as ++ .spawn .message :: bs) s' ∧
      s'.results = s.results ++ [(s.tasks.length, o)] ∧ handed o = [x] := by
  obtain ⟨bs, s', t', c', g1, g2, g3, g4, g5, g6, g7, g8, g9⟩ := new_call h .message hi hf ho
  have hst : ∀ bs', (∀ a ∈ bs', a = .run s.tasks.length) → stream cfg (as ++ .spawn .message :: bs') = stream cfg as := by
    intro bs' hb
    simp [stream, delivered, (jobs_runs hb).2]
  have hsp : ∀ bs', (∀ a ∈ bs', a = Act.run s.tasks.length) → ∀ a ∈ Act.spawn .message :: bs',
      a = .spawn .message ∨ a = .run s.tasks.length := by
    intro bs' hb a ha
    rcases List.mem_cons.mp ha with rfl | ha
    · exact .inl rfl
    · exact .inr (hb a ha)
  rcases g9 with ⟨o, rfl⟩ | ⟨k, rfl, hq⟩
  · have hs : step cfg s' (.run s.tasks.length) = some (finish s' s.tasks.length t' o) := by
      simp only [step, g3, runTask, g4, runCode]
    have hb : ∀ a ∈ bs ++ [Act.run s.tasks.length], a = .run s.tasks.length := by
      intro a ha
      rcases List.mem_append.mp ha with ha | ha
      · exact g1 a ha
      · simpa using ha
    have h3 : Run cfg (as ++ .spawn .message :: (bs ++ [.run s.tasks.length])) (finish s' s.tasks.length t' o) := by
      simpa using Run.snoc g2 hs
    refine ⟨_, _, o, hb, h3, by simp [finish, g5], ?_⟩
    have hl : (handed o).length = 1 := All.leads g8 (all_nextMessage cfg)
    have hp : _ <+: stream cfg _ := prefix_of_inv h3 (hi (hsp _ hb) h3)
    rw [hst _ hb, hx] at hp
    have he : (finish s' s.tasks.length t' o).handedOut = s.handedOut ++ handed o := by
      simp [finish, State.handedOut, g5]
    rw [he, List.prefix_append_right_inj] at hp
    obtain ⟨r, hr⟩ := hp
    match hho : handed o, hl with
    | [y], _ => rw [hho] at hr; simp at hr; rw [hr.1]
  · exfalso
    have : _ = stream cfg _ := nothing_left g2 (hi (hsp _ g1) g2) ⟨t', k, g3, g4⟩ hq
    rw [hst _ g1, hx, State.handedOut, g5] at this
    have := congrArg List.length this
    simp only [State.handedOut, List.length_append, List.length_cons] at this
    omega

/-- A call that is not `consume` returns at most once. -/
theorem once {cfg : Cfg T} {as : List Act} {s : State T} (h : Run cfg as s) :
    ∀ (i : Nat) (t : Task T), s.tasks[i]? = some t → t.job ≠ .consume →
      (s.results.filter fun r => r.1 == i).length ≤ 1 ∧ (t.stage ≠ .ended → (s.results.filter fun r => r.1 == i) = []) := by
  induction h with
  | nil => intro i t h; simp [init] at h
  | @snoc as s s' a h hs ih =>
    have hal := along h (M := fun _ => True) fun _ _ => trivial
    have move : ∀ {i : Nat} {t : Task T} {st : Stage T}, s.tasks[i]? = some t → t.stage ≠ .ended →
        ∀ (j : Nat) (t' : Task T), (s.goto i t st).tasks[j]? = some t' → t'.job ≠ .consume →
        (s.results.filter fun r => r.1 == j).length ≤ 1 ∧ (t'.stage ≠ .ended → (s.results.filter fun r => r.1 == j) = []) := by
      intro i t st ht hne j t' g hj
      rcases upd g with ⟨rfl, rfl⟩ | ⟨_, g⟩
      · have := (ih j t ht hj).2 hne
        rw [this]
        exact ⟨by simp, fun _ => rfl⟩
      · exact ih j t' g hj
    cases step_cases hs with
    | deliver e => exact ih
    | close => exact ih
    | skip => exact ih
    | spawn j =>
      intro i t g hj
      rw [List.getElem?_append] at g
      split at g
      · exact ih i t g hj
      · have : (s.results.filter fun r => r.1 == i) = [] := by
          rw [List.filter_eq_nil_iff]
          rintro ⟨i', o⟩ hm he
          obtain ⟨t', ht', _⟩ := hal.results i' o hm
          obtain ⟨hl, _⟩ := List.getElem?_eq_some_iff.mp ht'
          simp only [beq_iff_eq] at he
          omega
        rw [this]
        exact ⟨by simp, fun _ => rfl⟩
    | ret i t ht o hc =>
      intro j t' g hj
      simp only [finish, List.filter_append, List.length_append]
      rcases upd g with ⟨rfl, rfl⟩ | ⟨hne, g⟩
      · have h1 := (ih j t ht hj).2 (by rw [hc]; simp)
        rw [h1]
        refine ⟨by simp, fun hne => absurd ?_ hne⟩
        show after t.job o = .ended
        unfold after
        split
        · exact absurd (by assumption) hj
        · rfl
      · have h1 := ih j t' g hj
        have : ([(i, o)].filter fun r => r.1 == j) = [] := by
          simp [beq_eq_false_iff_ne.mpr (Ne.symm hne)]
        rw [this]
        simpa using h1
    | load i t ht k hc => exact move ht (by rw [hc]; simp)
    | store i t ht n k hc => exact move ht (by rw [hc]; simp)
    | add i t ht n k hc => exact move ht (by rw [hc]; simp)
    | flow i t ht n k hc => exact move ht (by rw [hc]; simp)
    | refuse i t ht n k hc => exact move ht (by rw [hc]; simp)
    | lock i t ht k hc => exact move ht (by rw [hc]; simp)
    | write i t ht b k hc => exact move ht (by rw [hc]; simp)
    | recv i t ht k hc m q hq => exact move ht (by rw [hc]; simp)
    | gone i t ht k hc => exact move ht (by rw [hc]; simp)
    | plugins i t ht m hc => exact move ht (by rw [hc]; simp)
    | loop i t ht m k hc => exact move ht (by rw [hc]; simp)
    | accepted i t ht m k hc => exact move ht (by rw [hc]; simp)
    | rejected i t ht m k hc => exact move ht (by rw [hc]; simp)
    | cancel i t ht hw => exact move ht (by intro he; rw [he] at hw; cases hw)

theorem all_nextBatch_le (cfg : Cfg T) (n : Nat) :
    All True (fun _ => True) (fun o => ∀ ms, o = .ok ms → ms.length ≤ n) True (nextBatch cfg n) := by
  apply all_checkAndFlow _ _ (fun _ => by simp)
  intro b
  show All _ _ _ _ (if _ then _ else _)
  have hb := pops_length n b
  split
  · intro ms h; cases h; omega
  · refine ⟨trivial, fun m _ => ?_, fun _ => by simp [All]⟩
    have key : ∀ ms, ((pops n b).2 ++ (pops (n - (pops n b).2.length) ms).2).length ≤ n := by
      intro ms
      rw [List.length_append, pops_length (n - _) ms]
      omega
    rcases unpack_yields cfg.decode m with ⟨r, rs, h1, _⟩ | ⟨h1, _⟩ | ⟨h1, _⟩ | ⟨h1, _⟩ <;> simp only [h1, All]
    · intro ms h; cases h; exact key _
    · intro ms h; cases h; exact key _
    · intro ms h; cases h
    · intro ms h; cases h

theorem all_nextBatch_pos (cfg : Cfg T) (n : Nat) (hn : 0 < n) :
    All True filled (fun o => ∀ ms, o = .ok ms → ms ≠ []) True (nextBatch cfg n) := by
  apply all_checkAndFlow _ _ (fun _ => by simp)
  intro b
  show All _ _ _ _ (if _ then _ else _)
  have hb := pops_length n b
  split
  · intro ms h; cases h
    apply List.ne_nil_of_length_pos
    omega
  · refine ⟨trivial, fun m hm => ?_, fun _ => by simp [All]⟩
    rcases unpack_yields cfg.decode m with ⟨r, rs, h1, _⟩ | ⟨h1, _, h2⟩ | ⟨h1, _⟩ | ⟨h1, _⟩
    · simp only [h1, All]
      intro ms h; cases h
      apply List.ne_nil_of_length_pos
      rw [List.length_append, pops_length (n - _) (r :: rs), List.length_cons]
      omega
    · exact absurd hm h2
    · simp only [h1, All]; intro ms h; cases h
    · simp only [h1, All]; intro ms h; cases h

theorem all_nextBatch_zero (cfg : Cfg T) (closed : Prop) (M : Message → Prop) :
    All closed M (fun o => o = .ok [] ∨ (closed ∧ o = .err .channelTerminated)) False (nextBatch cfg 0) := by
  apply all_checkAndFlow _ _ (fun h => .inr ⟨h, rfl⟩)
  intro b
  show All _ _ _ _ (if _ then _ else _)
  rw [if_pos (by simp [pops])]
  exact .inl rfl

/-- No call crashes on messages whose payloads can be decoded. -/
theorem all_no_panic (cfg : Cfg T) (j : Job) :
    All True (fun m => isSingle m = true ∨ (filled m ∧ decodable cfg.decode m)) (fun o => o ≠ .panic) True (j.code cfg) := by
  have key : ∀ m, (isSingle m = true ∨ (filled m ∧ decodable cfg.decode m)) →
      (∃ r rs, unpack cfg.decode m = .ok (r :: rs)) ∨ unpack cfg.decode m = .err .deserializationFailed := by
    intro m hm
    rcases unpack_yields cfg.decode m with ⟨r, rs, h1, _⟩ | ⟨h1, _, h2⟩ | ⟨h1, _⟩ | ⟨h1, _, h2, h3⟩
    · exact .inl ⟨r, rs, h1⟩
    · rcases hm with hm | hm
      · cases m with
        | single => exact absurd trivial h2
        | batch => cases hm
      · exact absurd hm.1 h2
    · exact .inr h1
    · rcases hm with hm | hm
      · rw [hm] at h3; cases h3
      · exact absurd hm.2 h2
  have hmsg : All True (fun m => isSingle m = true ∨ (filled m ∧ decodable cfg.decode m)) (fun o => o ≠ .panic) True (nextMessage cfg) := by
    apply all_checkAndFlow _ _ (fun _ => by simp)
    intro b
    cases b with
    | cons m rest => simp [All]
    | nil =>
      refine ⟨trivial, fun m hm => ?_, fun _ => by simp [All]⟩
      rcases key m hm with ⟨r, rs, h⟩ | h <;> simp [h, All]
  cases j with
  | message => exact hmsg
  | consume => exact hmsg
  | batch n =>
    apply all_checkAndFlow _ _ (fun _ => by simp)
    intro b
    show All _ _ _ _ (if _ then _ else _)
    split
    · simp [All]
    · refine ⟨trivial, fun m hm => ?_, fun _ => by simp [All]⟩
      rcases key m hm with ⟨r, rs, h⟩ | h <;> simp [h, All]

/-- The result of a call has what everything its code gets to has. -/
theorem result_all {cfg : Cfg T} {as : List Act} {s : State T} (h : Run cfg as s) {M : Message → Prop} (hm : ∀ m ∈ delivered as, M m)
    {Q : Outcome (List (Received T)) → Prop} {V : Prop} {i : Nat} {o : Outcome (List (Received T))} (hr : (i, o) ∈ s.results)
    {j : Job} (hj : s.jobOf i = some j) (ha : All True M Q V (j.code cfg)) : Q o := by
  obtain ⟨t, ht, hl⟩ := (along h hm).results i o hr
  rw [State.jobOf, ht] at hj
  cases hj
  exact All.leads hl ha

/-- A call waits only if its code allows it. -/
theorem waiting_all {cfg : Cfg T} {as : List Act} {s : State T} (h : Run cfg as s) {M : Message → Prop} (hm : ∀ m ∈ delivered as, M m)
    {Q : Outcome (List (Received T)) → Prop} {V : Prop} {i : Nat} (hw : s.waiting i)
    {j : Job} (hj : s.jobOf i = some j) (ha : All True M Q V (j.code cfg)) : V := by
  obtain ⟨t, k, ht, hc⟩ := hw
  rw [State.jobOf, ht] at hj
  cases hj
  exact (All.leads ((along h hm).running i t _ ht hc) ha).1

end Neutron.Consumer
