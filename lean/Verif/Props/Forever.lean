import Verif.Props.Service
import Verif.Spec.Forever
import Verif.Proof.AppReach
import Verif.Props.AppReach
import Verif.Proof.SysPlaced
import Verif.Props.Delivery
import Verif.Props.Routing

/-!
# Under a fair scheduler everything gets through: C143
-/

namespace Neutron.Props

open Neutron Neutron.Sys

/-- The actions of the rounds `n` to `n + k - 1`. -/
def slice (acts : Nat → List Act) (n : Nat) : Nat → List Act
  | 0 => []
  | k + 1 => slice acts n k ++ acts (n + k)

theorem slice_succ (acts : Nat → List Act) (n k : Nat) : slice acts n (k + 1) = slice acts n k ++ acts (n + k) := rfl

theorem mem_slice {acts : Nat → List Act} {n k : Nat} {a : Act} (h : a ∈ slice acts n k) : ∃ m, n ≤ m ∧ a ∈ acts m := by
  induction k with
  | zero => cases h
  | succ k ih =>
    rcases List.mem_append.mp h with h | h
    · exact ih h
    · exact ⟨n + k, by omega, h⟩

theorem inOrder_append {cfg : Cfg} {s s' s'' : State} {as bs : List Act} (h : InOrder cfg s as s') (h' : InOrder cfg s' bs s'') :
    InOrder cfg s (as ++ bs) s'' := by
  induction h' with
  | nil => rwa [List.append_nil]
  | snoc _ ho hs ih => rw [← List.append_assoc]; exact .snoc ih ho hs

/-- An execution of a list of actions can be cut anywhere. -/
theorem continues_cut {cfg : Cfg} {s s' : State} {bs : List Act} : ∀ {as : List Act}, Continues cfg s (as ++ bs) s' →
    ∃ t, Continues cfg s as t ∧ Continues cfg t bs s' := by
  intro as h
  generalize hl : as ++ bs = l at h
  induction h generalizing bs with
  | nil =>
    obtain ⟨rfl, rfl⟩ := List.append_eq_nil_iff.mp hl
    exact ⟨_, .nil trivial, .nil trivial⟩
  | snoc hp hs _ ih =>
    rename_i s1 s2 l' a _
    rcases List.eq_nil_or_concat bs with rfl | ⟨bs', b, rfl⟩
    · rw [List.append_nil] at hl
      subst hl
      exact ⟨s2, .snoc hp hs trivial, .nil trivial⟩
    · rw [List.concat_eq_append, ← List.append_assoc] at hl
      obtain ⟨h1, h2⟩ := List.append_inj' hl rfl
      cases h2
      obtain ⟨t, t1, t2⟩ := ih h1
      exact ⟨t, t1, by rw [List.concat_eq_append]; exact .snoc t2 hs trivial⟩

theorem continues_one {cfg : Cfg} {s s' : State} {a : Act} (h : Continues cfg s [a] s') : step cfg s a = some s' := by
  generalize hl : [a] = l at h
  cases h with
  | nil => cases hl
  | snoc hp hs _ =>
    rename_i s1 l' b
    obtain ⟨h1, h2⟩ := List.append_inj' (s₁ := []) hl rfl
    cases h2
    subst h1
    generalize hl : ([] : List Act) = l at hp
    cases hp with
    | nil => exact hs
    | snoc => simp at hl

theorem continues_append {cfg : Cfg} {s s' s'' : State} {as bs : List Act} (h : Continues cfg s as s') (h' : Continues cfg s' bs s'') :
    Continues cfg s (as ++ bs) s'' := by
  induction h' with
  | nil => rwa [List.append_nil]
  | snoc _ hs _ ih => rw [← List.append_assoc]; exact .snoc ih hs trivial

theorem countActs_append (p : Act → Bool) (as bs : List Act) : countActs p (as ++ bs) = countActs p as + countActs p bs := by
  simp [countActs]

theorem path_sent {cfg : Cfg} {s s' : State} {as : List Act} (h : Continues cfg s as s') : s.sent <+: s'.sent := by
  induction h with
  | nil => exact List.prefix_rfl
  | snoc _ hs _ ih => exact ih.trans (sent_prefix hs)

theorem inOrder_slice {cfg : Cfg} {σ : Nat → State} {acts : Nat → List Act} (h : Forever cfg σ acts) (n k : Nat) :
    InOrder cfg (σ n) (slice acts n k) (σ (n + k)) := by
  induction k with
  | zero => exact .nil
  | succ k ih => rw [slice_succ]; exact inOrder_append ih (h.rounds _)

theorem continues_slice {cfg : Cfg} {σ : Nat → State} {acts : Nat → List Act} (h : Forever cfg σ acts) (n k : Nat) :
    Continues cfg (σ n) (slice acts n k) (σ (n + k)) := inOrder_continues (inOrder_slice h n k)

theorem forever_reachable {cfg : Cfg} {σ : Nat → State} {acts : Nat → List Act} (h : Forever cfg σ acts) (n : Nat) : Reachable cfg (σ n) := by
  have := continues_reachable h.start (continues_slice h 0 n)
  rwa [Nat.zero_add] at this

/-- What happens again and again happens any number of times. -/
theorem often {acts : Nat → List Act} {p : Act → Bool} (h : AgainAndAgain fun n => ∃ a, a ∈ acts n ∧ p a = true) (n K : Nat) :
    ∃ k, K ≤ countActs p (slice acts n k) := by
  induction K with
  | zero => exact ⟨0, Nat.zero_le _⟩
  | succ K ih =>
    obtain ⟨k, hk⟩ := ih
    obtain ⟨m, hm, a, ha, hp⟩ := h (n + k)
    have mono : ∀ d, K ≤ countActs p (slice acts n (k + d)) := by
      intro d
      induction d with
      | zero => exact hk
      | succ d ihd =>
        show K ≤ countActs p (slice acts n (k + d + 1))
        rw [slice_succ, countActs_append]; omega
    refine ⟨m - n + 1, ?_⟩
    have e : m - n = k + (m - (n + k)) := by omega
    rw [slice_succ, countActs_append, show n + (m - n) = m by omega, e]
    have := mono (m - (n + k))
    have h1 : 0 < countActs p (acts m) := List.length_pos_iff.mpr (List.ne_nil_of_mem (List.mem_filter.mpr ⟨ha, hp⟩))
    omega

theorem not_stopped {cfg : Cfg} {σ : Nat → State} {acts : Nat → List Act} (h : Forever cfg σ acts) (hl : KeepsLooping σ) (n : Nat) :
    (σ n).mode ≠ .stopped := by
  intro hs
  obtain ⟨m, hm, hi⟩ := hl n
  have := path_stopped (continues_slice h n (m - n)) hs
  rw [show n + (m - n) = m by omega, hi] at this
  cases this

theorem split_first {α : Type} (p : α → Prop) : ∀ (l : List α) (x : α), x ∈ l → p x →
    ∃ before y after, l = before ++ y :: after ∧ p y ∧ ∀ z, z ∈ before → ¬ p z := by
  intro l
  induction l with
  | nil => intro x hx; cases hx
  | cons a l ih =>
    intro x hx hp
    by_cases ha : p a
    · exact ⟨[], a, l, rfl, ha, by intro z hz; cases hz⟩
    · rcases List.mem_cons.mp hx with rfl | hx
      · exact absurd hp ha
      · obtain ⟨b, y, c, h1, h2, h3⟩ := ih x hx hp
        refine ⟨a :: b, y, c, by rw [h1]; rfl, h2, ?_⟩
        intro z hz
        rcases List.mem_cons.mp hz with rfl | hz
        · exact ha
        · exact h3 z hz

/-- While a registered client's command waits, an idle engine can serve some client. -/
theorem someone_possible {cfg : Cfg} {s : State} (h : Reachable cfg s) (hm : s.mode = .idle) {i : Nat} (hv : i ∈ s.vec)
    (hq : (s.clients i).queue ≠ []) : Enabled cfg s Act.servesSomeone := by
  have ha : s.addrs ≠ [] := by
    have := (placed h).home (by rw [hm]; simp) (by rw [hm]; simp)
    intro h0; rw [h0] at this; cases this
  obtain ⟨bf, j, af, h1, h2, h3⟩ := split_first (fun j => (s.clients j).queue ≠ [] ∨ (s.clients j).phase = .gone) s.vec i hv (.inl hq)
  have hf : FirstReady s (.engOut j (.ok []) Trace.net0) := by
    refine ⟨bf, af, h1, fun z hz => ?_⟩
    have := h3 z hz
    constructor
    · exact Classical.byContradiction fun hh => this (.inl hh)
    · exact fun hh => this (.inr hh)
  have hj : j ∈ s.vec := by rw [h1]; simp
  have : ∃ s', step cfg s (.engOut j (.ok []) Trace.net0) = some s' := by
    simp only [step, engOut]
    rw [if_pos ⟨hm, hj, ha⟩]
    cases hqj : (s.clients j).queue with
    | nil =>
      rcases h2 with h2 | h2
      · exact absurd hqj h2
      · simp [h2]
    | cons c q => exact ⟨_, rfl⟩
  obtain ⟨s', hs⟩ := this
  exact ⟨_, s', rfl, hf, hs⟩

/-- Time passes: a fact about a continuation of `n` is a fact about a later time. -/
theorem at_time {P : Nat → Prop} {n m : Nat} (hnm : n ≤ m) (h : P (n + (m - n))) : P m := by
  rwa [show n + (m - n) = m by omega] at h

theorem continues_to {cfg : Cfg} {σ : Nat → State} {acts : Nat → List Act} (h : Forever cfg σ acts) {n m : Nat} (hnm : n ≤ m) :
    Continues cfg (σ n) (slice acts n (m - n)) (σ m) := at_time (P := fun m' => Continues cfg (σ n) (slice acts n (m - n)) (σ m')) hnm (continues_slice h n (m - n))

theorem vec_to {cfg : Cfg} {σ : Nat → State} {acts : Nat → List Act} (h : Forever cfg σ acts) {n m : Nat} (hnm : n ≤ m) : (σ n).vec <+: (σ m).vec := by
  obtain ⟨d, _, h1, _⟩ := path_regs (continues_to h hnm)
  exact ⟨d, h1.symm⟩

/-- What has been passed on is what has been taken. -/
theorem passed_handled {cfg : Cfg} {s : State} (h : Reachable cfg s) (hb : s.nClients ≤ 2 ^ 64) (hm : s.mode ≠ .stopped) {i : Nat}
    (hi : i < s.nClients) : (passedOn s.sent i).map (·.2) = (s.clients i).handled := by
  rw [((Sys.cmd h).routedEq hb hm i hi).1, routeAll_map_snd]

/-- As long as something handed over has not been passed on, something is waiting in the client's channel. -/
theorem still_waiting {cfg : Cfg} {σ : Nat → State} {acts : Nat → List Act} (h : Forever cfg σ acts) (hl : KeepsLooping σ)
    (hb : ∀ n, (σ n).nClients ≤ 2 ^ 64) {n m i : Nat} (hi : i < (σ n).nClients) (hnm : n ≤ m)
    (hno : ¬ ((σ n).clients i).submitted <+: (passedOn (σ m).sent i).map (·.2)) : ((σ m).clients i).queue ≠ [] := by
  intro hq
  apply hno
  obtain ⟨i1, i2, _, _⟩ := path_client (continues_to h hnm) hi
  have hst := not_stopped h hl m
  have hr := forever_reachable h m
  rw [passed_handled hr (hb m) hst i1]
  have := (Sys.cmd hr).submittedEq i i1 (.inr hst)
  rw [hq, List.append_nil] at this
  rw [this]
  exact i2

/-- All of finitely many clients fall silent. -/
theorem all_silent {acts : Nat → List Act} : ∀ (l : List Nat), (∀ j, j ∈ l → FallsSilent acts j) →
    ∃ n, ∀ m, n ≤ m → ∀ j, j ∈ l → ∀ a, a ∈ acts m → a.submits j = false := by
  intro l
  induction l with
  | nil => intro _; exact ⟨0, by intro m _ j hj; cases hj⟩
  | cons a l ih =>
    intro hl
    obtain ⟨n1, h1⟩ := ih fun j hj => hl j (List.mem_cons_of_mem _ hj)
    obtain ⟨n2, h2⟩ := hl a (List.mem_cons_self ..)
    refine ⟨max n1 n2, fun m hm j hj => ?_⟩
    rcases List.mem_cons.mp hj with rfl | hj
    · exact h2 m (by omega)
    · exact h1 m (by omega) j hj

theorem count_zero {p : Act → Bool} {l : List Act} (h : ∀ a, a ∈ l → p a = false) : countActs p l = 0 := by
  unfold countActs
  rw [List.length_eq_zero_iff, List.filter_eq_nil_iff]
  intro a ha
  simp [h a ha]

/-- What is in the channel of client `i` at a time after which the clients before it are silent is passed on. -/
theorem passed_silent {cfg : Cfg} {σ : Nat → State} {acts : Nat → List Act} (h : Forever cfg σ acts) (hl : KeepsLooping σ)
    (hf : Fair cfg σ acts Act.servesSomeone) (hb : ∀ n, (σ n).nClients ≤ 2 ^ 64) {n i : Nat} {before after : List Nat}
    (hv : (σ n).vec = before ++ i :: after) (hs : ∀ m, n ≤ m → ∀ j, j ∈ before → ∀ a, a ∈ acts m → a.submits j = false) :
    ∃ m, n ≤ m ∧ ((σ n).clients i).submitted <+: (passedOn (σ m).sent i).map (·.2) := by
  refine Classical.byContradiction fun hno => ?_
  have hno : ∀ m, n ≤ m → ¬ ((σ n).clients i).submitted <+: (passedOn (σ m).sent i).map (·.2) := fun m hm hh => hno ⟨m, hm, hh⟩
  have hr := forever_reachable h n
  have hiv : i ∈ (σ n).vec := by rw [hv]; simp
  have hi : i < (σ n).nClients := (wf hr).vecLt i hiv
  have hq : ∀ m, n ≤ m → ((σ m).clients i).queue ≠ [] := fun m hm => still_waiting h hl hb hi hm (hno m hm)
  have hserved := hf fun n' => by
    obtain ⟨m, hm, hid⟩ := hl (max n n')
    exact ⟨m, by omega, someone_possible (forever_reachable h m) hid ((vec_to h (by omega : n ≤ m)).subset hiv) (hq m (by omega))⟩
  have hq0 := hq n (Nat.le_refl _)
  have hql : ((σ n).clients i).queue = ((σ n).clients i).queue.dropLast ++ ((σ n).clients i).queue.getLast hq0 :: [] :=
    (List.dropLast_concat_getLast hq0).symm
  obtain ⟨k, hk⟩ := often hserved n ((before.map fun j => ((σ n).clients j).queue.length).sum + ((σ n).clients i).queue.dropLast.length + 1)
  have hz : (before.map fun j => ((σ n).clients j).queue.length + countActs (Act.submits j) (slice acts n k)) =
      before.map fun j => ((σ n).clients j).queue.length := by
    refine List.map_congr_left fun j hj => ?_
    rw [count_zero, Nat.add_zero]
    intro a ha
    obtain ⟨m, hm, ha⟩ := mem_slice ha
    exact hs m hm j hj a ha
  have hst := not_stopped h hl n
  have := C112_bounded_wait hr hv hql (inOrder_slice h n k) (by rw [hz]; omega) (hb _) (not_stopped h hl _)
  rw [passed_handled hr (hb n) hst hi, List.append_assoc, List.dropLast_concat_getLast hq0,
    (Sys.cmd hr).submittedEq i hi (.inr hst)] at this
  exact hno (n + k) (by omega) this

/-- C143. If the engine keeps looping and does not neglect its clients altogether, and the clients registered before client `i`
hand over only finitely many commands, then everything client `i` ever hands over is passed on to a connection, in order. -/
theorem C143_commands {cfg : Cfg} {σ : Nat → State} {acts : Nat → List Act} (h : Forever cfg σ acts) (hl : KeepsLooping σ)
    (hf : Fair cfg σ acts Act.servesSomeone) (hb : ∀ n, (σ n).nClients ≤ 2 ^ 64) {n i : Nat} {before after : List Nat}
    (hv : (σ n).vec = before ++ i :: after) (hs : ∀ j, j ∈ before → FallsSilent acts j) :
    ∃ m, n ≤ m ∧ ((σ n).clients i).submitted <+: (passedOn (σ m).sent i).map (·.2) := by
  obtain ⟨N, hN⟩ := all_silent before hs
  obtain ⟨r, hr⟩ := vec_to h (Nat.le_max_left n N)
  obtain ⟨m, hm, hp⟩ := passed_silent (n := max n N) (before := before) (after := after ++ r) (i := i) h hl hf hb (by rw [← hr, hv]; simp)
    fun m hm j hj => hN m (by omega) j hj
  have hi : i < (σ n).nClients := (wf (forever_reachable h n)).vecLt i (by rw [hv]; simp)
  exact ⟨m, by omega, (path_client (continues_to h (Nat.le_max_left n N)) hi).2.1.trans hp⟩

/-- C143. In particular everything the client registered first hands over is passed on, whatever the other clients do. -/
theorem C143_first {cfg : Cfg} {σ : Nat → State} {acts : Nat → List Act} (h : Forever cfg σ acts) (hl : KeepsLooping σ)
    (hf : Fair cfg σ acts Act.servesSomeone) (hb : ∀ n, (σ n).nClients ≤ 2 ^ 64) {n i : Nat} (hv : (σ n).vec.head? = some i) :
    ∃ m, n ≤ m ∧ ((σ n).clients i).submitted <+: (passedOn (σ m).sent i).map (·.2) := by
  obtain ⟨after, hv⟩ := List.head?_eq_some_iff.mp hv
  exact C143_commands (before := []) h hl hf hb hv (by intro j hj; cases hj)

/-- C143. It is also enough that, again and again, the engine is in its loop at a time when the clients registered before client `i`
have nothing waiting and are alive, provided the scheduler does not neglect client `i` itself. -/
theorem C143_in_turn {cfg : Cfg} {σ : Nat → State} {acts : Nat → List Act} (h : Forever cfg σ acts) {n i : Nat}
    (hf : Fair cfg σ acts (Act.servesClient i)) (hb : ∀ n, (σ n).nClients ≤ 2 ^ 64) {before after : List Nat}
    (hv : (σ n).vec = before ++ i :: after)
    (ht : AgainAndAgain fun m => (σ m).mode = .idle ∧ ∀ j, j ∈ before → ((σ m).clients j).queue = [] ∧ ((σ m).clients j).phase ≠ .gone) :
    ∃ m, n ≤ m ∧ ((σ n).clients i).submitted <+: (passedOn (σ m).sent i).map (·.2) := by
  have hl : KeepsLooping σ := fun n' => by obtain ⟨m, hm, hh, _⟩ := ht n'; exact ⟨m, hm, hh⟩
  refine Classical.byContradiction fun hno => ?_
  have hno : ∀ m, n ≤ m → ¬ ((σ n).clients i).submitted <+: (passedOn (σ m).sent i).map (·.2) := fun m hm hh => hno ⟨m, hm, hh⟩
  have hr := forever_reachable h n
  have hiv : i ∈ (σ n).vec := by rw [hv]; simp
  have hi : i < (σ n).nClients := (wf hr).vecLt i hiv
  have hq : ∀ m, n ≤ m → ((σ m).clients i).queue ≠ [] := fun m hm => still_waiting h hl hb hi hm (hno m hm)
  have hserved := hf fun n' => by
    obtain ⟨m, hm, hid, hbf⟩ := ht (max n n')
    refine ⟨m, by omega, .engOut i (.ok []) Trace.net0, ?_⟩
    have hp := vec_to h (by omega : n ≤ m)
    have ha : (σ m).addrs ≠ [] := by
      have := (placed (forever_reachable h m)).home (by rw [hid]; simp) (by rw [hid]; simp)
      intro h0; rw [h0] at this; cases this
    obtain ⟨r, hr⟩ := hp
    have hvm : (σ m).vec = before ++ i :: (after ++ r) := by rw [← hr, hv]; simp
    cases hqm : ((σ m).clients i).queue with
    | nil => exact absurd hqm (hq m (by omega))
    | cons c q =>
      refine ⟨finish (handleOutbound cfg (takeCmd (σ m) i c q) i c (.ok []) Trace.net0), by simp [Act.servesClient], ⟨before, after ++ r, hvm, hbf⟩, ?_⟩
      have hc : (σ m).mode = .idle ∧ i ∈ (σ m).vec ∧ (σ m).addrs ≠ [] := ⟨hid, by rw [hvm]; simp, ha⟩
      simp only [step, engOut]
      rw [if_pos hc, hqm]
  have hq0 := hq n (Nat.le_refl _)
  have hql : ((σ n).clients i).queue = ((σ n).clients i).queue.dropLast ++ ((σ n).clients i).queue.getLast hq0 :: [] :=
    (List.dropLast_concat_getLast hq0).symm
  obtain ⟨k, hk⟩ := often hserved n (((σ n).clients i).queue.dropLast.length + 1)
  have hst := not_stopped h hl n
  have := C110_client hr hi hql (continues_slice h n k) (by omega) (hb _) (not_stopped h hl _)
  rw [passed_handled hr (hb n) hst hi, List.append_assoc, List.dropLast_concat_getLast hq0,
    (Sys.cmd hr).submittedEq i hi (.inr hst)] at this
  exact hno (n + k) (by omega) this

theorem works_slice {σ : Nat → State} {acts : Nat → List Act} {b : BrokerAddress} (hw : Works σ acts b) (n k : Nat) :
    ∀ w, Act.connCmd b w ∈ slice acts n k → w = .ok := by
  intro w hm
  obtain ⟨m, _, hm⟩ := mem_slice hm
  exact hw.2 m w hm

/-- Everything handed to a working connection is taken by its task. -/
theorem processed_all {cfg : Cfg} {σ : Nat → State} {acts : Nat → List Act} (h : Forever cfg σ acts) {b : BrokerAddress} (hw : Works σ acts b)
    (hf : Fair cfg σ acts (Act.servesWrites b)) (n : Nat) :
    ∃ m, n ≤ m ∧ ((σ n).conns b).accepted <+: ((σ m).conns b).processed := by
  refine Classical.byContradiction fun hno => ?_
  have hno : ∀ m, n ≤ m → ¬ ((σ n).conns b).accepted <+: ((σ m).conns b).processed := fun m hm hh => hno ⟨m, hm, hh⟩
  have hq : ∀ m, n ≤ m → ((σ m).conns b).queue ≠ [] := by
    intro m hm hq
    apply hno m hm
    have hp := (path_writes (forever_reachable h n) (continues_to h hm) b (works_slice hw _ _)).2
    rwa [((conn (forever_reachable h m)).ok b).fifo, hq, List.append_nil] at hp
  have hserved := hf fun n' => by
    refine ⟨max n n', by omega, .connCmd b .ok, ?_⟩
    have hqm := hq (max n n') (by omega)
    have hb : b ∈ (σ (max n n')).addrs := Classical.byContradiction fun hb => by
      rw [(conn (forever_reachable h _)).unused b hb] at hqm; exact hqm rfl
    cases hc : ((σ (max n n')).conns b).queue with
    | nil => exact absurd hc hqm
    | cons c q =>
      refine ⟨(connTake (σ (max n n')) b c q).setConn b
          { (connTake (σ (max n n')) b c q).conns b with written := ((connTake (σ (max n n')) b c q).conns b).written ++ [c] },
        by simp [Act.servesWrites], trivial, ?_⟩
      simp only [step, connCmd]
      rw [if_pos ⟨hw.1 _, hb⟩, hc]
  obtain ⟨k, hk⟩ := often hserved n ((σ n).conns b).queue.length
  obtain ⟨⟨d, h1, _, h3⟩, h4⟩ := path_writes (forever_reachable h n) (continues_slice h n k) b (works_slice hw n k)
  have h3 : countActs (Act.servesWrites b) (slice acts n k) ≤ d.length := by
    rcases h3 with h3 | h3
    · exact h3
    · rw [hw.1] at h3; cases h3
  apply hno (n + k) (by omega)
  have f1 := ((conn (forever_reachable h n)).ok b).fifo
  have f2 := ((conn (forever_reachable h (n + k))).ok b).fifo
  refine List.prefix_of_prefix_length_le h4 ⟨_, f2.symm⟩ ?_
  rw [f1, h1, List.length_append, List.length_append]
  omega

/-- C143. Everything handed to the task of a working connection is written to its socket, in order, if the scheduler does not
neglect that task. -/
theorem C143_written {cfg : Cfg} {σ : Nat → State} {acts : Nat → List Act} (h : Forever cfg σ acts) {b : BrokerAddress} (hw : Works σ acts b)
    (hf : Fair cfg σ acts (Act.servesWrites b)) (n : Nat) :
    ∃ m, n ≤ m ∧ ((σ n).conns b).written ++ ((σ n).conns b).queue <+: ((σ m).conns b).written := by
  obtain ⟨m, hm, hp⟩ := processed_all h hw hf n
  refine ⟨m, hm, ?_⟩
  obtain ⟨⟨d, h1, h2, _⟩, _⟩ := path_writes (forever_reachable h n) (continues_to h hm) b (works_slice hw _ _)
  rw [((conn (forever_reachable h n)).ok b).fifo, h1, List.prefix_append_right_inj] at hp
  rw [h2, List.prefix_append_right_inj]
  exact hp

/-- C143. Everything read from a socket is handled by the engine, in order, if the engine keeps looping and does not neglect that
connection. -/
theorem C143_reads {cfg : Cfg} {σ : Nat → State} {acts : Nat → List Act} (h : Forever cfg σ acts) (hl : KeepsLooping σ) {b : BrokerAddress}
    (hf : Fair cfg σ acts (Act.servesReads b)) {n : Nat} (hv : (σ n).vec ≠ []) :
    ∃ m, n ≤ m ∧ ((σ n).conns b).reads <+: ((σ m).conns b).dispatched := by
  refine Classical.byContradiction fun hno => ?_
  have hno : ∀ m, n ≤ m → ¬ ((σ n).conns b).reads <+: ((σ m).conns b).dispatched := fun m hm hh => hno ⟨m, hm, hh⟩
  have hq : ∀ m, n ≤ m → ((σ m).conns b).outbox ≠ [] := by
    intro m hm hq
    apply hno m hm
    have hp := (path_reads (forever_reachable h n) (continues_to h hm) b).1
    rwa [((conn (forever_reachable h m)).ok b).events, hq, List.append_nil] at hp
  have hserved := hf fun n' => by
    obtain ⟨m, hm, hid⟩ := hl (max n n')
    have hvm : (σ m).vec ≠ [] := by
      intro h0
      have := vec_to h (by omega : n ≤ m)
      rw [h0] at this
      exact hv (List.prefix_nil.mp this)
    obtain ⟨s', hs'⟩ := C111_servable (forever_reachable h m) hid hvm (hq m (by omega))
    exact ⟨m, by omega, .engIn b, s', by simp [Act.servesReads], trivial, hs'⟩
  obtain ⟨k, hk⟩ := often hserved n ((σ n).conns b).outbox.length
  obtain ⟨h1, _, h3⟩ := path_reads (forever_reachable h n) (continues_slice h n k) b
  have h3 := h3.resolve_right (not_stopped h hl _)
  apply hno (n + k) (by omega)
  refine List.prefix_of_prefix_length_le h1 ⟨_, ((conn (forever_reachable h (n + k))).ok b).events.symm⟩ ?_
  rw [((conn (forever_reachable h n)).ok b).events, List.length_append]
  omega

/-- A `Connect` that has been passed on has completed, or the engine is waiting for its answer. -/
theorem connect_settled {cfg : Cfg} {s : State} (h : Reachable cfg s) {i t : Nat} {b : BrokerAddress} {cmd : ClientCmd} {c : Connect}
    (hc : (b, cmd) ∈ passedOn s.sent i) (ht : cmd.tok = some t) (ho : cmd.out = .connect c) :
    Done s t ∨ ∃ r b', s.mode = .awaitConnect r b' := by
  obtain ⟨as, hrun⟩ := h
  induction hrun with
  | nil => cases hc
  | snoc hrun hs ih =>
    rename_i as s s' a
    have hr : Reachable cfg s := ⟨as, hrun⟩
    by_cases hold : (b, cmd) ∈ passedOn s.sent i
    · rcases ih hold with hd | ⟨r, b', hm⟩
      · exact .inl (done_step hs hd)
      · rcases awaiting_step hs hm with rfl | ⟨j1, _⟩
        · exact .inl (connect_done hr hold ht ho hs)
        · exact .inr ⟨r, b', j1⟩
    · have hsame : s'.sent = s.sent → False := fun h0 => hold (by rw [← h0]; exact hc)
      cases step_cases hs with
      | startOk net hm s2 h2 => rcases h2 with ⟨rfl, hb⟩ | ⟨hb, rfl⟩ <;> exact (hsame (by simp)).elim
      | out j auth net cmd' q s'' hm hv ha hq he =>
        cases he with
        | failed => exact (hsame (by simp)).elim
        | lost c c2 b s3 hcc h2 hb hp => exact (hsame (by simp [hp.sent])).elim
        | sent k hn =>
          simp only [pushed, takeCmd_sent, passedOn_append, List.mem_append] at hc
          rcases hc with hc | hc
          · exact absurd hc hold
          · simp only [passedOn, List.filterMap_cons, List.filterMap_nil] at hc
            split at hc
            · cases hc
            · rename_i x hx
              split at hx
              · cases hx
                simp only [List.mem_singleton, Prod.mk.injEq] at hc
                rw [← hc.2] at hn
                exact absurd ho (hn c)
              · cases hx
        | connecting => exact .inr ⟨_, _, rfl⟩
      | inb x e q s'' hm ha hv hq he =>
        cases he with
        | pingFailed => exact (hsame (by simp)).elim
        | ping =>
          simp only [pushed, passedOn_append, List.mem_append] at hc
          rcases hc with hc | hc
          · exact absurd hc hold
          · cases hc
        | other => exact (hsame (by simp)).elim
      | _ => exact (hsame (by simp)).elim

theorem path_done {cfg : Cfg} {s s' : State} {as : List Act} {t : Nat} (hp : Continues cfg s as s') (hd : Done s t) : Done s' t := by
  induction hp with
  | nil => exact hd
  | snoc _ hs _ ih => exact done_step hs ih

theorem done_to {cfg : Cfg} {σ : Nat → State} {acts : Nat → List Act} (h : Forever cfg σ acts) {n m t : Nat} (hnm : n ≤ m) (hd : Done (σ n) t) :
    Done (σ m) t := path_done (continues_to h hnm) hd

theorem sent_to {cfg : Cfg} {σ : Nat → State} {acts : Nat → List Act} (h : Forever cfg σ acts) {n m : Nat} (hnm : n ≤ m) :
    (σ n).sent <+: (σ m).sent := path_sent (continues_to h hnm)

/-- A command that has been written was written in some round. -/
theorem written_when {cfg : Cfg} {σ : Nat → State} {acts : Nat → List Act} (h : Forever cfg σ acts) {b : BrokerAddress} (hw : Works σ acts b)
    {n m : Nat} (hnm : n ≤ m) {d : List ConnCmd} (hd : ((σ m).conns b).written = ((σ n).conns b).written ++ d) {c : ConnCmd} (hc : c ∈ d) :
    ∃ k d', n ≤ k ∧ k < m ∧ ((σ (k + 1)).conns b).written = ((σ k).conns b).written ++ d' ∧ c ∈ d' := by
  induction m generalizing d with
  | zero =>
    obtain rfl : n = 0 := by omega
    have : d = [] := by simpa using hd
    subst this
    cases hc
  | succ m ih =>
    by_cases he : n = m + 1
    · subst he
      have : d = [] := by simpa using hd
      subst this
      cases hc
    · have hnm' : n ≤ m := by omega
      obtain ⟨⟨d1, _, h2, _⟩, _⟩ := path_writes (forever_reachable h n) (continues_to h hnm') b (works_slice hw _ _)
      obtain ⟨⟨d2, _, h0, _⟩, _⟩ := path_writes (forever_reachable h m) (inOrder_continues (h.rounds m)) b (fun w hm => hw.2 m w hm)
      have e := hd
      rw [h0, h2, List.append_assoc, List.append_cancel_left_eq] at e
      rw [← e] at hc
      rcases List.mem_append.mp hc with hc | hc
      · obtain ⟨k, d', k1, k2, k3⟩ := ih hnm' h2 hc
        exact ⟨k, d', k1, by omega, k3⟩
      · exact ⟨m, d2, hnm', by omega, h0, hc⟩

/-- Every request has a response. -/
theorem has_answer {i : Nat} {out : Outbound} (h : ByCall i out) : ∃ x, Answers out x := by
  obtain ⟨core, call, _, hr, rfl⟩ := h
  cases call <;> simp [Client.issue, Call.expectsResponse] at hr ⊢ <;>
    first
    | exact ⟨.connected, trivial⟩
    | exact ⟨.lookupTopicResponse ⟨0, "", "", .failed, false, false⟩, trivial⟩
    | exact ⟨.success 0, trivial⟩
    | exact ⟨.producerSuccess ⟨0, ""⟩, trivial⟩
    | exact ⟨.ackReciept ⟨0, 0⟩, trivial⟩
    | exact ⟨.sendReceipt ⟨0, _, []⟩, rfl⟩

/-- A request that is passed on completes, if the broker answers. -/
theorem request_passed {cfg : Cfg} {σ : Nat → State} {acts : Nat → List Act} (h : Forever cfg σ acts) (hl : KeepsLooping σ)
    (hw : ∀ b, Works σ acts b) (hfw : ∀ b, Fair cfg σ acts (Act.servesWrites b))
    (hfr : ∀ b, Fair cfg σ acts (Act.servesReads b)) (hba : ∀ b, BrokerAnswers σ acts b) {n m i t : Nat} (hnm : n ≤ m) (hi : i ∈ (σ m).vec)
    {b : BrokerAddress} {cmd' : ClientCmd} {d : List (BrokerAddress × ConnCmd)} (hd : (σ n).sent ++ d = (σ m).sent)
    (hx : (b, cmd') ∈ passedOn d i) (ht : cmd'.tok = some t) (he : ∃ x, Answers cmd'.out x) : ∃ m', m ≤ m' ∧ Done (σ m') t := by
  have hr := forever_reachable h n
  have hpm : (b, cmd') ∈ passedOn (σ m).sent i := by rw [← hd, passedOn_append]; exact List.mem_append_right _ hx
  by_cases hcon : ∃ c, cmd'.out = .connect c
  · obtain ⟨c, ho⟩ := hcon
    obtain ⟨m', hm', hid⟩ := hl m
    refine ⟨m', by omega, ?_⟩
    rcases connect_settled (forever_reachable h m') (passed_mono (sent_to h hm') hpm) ht ho with hh | ⟨r, b', hh⟩
    · exact hh
    · rw [hid] at hh; cases hh
  · obtain ⟨⟨b', c⟩, hcd, hco⟩ := List.mem_filterMap.mp hx
    have hbo : b' = b ∧ c.origin = some (i, cmd') := by
      cases hor : c.origin with
      | none => simp [hor] at hco
      | some o =>
        obtain ⟨j, k⟩ := o
        simp only [hor] at hco
        split at hco
        · rename_i hji; cases hco; exact ⟨rfl, by rw [hji]⟩
        · cases hco
    obtain ⟨rfl, hor⟩ := hbo
    have hout : c.out = cmd'.out := by
      have hso := (Sys.cmd (forever_reachable h m)).sentOk b' c (by rw [← hd]; exact List.mem_append_right _ hcd)
      rw [hor] at hso
      obtain ⟨_, _, hso⟩ := hso
      unfold Passes at hso
      split at hso
      · rename_i c0 h0; exact absurd ⟨c0, h0⟩ hcon
      · exact hso
    obtain ⟨m2, hm2, hpr⟩ := processed_all h (hw b') (hfw b') m
    obtain ⟨⟨dd, h1, h2, _⟩, _⟩ := path_writes hr (continues_to h (Nat.le_trans hnm hm2)) b' (works_slice (hw b') _ _)
    rw [(conn (forever_reachable h m)).accepted, ← hd, sentTo_append, ← (conn hr).accepted, ((conn hr).ok b').fifo, h1,
      List.append_assoc, List.prefix_append_right_inj] at hpr
    have hcd2 : c ∈ dd := hpr.subset (List.mem_append_right _ (List.mem_filterMap.mpr ⟨(b', c), hcd, by simp⟩))
    obtain ⟨k, d', hk1, hk2, hwr, hcd'⟩ := written_when h (hw b') (Nat.le_trans hnm hm2) h2 hcd2
    have hpk : (b', cmd') ∈ passedOn (σ (k + 1)).sent i := by
      have hin : c ∈ ((σ (k + 1)).conns b').written := by rw [hwr]; exact List.mem_append_right _ hcd'
      have hacc : c ∈ sentTo (σ (k + 1)).sent b' := by
        rw [← (conn (forever_reachable h (k + 1))).accepted, ((conn (forever_reachable h (k + 1))).ok b').fifo]
        exact List.mem_append_left _ (((conn (forever_reachable h (k + 1))).ok b').written.subset hin)
      obtain ⟨⟨b2, c2⟩, hs2, he2⟩ := List.mem_filterMap.mp hacc
      simp only at he2
      split at he2
      · rename_i hb2
        cases he2
        subst hb2
        exact List.mem_filterMap.mpr ⟨(b2, c), hs2, by simp [hor]⟩
      · cases he2
    obtain ⟨m3, v, ans, inb, hm3, hact, hv, hans⟩ := hba b' k d' c hwr hcd' (by rw [hout]; exact he)
    rw [hout] at hans
    obtain ⟨p1, p2, hsplit⟩ := List.append_of_mem hact
    have hround := inOrder_continues (h.rounds m3)
    rw [hsplit] at hround
    obtain ⟨s3, c1, c2⟩ := continues_cut hround
    obtain ⟨s4, c3, c4⟩ := continues_cut (as := [.connRead b' (.command v ans)]) (bs := p2) c2
    have hs3 := continues_one c3
    have hr3' : Reachable cfg s3 := continues_reachable (forever_reachable h m3) c1
    have hst3 : s3.mode ≠ .stopped := fun hh => not_stopped h hl (m3 + 1) (path_stopped c2 hh)
    have onward : ∀ {m' : Nat}, m3 + 1 ≤ m' → Continues cfg s4 (p2 ++ slice acts (m3 + 1) (m' - (m3 + 1))) (σ m') :=
      fun hm' => continues_append c4 (continues_to h hm')
    have hne : inb ≠ .connected := by
      rintro rfl
      revert hans
      cases ho : cmd'.out with
      | connect c0 => exact absurd ⟨c0, ho⟩ hcon
      | _ => exact fun hh => hh.elim
    have hres : (s3.conns b').resolver.tryResolve inb = none := by
      cases hh : (s3.conns b').resolver.tryResolve inb with
      | none => rfl
      | some p =>
        exfalso
        unfold Resolver.tryResolve at hh
        split at hh
        · rename_i k hk
          cases hf : Resolver.find (s3.conns b').resolver k with
          | none => rw [hf] at hh; cases hh
          | some r =>
            obtain ⟨rfl, _⟩ := (rep hr3').waiting b' k r (mem_find hf)
            cases inb <;> first | (exact hne rfl) | (simp [Inbound.tryKey] at hk)
        · cases hh
    have hob : (s4.conns b').outbox = (s3.conns b').outbox ++ ⟨inb, ans⟩ :: [] := by
      simp only [step, connRead] at hs3
      split at hs3
      · simp only [hv, hres] at hs3
        simp only [Option.some.injEq] at hs3
        rw [← hs3]
        simp [setConn_conns]
      · cases hs3
    have hr3 : Reachable cfg s4 := continues_reachable hr3' c3
    have hpm3 := passed_mono (((sent_to h (by omega : k + 1 ≤ m3)).trans (path_sent c1)).trans (path_sent c3)) hpk
    refine Classical.byContradiction fun hno => ?_
    have hno : ∀ m', m3 + 1 ≤ m' → ¬ Done (σ m') t := fun m' hm' hh => hno ⟨max m m', by omega, done_to h (by omega) hh⟩
    obtain ⟨key, hk, hk'⟩ := key_of_answers hans
    have hf := (taken_pending hr3 hpm3 ht hk).resolve_right fun hd => hno (m3 + 1) (Nat.le_refl _) (path_done c4 hd)
    have hserved := hfr b' fun n' => by
      obtain ⟨m', hm', hid⟩ := hl (max (max (m3 + 1) m) n')
      have hq : ((σ m').conns b').outbox ≠ [] := by
        obtain ⟨_, pre', post', h0, _⟩ := (path_answer hr3 (onward (by omega : m3 + 1 ≤ m')) hob hk' hf).resolve_left (hno m' (by omega))
        rw [h0]; simp
      have hvm : (σ m').vec ≠ [] := by
        intro h0
        have := (vec_to h (by omega : m ≤ m')).subset hi
        rw [h0] at this
        cases this
      obtain ⟨s', hs'⟩ := C111_servable (forever_reachable h m') hid hvm hq
      exact ⟨m', by omega, .engIn b', s', by simp [Act.servesReads], trivial, hs'⟩
    obtain ⟨k, hk⟩ := often hserved (m3 + 1) ((s3.conns b').outbox.length + 1)
    exact hno (m3 + 1 + k) (by omega) (C111_answered hr3 hpm3 ht hob hans (continues_append c4 (continues_slice h (m3 + 1) k)) (by rw [countActs_append]; omega))

theorem request_done {cfg : Cfg} {σ : Nat → State} {acts : Nat → List Act} (h : Forever cfg σ acts) (hl : KeepsLooping σ)
    (hb : ∀ n, (σ n).nClients ≤ 2 ^ 64) (hw : ∀ b, Works σ acts b) (hfw : ∀ b, Fair cfg σ acts (Act.servesWrites b))
    (hfr : ∀ b, Fair cfg σ acts (Act.servesReads b)) (hba : ∀ b, BrokerAnswers σ acts b) {n i t : Nat} (hi : i ∈ (σ n).vec)
    {cmd : ClientCmd} (hc : cmd ∈ ((σ n).clients i).queue) (ht : cmd.tok = some t)
    (hp : ∃ m, n ≤ m ∧ ((σ n).clients i).submitted <+: (passedOn (σ m).sent i).map (·.2)) : ∃ m, n ≤ m ∧ Done (σ m) t := by
  obtain ⟨m, hnm, hp⟩ := hp
  have hr := forever_reachable h n
  have hst := not_stopped h hl n
  have hin : i < (σ n).nClients := (wf hr).vecLt i hi
  have he := has_answer ((req hr).issued t i cmd.out ((req hr).pending i hin cmd (by simp [hc]) t ht)).2
  obtain ⟨d, hd⟩ := sent_to h hnm
  rw [← hd, passedOn_append, List.map_append, passed_handled hr (hb n) hst hin, ← (Sys.cmd hr).submittedEq i hin (.inr hst),
    List.prefix_append_right_inj] at hp
  obtain ⟨⟨b, cmd'⟩, hx, hx'⟩ := List.mem_map.mp (hp.subset hc)
  simp only at hx'
  subst hx'
  obtain ⟨m', hm', hd'⟩ := request_passed h hl hw hfw hfr hba hnm ((vec_to h hnm).subset hi) hd hx ht he
  exact ⟨m', by omega, hd'⟩

/-- C143. Every request completes: if the engine keeps looping, the scheduler neglects neither the clients nor the connections, the
connections work, the broker answers what is written to it, and the clients registered before the caller's hand over only finitely
many commands, then a request handed over by a registered client completes. -/
theorem C143_requests {cfg : Cfg} {σ : Nat → State} {acts : Nat → List Act} (h : Forever cfg σ acts) (hl : KeepsLooping σ)
    (hb : ∀ n, (σ n).nClients ≤ 2 ^ 64) (hf : Fair cfg σ acts Act.servesSomeone) (hfw : ∀ b, Fair cfg σ acts (Act.servesWrites b))
    (hfr : ∀ b, Fair cfg σ acts (Act.servesReads b)) (hw : ∀ b, Works σ acts b) (hba : ∀ b, BrokerAnswers σ acts b) {n i t : Nat}
    {before after : List Nat} (hv : (σ n).vec = before ++ i :: after) (hs : ∀ j, j ∈ before → FallsSilent acts j)
    {cmd : ClientCmd} (hc : cmd ∈ ((σ n).clients i).queue) (ht : cmd.tok = some t) :
    ∃ m, n ≤ m ∧ Done (σ m) t :=
  request_done h hl hb hw hfw hfr hba (by rw [hv]; simp) hc ht (C143_commands h hl hf hb hv hs)

/-- C143. The same if, again and again, the clients registered before it have nothing waiting while the engine is in its loop. -/
theorem C143_requests_in_turn {cfg : Cfg} {σ : Nat → State} {acts : Nat → List Act} (h : Forever cfg σ acts)
    (hb : ∀ n, (σ n).nClients ≤ 2 ^ 64) {n i t : Nat} (hf : Fair cfg σ acts (Act.servesClient i))
    (hfw : ∀ b, Fair cfg σ acts (Act.servesWrites b)) (hfr : ∀ b, Fair cfg σ acts (Act.servesReads b)) (hw : ∀ b, Works σ acts b)
    (hba : ∀ b, BrokerAnswers σ acts b) {before after : List Nat} (hv : (σ n).vec = before ++ i :: after)
    (hi : AgainAndAgain fun m => (σ m).mode = .idle ∧ ∀ j, j ∈ before → ((σ m).clients j).queue = [] ∧ ((σ m).clients j).phase ≠ .gone)
    {cmd : ClientCmd} (hc : cmd ∈ ((σ n).clients i).queue) (ht : cmd.tok = some t) :
    ∃ m, n ≤ m ∧ Done (σ m) t :=
  request_done h (fun n' => by obtain ⟨m, hm, hh, _⟩ := hi n'; exact ⟨m, hm, hh⟩) hb hw hfw hfr hba (by rw [hv]; simp) hc ht
    (C143_in_turn h hf hb hv hi)

/-- C143. Every ping is answered: as many more pongs are written to a working connection as pings wait to be handled (and pongs to
be written), if the engine keeps looping and neither it nor the connection's task is neglected. -/
theorem C143_pings {cfg : Cfg} {σ : Nat → State} {acts : Nat → List Act} (h : Forever cfg σ acts) (hl : KeepsLooping σ) {b : BrokerAddress}
    (hw : Works σ acts b) (hfr : Fair cfg σ acts (Act.servesReads b)) (hfw : Fair cfg σ acts (Act.servesWrites b)) {n : Nat}
    (hv : (σ n).vec ≠ []) :
    ∃ m, n ≤ m ∧ pongCount ((σ n).conns b).written + pongCount ((σ n).conns b).queue + pingCount ((σ n).conns b).outbox ≤
      pongCount ((σ m).conns b).written := by
  obtain ⟨m1, hm1, hd⟩ := C143_reads h hl hfr hv
  obtain ⟨m2, hm2, hp⟩ := processed_all h hw hfw m1
  refine ⟨m2, by omega, ?_⟩
  have hr := forever_reachable h n
  have hr1 := forever_reachable h m1
  obtain ⟨⟨d, h1, h2, _⟩, _⟩ := path_writes hr (continues_to h (by omega : n ≤ m2)) b (works_slice hw _ _)
  have c0 := C28_as_many_pongs_as_pings hr (not_stopped h hl n) b
  have c1 := C28_as_many_pongs_as_pings hr1 (not_stopped h hl m1) b
  obtain ⟨x, hx⟩ := hd
  obtain ⟨y, hy⟩ := hp
  rw [((conn hr1).ok b).events, ← hx] at c1
  have f0 := ((conn hr).ok b).fifo
  have e1 := congrArg pongCount f0
  have e2 := congrArg pongCount hy
  have e3 := congrArg pongCount h1
  have e4 := congrArg pongCount h2
  simp only [pongCount, pingCount, List.countP_append] at *
  omega

/-- What a path adds to the commands read from a socket. -/
theorem path_socket {cfg : Cfg} {s s' : State} {as : List Act} (h : Reachable cfg s) (hp : Continues cfg s as s') (b : BrokerAddress) :
    ∃ d, (s'.conns b).reads = (s.conns b).reads ++ d ∧ (messagesIn d).Sublist (socketMessages as b) := by
  induction hp with
  | nil => exact ⟨[], by simp, by simp [messagesIn]⟩
  | snoc hp' hs _ ih =>
    rename_i s1 s2 as a _
    obtain ⟨d, h1, h2⟩ := ih
    rw [socketMessages_append]
    rcases step_reads (conn (continues_reachable h hp')) hs b with ⟨h3, _⟩ | ⟨v, ans, inb, rfl, hv, ⟨h3, _⟩ | ⟨h3, _⟩⟩
    · exact ⟨d, by rw [h3, h1], h2.trans (List.sublist_append_left ..)⟩
    · refine ⟨d ++ [⟨inb, ans⟩], by rw [h3, h1, List.append_assoc], ?_⟩
      rw [messagesIn_append]
      have he : messagesIn [⟨inb, ans⟩] = socketMessages [.connRead b (.command v ans)] b := by
        unfold messagesIn socketMessages
        simp only [List.filterMap_cons, List.filterMap_nil, hv, if_true]
        cases inb <;> rfl
      rw [he]
      exact h2.append (List.Sublist.refl _)
    · exact ⟨d, by rw [h3, h1], h2.trans (List.sublist_append_left ..)⟩

theorem path_append' {cfg : Cfg} {P : State → Prop} {s s' s'' : State} {as bs : List Act} (h : Path cfg P s as s') (h' : Path cfg P s' bs s'') :
    Path cfg P s (as ++ bs) s'' := by
  induction h' with
  | nil => rwa [List.append_nil]
  | snoc _ hs hp ih => rw [← List.append_assoc]; exact .snoc ih hs hp

/-- C143. Every message is delivered: while a consumer stays on the connection of `b`, what was read for it from that socket gets
into its channel, in order. -/
theorem C143_messages {cfg : Cfg} {σ : Nat → State} {acts : Nat → List Act} (h : Forever cfg σ acts) (hl : KeepsLooping σ) {b : BrokerAddress}
    {n i : Nat} (ha : ∀ m, n ≤ m → Path cfg (Attached i b) (σ m) (acts m) (σ (m + 1))) (hfr : Fair cfg σ acts (Act.servesReads b)) :
    ∃ m, n ≤ m ∧ received (σ n) i ++ underway (σ n) i b <+: received (σ m) i := by
  have hat : ∀ m, n ≤ m → Attached i b (σ m) := fun m hm => path_start (ha m hm)
  have hv : (σ n).vec ≠ [] := by
    intro h0
    have := (hat n (Nat.le_refl _)).1
    rw [h0] at this
    cases this
  obtain ⟨m, hm, hd⟩ := C143_reads h hl hfr hv
  refine ⟨m, hm, ?_⟩
  have hp : ∀ k, Path cfg (Attached i b) (σ n) (slice acts n k) (σ (n + k)) := by
    intro k
    induction k with
    | zero => exact .nil (hat _ (by omega))
    | succ k ih => rw [slice_succ]; exact path_append' ih (ha _ (by omega))
  have hpm := at_time (P := fun m' => Path cfg (Attached i b) (σ n) (slice acts n (m - n)) (σ m')) hm (hp (m - n))
  have hr := forever_reachable h n
  have hrm := forever_reachable h m
  have hc := C25_exactly_once_in_order hr hpm
  obtain ⟨D, h1, h2⟩ := path_socket hr (continues_to h hm) b
  obtain ⟨x, hx⟩ := hd
  have hD : D = x ++ ((σ m).conns b).outbox := by
    have := ((conn hrm).ok b).events
    rw [h1, ← hx, List.append_assoc] at this
    exact List.append_cancel_left this
  have hlen : (underway (σ m) i b).length ≤ (addressedTo (UInt64.ofNat i) (socketMessages (slice acts n (m - n)) b)).length := by
    have hid := (wf hrm).ids i ((wf hrm).vecLt i (hat m hm).1)
    have h3 := (h2.filter (fun m => decide (m.consumerId = UInt64.ofNat i))).length_le
    rw [hD, messagesIn_append, List.filter_append, List.length_append] at h3
    unfold underway addressedTo
    rw [hid]
    omega
  refine List.prefix_of_prefix_length_le (l₃ := received (σ m) i ++ underway (σ m) i b) ?_ (List.prefix_append ..) ?_
  · rw [hc]; exact List.prefix_append ..
  · have := congrArg List.length hc
    simp only [List.length_append] at this ⊢
    omega

end Neutron.Props
