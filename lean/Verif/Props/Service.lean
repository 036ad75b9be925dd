import Verif.Proof.SysService
import Verif.Spec.Traces
import Verif.Props.Concurrent
import Verif.Props.Rest
import Verif.Proof.World
import Verif.Proof.WorldLog

/-!
# What a request has to wait for

The engine takes one thing at a time, and which one it takes is not fair (see C41).  These theorems say what *is* guaranteed: a
command, an event or a request is held up only by what was put in the same channel before it, so that it is through once its
channel has been served that many times, however much other traffic there is.
-/

namespace Neutron.Props

open Neutron Neutron.Sys

theorem prefix_of_count {α : Type} {H H' S l : List α} {pre : List α} {x : α} (h1 : H <+: H') (h2 : H' <+: S) (h3 : H ++ pre ++ [x] <+: S)
    (hn : H.length + pre.length < H'.length) : H ++ pre ++ [x] <+: H' := by
  refine List.prefix_of_prefix_length_le h3 h2 ?_
  simp only [List.length_append, List.length_singleton]
  omega

/-- Serving client `i` repeatedly. -/
theorem path_client {cfg : Cfg} {s s' : State} {as : List Act} (hp : Continues cfg s as s') {i : Nat} (hi : i < s.nClients) :
    i < s'.nClients ∧ (s.clients i).submitted <+: (s'.clients i).submitted ∧ (s.clients i).handled <+: (s'.clients i).handled ∧
    ((s.clients i).handled.length + countActs (Act.servesClient i) as ≤ (s'.clients i).handled.length ∨ s'.mode = .stopped) := by
  induction hp with
  | nil => exact ⟨hi, List.prefix_rfl, List.prefix_rfl, .inl (by simp [countActs])⟩
  | snoc _ hs _ ih =>
    rename_i a _ _
    obtain ⟨i1, i2, i3, i4⟩ := ih
    obtain ⟨j1, j2, j3⟩ := served_client hs i1
    refine ⟨Nat.lt_of_lt_of_le i1 (nClients_mono hs), i2.trans j1, i3.trans j2, ?_⟩
    rcases i4 with i4 | i4
    · rw [countActs_snoc]
      by_cases ha : a.servesClient i = true
      · rcases j3 ha with j3 | j3
        · exact .inl (by rw [if_pos ha]; omega)
        · exact .inr j3
      · have := j2.length_le
        exact .inl (by rw [if_neg ha]; omega)
    · exact .inr (stopped_step hs i4)

/-- C110. A command a client has handed over is passed on to a connection as soon as the engine has served that client once for
every command the client had handed over before it and once for the command itself — whatever else happens in between: other
clients, other connections, broker traffic.  Everything handed over earlier by this client is passed on before it, in order. -/
theorem C110_client {cfg : Cfg} {s s' : State} {as : List Act} {i : Nat} {pre post : List ClientCmd} {cmd : ClientCmd}
    (h : Reachable cfg s) (hi : i < s.nClients) (hq : (s.clients i).queue = pre ++ cmd :: post)
    (hp : Continues cfg s as s') (hn : pre.length < countActs (Act.servesClient i) as)
    (hb : s'.nClients ≤ 2 ^ 64) (hm : s'.mode ≠ .stopped) :
    (passedOn s.sent i).map (·.2) ++ pre ++ [cmd] <+: (passedOn s'.sent i).map (·.2) := by
  have hr := continues_reachable h hp
  have hm0 : s.mode ≠ .stopped := by
    intro h0
    refine hm ?_
    clear hn hb hr hm
    induction hp with
    | nil => exact h0
    | snoc _ hs _ ih => exact stopped_step hs ih
  have hb0 : s.nClients ≤ 2 ^ 64 := by
    refine Nat.le_trans ?_ hb
    clear hn hb hr hm
    induction hp with
    | nil => exact Nat.le_refl _
    | snoc _ hs _ ih => exact Nat.le_trans ih (nClients_mono hs)
  obtain ⟨i1, i2, i3, i4⟩ := path_client hp hi
  rw [((Sys.cmd h).routedEq hb0 hm0 i hi).1, ((Sys.cmd hr).routedEq hb hm i i1).1, routeAll_map_snd, routeAll_map_snd]
  have e1 := (Sys.cmd h).submittedEq i hi (.inr hm0)
  have e2 := (Sys.cmd hr).submittedEq i i1 (.inr hm)
  refine prefix_of_count i3 (S := (s'.clients i).submitted) (l := []) ⟨_, e2⟩ ?_ ?_
  · refine List.IsPrefix.trans ⟨post, ?_⟩ i2
    rw [← e1, hq]; simp
  · rcases i4 with i4 | i4
    · omega
    · exact absurd i4 hm

/-- Serving registrations repeatedly. -/
theorem path_regs {cfg : Cfg} {s s' : State} {as : List Act} (hp : Continues cfg s as s') :
    (∃ d l, s'.vec = s.vec ++ d ∧ s.regQueue ++ l = d ++ s'.regQueue ∧ countActs Act.servesRegs as = d.length) := by
  induction hp with
  | nil => exact ⟨[], [], by simp [countActs]⟩
  | snoc hp' hs _ ih =>
    rename_i s1 s2 as a _
    obtain ⟨d, l, h1, h2, h3⟩ := ih
    rw [countActs_snoc]
    have same : a.servesRegs = false → s2.vec = s1.vec → (∃ l', s2.regQueue = s1.regQueue ++ l') →
        (∃ d l, s2.vec = s.vec ++ d ∧ s.regQueue ++ l = d ++ s2.regQueue ∧ countActs Act.servesRegs as + (if a.servesRegs then 1 else 0) = d.length) := by
      rintro ha hv ⟨l', hr⟩
      exact ⟨d, l ++ l', by rw [hv, h1], by rw [hr, ← List.append_assoc, h2, List.append_assoc], by simp [ha, h3]⟩
    have pop : ∀ i q, s1.regQueue = i :: q → s2.regQueue = q → s2.vec = s1.vec ++ [i] →
        (∃ d l, s2.vec = s.vec ++ d ∧ s.regQueue ++ l = d ++ s2.regQueue ∧ countActs Act.servesRegs as + 1 = d.length) := by
      intro i q e1 e2 e3
      exact ⟨d ++ [i], l, by rw [e3, h1, List.append_assoc], by rw [h2, e1, e2]; simp, by simp [h3]⟩
    cases step_cases hs with
    | startOk net hm s2 h2 => rcases h2 with ⟨rfl, hb⟩ | ⟨hb, rfl⟩ <;> exact same rfl (by simp) ⟨[], by simp⟩
    | out j auth net cmd q s'' hm hv ha hq he =>
      cases he with
      | failed => exact same rfl (by simp) ⟨[], by simp⟩
      | lost c c2 b s3 hcc h2 hb hp => exact same rfl (by simp [hp.vec]) ⟨[], by simp [hp.regQueue]⟩
      | sent => exact same rfl (by simp) ⟨[], by simp⟩
      | connecting c c2 b s3 k hcc h2 hb hp hj ha hl => exact same rfl (by simp [hp.vec]) ⟨[], by simp [hp.regQueue]⟩
    | inb b e q s'' hm ha hv hq he => cases he <;> exact same rfl (by simp) ⟨[], by simp⟩
    | reg i q hm hc hq hl => exact pop i q hq rfl rfl
    | regFail i q hm hc hq hl => exact pop i q hq rfl rfl
    | sendReg i => exact same rfl (by simp) ⟨[i], by simp⟩
    | _ => exact same rfl (by simp) ⟨[], by simp⟩

/-- A client's submissions, counted. -/
theorem submitted_count {cfg : Cfg} {s s' : State} {a : Act} (hs : step cfg s a = some s') {i : Nat} (hi : i < s.nClients) :
    (s'.clients i).submitted.length ≤ (s.clients i).submitted.length + (if a.submits i then 1 else 0) := by
  rcases client_step hs (Nat.lt_of_lt_of_le hi (nClients_mono hs)) with ⟨_, hc⟩ | ⟨rfl, _⟩
  · cases hc with
    | same _ _ hb => rw [hb]; exact Nat.le_add_right _ _
    | began _ _ _ _ hb => rw [hb]; exact Nat.le_add_right _ _
    | submitted k cmd ha _ _ _ hb => rw [hb, ha]; simp [Act.submits]
    | refused _ _ _ _ _ _ hb => rw [hb]; exact Nat.le_add_right _ _
  · exact absurd hi (Nat.lt_irrefl _)

theorem path_nClients {cfg : Cfg} {s s' : State} {as : List Act} (hp : Continues cfg s as s') : s.nClients ≤ s'.nClients := by
  induction hp with
  | nil => exact Nat.le_refl _
  | snoc _ hs _ ih => exact Nat.le_trans ih (nClients_mono hs)

theorem path_stopped {cfg : Cfg} {s s' : State} {as : List Act} (hp : Continues cfg s as s') (hm : s.mode = .stopped) : s'.mode = .stopped := by
  induction hp with
  | nil => exact hm
  | snoc _ hs _ ih => exact stopped_step hs ih

theorem inOrder_continues {cfg : Cfg} {s s' : State} {as : List Act} (hp : InOrder cfg s as s') : Continues cfg s as s' := by
  induction hp with
  | nil => exact .nil trivial
  | snoc _ _ hs ih => exact .snoc ih hs trivial

theorem path_submits {cfg : Cfg} {s s' : State} {as : List Act} (hp : Continues cfg s as s') {i : Nat} (hi : i < s.nClients) :
    (s'.clients i).submitted.length ≤ (s.clients i).submitted.length + countActs (Act.submits i) as := by
  induction hp with
  | nil => simp [countActs]
  | snoc hp' hs _ ih =>
    have := submitted_count hs (Nat.lt_of_lt_of_le hi (path_nClients hp'))
    rw [countActs_snoc]; omega

theorem vec_prefix {cfg : Cfg} {s s' : State} {as : List Act} (hp : Continues cfg s as s') : s.vec <+: s'.vec := by
  obtain ⟨d, _, h, _⟩ := path_regs hp
  rw [h]; exact List.prefix_append ..

/-- What the clients in a list have been served. -/
def servedSum (s : State) (l : List Nat) : Nat := (l.map fun j => (s.clients j).handled.length).sum

theorem sum_le {α : Type} {l : List α} {f g : α → Nat} (h : ∀ x, x ∈ l → f x ≤ g x) : (l.map f).sum ≤ (l.map g).sum := by
  induction l with
  | nil => exact Nat.le_refl _
  | cons a l ih =>
    simp only [List.map_cons, List.sum_cons]
    exact Nat.add_le_add (h a (List.mem_cons_self ..)) (ih fun x hx => h x (List.mem_cons_of_mem _ hx))

theorem sum_add {α : Type} {l : List α} {f g : α → Nat} : (l.map fun x => f x + g x).sum = (l.map f).sum + (l.map g).sum := by
  induction l with
  | nil => rfl
  | cons a l ih => simp only [List.map_cons, List.sum_cons, ih]; omega

/-- In the order in which the engine looks at its clients, a service goes to a client registered before `i`, or to `i`, as long as
`i` has something to be served. -/
theorem service_goes {cfg : Cfg} {s s' : State} {as : List Act} (h : Reachable cfg s) (hp : InOrder cfg s as s') {i : Nat}
    {before after : List Nat} (hv : s.vec = before ++ i :: after) {pre post : List ClientCmd} {cmd : ClientCmd}
    (hq : (s.clients i).queue = pre ++ cmd :: post) :
    s'.mode = .stopped ∨ (s.clients i).handled.length + pre.length < (s'.clients i).handled.length ∨
    countActs Act.servesSomeone as + (s.clients i).handled.length + servedSum s before ≤
      (s'.clients i).handled.length + servedSum s' before := by
  have hw := wf h
  have hil : i < s.nClients := hw.vecLt i (by rw [hv]; simp)
  have hjl : ∀ j, j ∈ before → j < s.nClients := fun j hj => hw.vecLt j (by rw [hv]; simp [hj])
  have hnd : (before ++ i :: after).Nodup := by rw [← hv]; exact (List.nodup_append.mp hw.nodup).1
  induction hp with
  | nil => exact .inr (.inr (by simp [countActs]))
  | snoc hp' ho hs ih =>
    rename_i s1 s2 as a
    have hp1 := inOrder_continues hp'
    have hr1 := continues_reachable h hp1
    have hn1 := path_nClients hp1
    have mono : ∀ j, j < s.nClients → (s1.clients j).handled.length ≤ (s2.clients j).handled.length := fun j hj =>
      (served_client hs (Nat.lt_of_lt_of_le hj hn1)).2.1.length_le
    rcases ih with ih | ih | ih
    · exact .inl (stopped_step hs ih)
    · exact .inr (.inl (Nat.lt_of_lt_of_le ih (mono i hil)))
    by_cases hx : a.servesSomeone = true
    · cases a <;> simp only [Act.servesSomeone, Bool.false_eq_true] at hx
      rename_i j auth net
      by_cases hst : s1.mode = .stopped
      · exact .inl (stopped_step hs hst)
      obtain ⟨b1, a1, hv1, hempty⟩ := ho
      obtain ⟨more, hmore⟩ := vec_prefix hp1
      have hj1 : j < s1.nClients := (wf hr1).vecLt j (by rw [hv1]; simp)
      have hserve := (served_client hs hj1).2.2 (by simp [Act.servesClient])
      rcases hserve with hserve | hstop
      swap
      · exact .inl hstop
      rw [countActs_snoc]
      simp only [Act.servesSomeone, if_true]
      by_cases hji : j = i
      · subst hji
        have hs2 : servedSum s1 before ≤ servedSum s2 before := sum_le fun x hx => mono x (hjl x hx)
        exact .inr (.inr (by omega))
      by_cases hjb : j ∈ before
      · have hsum : servedSum s2 before + (s1.clients j).handled.length = servedSum s1 before + (s2.clients j).handled.length := by
          refine sum_update (f := fun j => (s1.clients j).handled.length) (g := fun j => (s2.clients j).handled.length)
            (List.nodup_append.mp hnd).1 hjb ?_
          intro x hx hxj
          show (s2.clients x).handled.length = (s1.clients x).handled.length
          rcases handled_step hs (Nat.lt_of_lt_of_le (hjl x hx) (Nat.le_trans hn1 (nClients_mono hs))) with ⟨_, h1⟩ | h1 | ⟨_, _, _, _, _, h1, _⟩
          · rw [h1]
          · have := mono x (hjl x hx)
            rw [h1] at this ⊢
            exact Nat.le_antisymm (Nat.zero_le _) this
          · cases h1; exact absurd rfl hxj
        have := mono i hil
        exact .inr (.inr (by omega))
      · -- another client: then `i` has nothing left
        right; left
        have hib : i ∈ b1 := by
          have he : before ++ i :: (after ++ more) = b1 ++ j :: a1 := by rw [← hv1, ← hmore, hv]; simp
          rcases List.append_eq_append_iff.mp he with ⟨c, hc1, hc2⟩ | ⟨c, hc1, hc2⟩
          · cases c with
            | nil => simp only [List.nil_append, List.cons.injEq] at hc2; exact absurd hc2.1.symm hji
            | cons y c =>
              simp only [List.cons_append, List.cons.injEq] at hc2
              rw [hc1, hc2.1]; simp
          · cases c with
            | nil => simp only [List.nil_append, List.cons.injEq] at hc2; exact absurd hc2.1 hji
            | cons y c =>
              simp only [List.cons_append, List.cons.injEq] at hc2
              exact absurd (by rw [hc1, hc2.1]; simp) hjb
        have hq1 := (hempty i hib).1
        obtain ⟨_, i2, _, _⟩ := path_client hp1 hil
        have e1 := (Sys.cmd hr1).submittedEq i (Nat.lt_of_lt_of_le hil hn1) (.inr hst)
        have hm0 : s.mode ≠ .stopped := fun h0 => hst (path_stopped hp1 h0)
        have e0 := (Sys.cmd h).submittedEq i hil (.inr hm0)
        rw [hq1, List.append_nil] at e1
        have l1 := i2.length_le
        rw [← e1, ← e0, hq] at l1
        simp only [List.length_append, List.length_cons] at l1
        have := mono i hil
        omega
    · rw [countActs_snoc, if_neg hx]
      have hs2 : servedSum s1 before ≤ servedSum s2 before := sum_le fun x hx => mono x (hjl x hx)
      have := mono i hil
      exact .inr (.inr (by omega))

/-- C112. The engine looks at its clients in the order of their registration.  So a command waits at most for what the clients
registered before its own hand over, and what its own client handed over before: once the engine has served that many commands, and
one more, it has been passed on.  (For the first client that is: for its own earlier commands only.) -/
theorem C112_bounded_wait {cfg : Cfg} {s s' : State} {as : List Act} {i : Nat} {before after : List Nat}
    {pre post : List ClientCmd} {cmd : ClientCmd} (h : Reachable cfg s) (hv : s.vec = before ++ i :: after)
    (hq : (s.clients i).queue = pre ++ cmd :: post) (hp : InOrder cfg s as s')
    (hn : (before.map fun j => (s.clients j).queue.length + countActs (Act.submits j) as).sum + pre.length <
      countActs Act.servesSomeone as)
    (hb : s'.nClients ≤ 2 ^ 64) (hm : s'.mode ≠ .stopped) :
    (passedOn s.sent i).map (·.2) ++ pre ++ [cmd] <+: (passedOn s'.sent i).map (·.2) := by
  have hp1 := inOrder_continues hp
  have hr := continues_reachable h hp1
  have hw := wf h
  have hil : i < s.nClients := hw.vecLt i (by rw [hv]; simp)
  have hjl : ∀ j, j ∈ before → j < s.nClients := fun j hj => hw.vecLt j (by rw [hv]; simp [hj])
  have hm0 : s.mode ≠ .stopped := fun h0 => hm (path_stopped hp1 h0)
  have hnc := path_nClients hp1
  obtain ⟨i1, i2, i3, _⟩ := path_client hp1 hil
  rw [((Sys.cmd h).routedEq (Nat.le_trans hnc hb) hm0 i hil).1, ((Sys.cmd hr).routedEq hb hm i i1).1, routeAll_map_snd, routeAll_map_snd]
  have e1 := (Sys.cmd h).submittedEq i hil (.inr hm0)
  have e2 := (Sys.cmd hr).submittedEq i i1 (.inr hm)
  refine prefix_of_count i3 (S := (s'.clients i).submitted) (l := []) ⟨_, e2⟩ ?_ ?_
  · refine List.IsPrefix.trans ⟨post, ?_⟩ i2
    rw [← e1, hq]; simp
  rcases service_goes h hp hv hq with hg | hg | hg
  · exact absurd hg hm
  · exact hg
  · have hsum : servedSum s' before ≤ servedSum s before + (before.map fun j => (s.clients j).queue.length + countActs (Act.submits j) as).sum := by
      unfold servedSum
      rw [← sum_add]
      refine sum_le fun j hj => ?_
      have hjn := hjl j hj
      have a1 := path_submits hp1 hjn
      have a2 := congrArg List.length ((Sys.cmd h).submittedEq j hjn (.inr hm0))
      have a3 := congrArg List.length ((Sys.cmd hr).submittedEq j (Nat.lt_of_lt_of_le hjn hnc) (.inr hm))
      simp only [List.length_append] at a2 a3
      omega
    omega

/-- Serving the writes of a connection repeatedly, all writes succeeding. -/
theorem path_writes {cfg : Cfg} {s s' : State} {as : List Act} (h : Reachable cfg s) (hp : Continues cfg s as s') (b : BrokerAddress)
    (hw : ∀ w, Act.connCmd b w ∈ as → w = .ok) :
    (∃ d, (s'.conns b).processed = (s.conns b).processed ++ d ∧ (s'.conns b).written = (s.conns b).written ++ d ∧
      (countActs (Act.servesWrites b) as ≤ d.length ∨ (s'.conns b).alive = false)) ∧
    (s.conns b).accepted <+: (s'.conns b).accepted := by
  induction hp with
  | nil => exact ⟨⟨[], by simp [countActs]⟩, List.prefix_rfl⟩
  | snoc hp' hs _ ih =>
    rename_i s1 s2 as a _
    obtain ⟨⟨d, h1, h2, h3⟩, h4⟩ := ih fun w hm => hw w (List.mem_append_left _ hm)
    have hr := continues_reachable h hp'
    have hacc : (s1.conns b).accepted <+: (s2.conns b).accepted := by
      rw [(conn hr).accepted, (conn (Reachable.step hr hs)).accepted]
      obtain ⟨l, hl⟩ := sent_prefix hs
      rw [← hl]
      simp only [sentTo, List.filterMap_append]
      exact List.prefix_append ..
    refine ⟨?_, h4.trans hacc⟩
    by_cases ha : ∀ w, a ≠ .connCmd b w
    · obtain ⟨j1, j2⟩ := processed_step hr hs b ha
      refine ⟨d, by rw [j1, h1], by rw [j2, h2], ?_⟩
      rcases h3 with h3 | h3
      · left
        rw [countActs_snoc, if_neg]
        · exact h3
        · intro hx
          cases a <;> simp [Act.servesWrites] at hx
          subst hx
          exact absurd rfl (ha _)
      · exact .inr (World.dead_step hr hs h3)
    · simp only [ne_eq, Classical.not_forall, Classical.not_not] at ha
      obtain ⟨w, rfl⟩ := ha
      obtain rfl := hw w (List.mem_append_right _ (List.mem_singleton.mpr rfl))
      cases hq : (s1.conns b).queue with
      | nil =>
        have hd : (s2.conns b).alive = false ∧ (s2.conns b).processed = (s1.conns b).processed ∧
            (s2.conns b).written = (s1.conns b).written := by
          cases step_cases hs with
          | cmdEnd => simp [endConn_conns]
          | cmdOk _ c q hl hb hq' => rw [hq] at hq'; cases hq'
        exact ⟨d, by rw [hd.2.1, h1], by rw [hd.2.2, h2], .inr hd.1⟩
      | cons c q =>
        obtain ⟨j1, j2⟩ := cmd_step hs hq
        refine ⟨d ++ [c], by rw [j1, h1, List.append_assoc], by rw [j2, h2]; simp, ?_⟩
        rcases h3 with h3 | h3
        · left
          rw [countActs_snoc]
          simp [Act.servesWrites]; exact h3
        · exact .inr (World.dead_step hr hs h3)

/-- C110, on the connection: a command handed to a connection is written to its socket as soon as the connection's task has
taken as many commands as were waiting before it, and itself; unless the connection has ended. -/
theorem C110_connection {cfg : Cfg} {s s' : State} {as : List Act} {b : BrokerAddress} {pre post : List ConnCmd} {c : ConnCmd}
    (h : Reachable cfg s) (hq : (s.conns b).queue = pre ++ c :: post) (hp : Continues cfg s as s')
    (hn : pre.length < countActs (Act.servesWrites b) as) (hw : ∀ w, Act.connCmd b w ∈ as → w = .ok)
    (hl : (s'.conns b).alive = true) :
    (s.conns b).written ++ pre ++ [c] <+: (s'.conns b).written := by
  obtain ⟨⟨d, h1, h2, h3⟩, h4⟩ := path_writes h hp b hw
  have f1 := ((conn h).ok b).fifo
  have f2 := ((conn (continues_reachable h hp)).ok b).fifo
  have h3 : countActs (Act.servesWrites b) as ≤ d.length := by
    rcases h3 with h3 | h3
    · exact h3
    · rw [hl] at h3; cases h3
  rw [h2, List.append_assoc]
  refine (List.prefix_append_right_inj _).mpr ?_
  rw [f1, f2, h1, List.append_assoc, List.prefix_append_right_inj, hq] at h4
  refine List.prefix_of_prefix_length_le (l₃ := d ++ (s'.conns b).queue) (List.IsPrefix.trans ⟨post, by simp⟩ h4) (List.prefix_append ..) ?_
  simp only [List.length_append, List.length_singleton]
  omega

/-- Serving what is read from a connection repeatedly. -/
theorem path_reads {cfg : Cfg} {s s' : State} {as : List Act} (h : Reachable cfg s) (hp : Continues cfg s as s') (b : BrokerAddress) :
    (s.conns b).reads <+: (s'.conns b).reads ∧ (s.conns b).dispatched <+: (s'.conns b).dispatched ∧
    ((s.conns b).dispatched.length + countActs (Act.servesReads b) as ≤ (s'.conns b).dispatched.length ∨ s'.mode = .stopped) := by
  induction hp with
  | nil => exact ⟨List.prefix_rfl, List.prefix_rfl, .inl (by simp [countActs])⟩
  | snoc hp' hs _ ih =>
    rename_i a _
    obtain ⟨i2, i3, i4⟩ := ih
    obtain ⟨j1, j2, j3⟩ := served_reads (continues_reachable h hp') hs b
    refine ⟨i2.trans j1, i3.trans j2, ?_⟩
    rcases i4 with i4 | i4
    · rw [countActs_snoc]
      by_cases ha : a.servesReads b = true
      · rcases j3 ha with j3 | j3
        · exact .inl (by rw [if_pos ha]; omega)
        · exact .inr j3
      · have := j2.length_le
        exact .inl (by rw [if_neg ha]; omega)
    · exact .inr (stopped_step hs i4)

/-- C110, in the other direction: what was read from a socket is handled by the engine as soon as it has served that connection
once for every command read before it and once for itself. -/
theorem C110_reads {cfg : Cfg} {s s' : State} {as : List Act} {b : BrokerAddress} {pre post : List Event} {e : Event}
    (h : Reachable cfg s) (hq : (s.conns b).outbox = pre ++ e :: post) (hp : Continues cfg s as s')
    (hn : pre.length < countActs (Act.servesReads b) as) (hm : s'.mode ≠ .stopped) :
    (s.conns b).dispatched ++ pre ++ [e] <+: (s'.conns b).dispatched := by
  obtain ⟨i2, i3, i4⟩ := path_reads h hp b
  refine prefix_of_count i3 (S := (s'.conns b).reads) (l := []) ⟨_, ((conn (continues_reachable h hp)).ok b).events.symm⟩ ?_ ?_
  · refine List.IsPrefix.trans ⟨post, ?_⟩ i2
    rw [((conn h).ok b).events, hq]; simp
  · rcases i4 with i4 | i4
    · omega
    · exact absurd i4 hm

/-- C110, for registrations: a client waiting to be registered is known to the engine as soon as the engine has taken the
registrations sent before it, and its own. -/
theorem C110_registration {cfg : Cfg} {s s' : State} {as : List Act} {pre post : List Nat} {i : Nat}
    (hq : s.regQueue = pre ++ i :: post) (hp : Continues cfg s as s') (hn : pre.length < countActs Act.servesRegs as) :
    s.vec ++ pre ++ [i] <+: s'.vec := by
  obtain ⟨d, l, h1, h2, h3⟩ := path_regs hp
  rw [h1, List.append_assoc, List.prefix_append_right_inj]
  rw [hq] at h2
  refine List.prefix_of_prefix_length_le (l₃ := d ++ s'.regQueue) ?_ (List.prefix_append ..) ?_
  · rw [← h2]; exact ⟨post ++ l, by simp⟩
  · simp only [List.length_append, List.length_singleton]
    omega

/-- A request the engine has taken is pending under the key of its command, or has completed. -/
theorem taken_pending {cfg : Cfg} {s : State} (h : Reachable cfg s) {i : Nat} {b : BrokerAddress} {cmd : ClientCmd} {t : Nat}
    (hc : (b, cmd) ∈ passedOn s.sent i) (ht : cmd.tok = some t) {k : Key} (hk : cmd.out.tryKey = some k) :
    s.resolver.find k = some t ∨ Done s t := by
  obtain ⟨p, hp, hpo⟩ := List.mem_filterMap.mp hc
  have hso := (Sys.cmd h).sentOk p.1 p.2 hp
  cases ho : p.2.origin with
  | none => simp [ho] at hpo
  | some q =>
    obtain ⟨j, cmd'⟩ := q
    simp only [ho] at hpo hso
    split at hpo
    · rename_i hji
      subst hji
      simp only [Option.some.injEq, Prod.mk.injEq] at hpo
      obtain ⟨_, rfl⟩ := hpo
      obtain ⟨h1, h2⟩ := taken h j hso.1 cmd' hso.2.1 t ht
      rcases h2 with h2 | h2
      · obtain ⟨⟨k', t'⟩, hm, rfl⟩ := List.mem_map.mp h2
        obtain ⟨i', out', h3, h4⟩ := (req h).waiting k' t' hm
        rw [h1] at h3
        simp only [Option.some.injEq, Prod.mk.injEq] at h3
        rw [← h3.2, hk] at h4
        cases h4
        exact .inl (find_of_mem (maps h).engine hm)
      · obtain ⟨⟨t', r⟩, hm, rfl⟩ := List.mem_map.mp h2
        exact .inr ⟨r, hm⟩
    · cases hpo

theorem done_step {cfg : Cfg} {s s' : State} {a : Act} (hs : step cfg s a = some s') {t : Nat} (h : Done s t) : Done s' t := by
  obtain ⟨r, hr⟩ := h
  exact ⟨r, (outcomes_step hs).subset hr⟩

/-- An answer moves up whenever its connection is served, until its request completes. -/
theorem path_answer {cfg : Cfg} {s s' : State} {as : List Act} (h : Reachable cfg s) (hp : Continues cfg s as s') {b : BrokerAddress}
    {pre post : List Event} {e : Event} {k : Key} {t : Nat} (hq : (s.conns b).outbox = pre ++ e :: post) (hk : e.inb.tryKey = some k)
    (hf : s.resolver.find k = some t) :
    Done s' t ∨ (s'.resolver.find k = some t ∧ ∃ pre' post', (s'.conns b).outbox = pre' ++ e :: post' ∧
      pre'.length + countActs (Act.servesReads b) as ≤ pre.length) := by
  induction hp with
  | nil => exact .inr ⟨hf, pre, post, hq, by simp [countActs]⟩
  | snoc hp' hs _ ih =>
    rename_i s1 s2 as a _
    rcases ih with ih | ⟨hf1, pre', post', ho, hn⟩
    · exact .inl (done_step hs ih)
    have hr := continues_reachable h hp'
    by_cases ha : a = .engIn b
    · subst ha
      cases pre' with
      | nil => exact .inl ((inbox_step hs ho).2 k t hk hf1)
      | cons x pre' =>
        rcases pending_step hr hs hf1 with h2 | h2
        · refine .inr ⟨h2, pre', post', (inbox_step hs ho).1, ?_⟩
          rw [countActs_snoc]
          simp only [List.length_cons] at hn
          simp only [Act.servesReads, decide_true, if_true]
          omega
        · exact .inl h2
    · rcases pending_step hr hs hf1 with h2 | h2
      · obtain ⟨l, hl⟩ := outbox_step hr hs b ha
        refine .inr ⟨h2, pre', post' ++ l, by rw [← hl, ho]; simp, ?_⟩
        rw [countActs_snoc, if_neg]
        · exact hn
        · intro hx
          cases a <;> simp [Act.servesReads] at hx
          subst hx
          exact ha rfl
      · exact .inl h2

/-- C111. Once the answer to a request has been read from a socket, the request is completed by the time the engine has handled
what had been read from that socket before, and the answer itself — whatever else goes on. -/
theorem C111_answered {cfg : Cfg} {s s' : State} {as : List Act} {i : Nat} {b b' : BrokerAddress} {cmd : ClientCmd} {t : Nat}
    {pre post : List Event} {e : Event} (h : Reachable cfg s) (hc : (b', cmd) ∈ passedOn s.sent i) (ht : cmd.tok = some t)
    (hq : (s.conns b).outbox = pre ++ e :: post) (ha : Answers cmd.out e.inb) (hp : Continues cfg s as s')
    (hn : pre.length < countActs (Act.servesReads b) as) : Done s' t := by
  obtain ⟨k, hk, hk'⟩ := key_of_answers ha
  rcases taken_pending h hc ht hk with hf | hd
  · rcases path_answer h hp hq hk' hf with hd | ⟨_, pre', post', _, h3⟩
    · exact hd
    · omega
  · clear hq hn
    induction hp with
    | nil => exact hd
    | snoc _ hs _ ih => exact done_step hs ih

/-- C111. So an instance with nothing left to handle from that socket has completed the request, and so has one that has stopped. -/
theorem C111_at_rest {cfg : Cfg} {s s' : State} {as : List Act} {i : Nat} {b b' : BrokerAddress} {cmd : ClientCmd} {t : Nat}
    {e : Event} (h : Reachable cfg s) (hc : (b', cmd) ∈ passedOn s.sent i) (ht : cmd.tok = some t)
    (hq : e ∈ (s.conns b).outbox) (ha : Answers cmd.out e.inb) (hp : Continues cfg s as s')
    (hr : (s'.conns b).outbox = [] ∨ s'.mode = .stopped) : Done s' t := by
  obtain ⟨k, hk, hk'⟩ := key_of_answers ha
  obtain ⟨pre, post, hq⟩ := List.append_of_mem hq
  rcases taken_pending h hc ht hk with hf | hd
  · rcases path_answer h hp hq hk' hf with hd | ⟨hf', pre', post', h2, h3⟩
    · exact hd
    · exfalso
      rcases hr with hr | hr
      · rw [hr] at h2; simp at h2
      · rw [stopped_resolver (continues_reachable h hp) hr] at hf'; cases hf'
  · clear hq hr
    induction hp with
    | nil => exact hd
    | snoc _ hs _ ih => exact done_step hs ih

/-- C111. Until then an idle engine can take the next event of that connection. -/
theorem C111_servable {cfg : Cfg} {s : State} {b : BrokerAddress} (h : Reachable cfg s) (hm : s.mode = .idle) (hv : s.vec ≠ [])
    (hq : (s.conns b).outbox ≠ []) : ∃ s', step cfg s (.engIn b) = some s' := by
  have hb : b ∈ s.addrs := Classical.byContradiction fun hb => by
    rw [(conn h).unused b hb] at hq; exact hq rfl
  cases ho : (s.conns b).outbox with
  | nil => exact absurd ho hq
  | cons e q => exact ⟨_, by simp [step, engIn, hm, hb, hv, ho]; rfl⟩

/-! ## Instances -/

namespace ServiceExample

open Neutron.Trace

theorem continues_of_exec {cfg : Cfg} {s s' : State} {as bs : List Act} {s0 : State} (hp : Continues cfg s0 bs s) (h : exec cfg s as = some s') :
    Continues cfg s0 (bs ++ as) s' := by
  induction as generalizing s bs with
  | nil => cases h; simpa using hp
  | cons a as ih =>
    simp only [exec] at h
    cases ht : step cfg s a with
    | none => simp [ht] at h
    | some s1 =>
      simp only [ht, Option.bind_some] at h
      have := ih (hp.snoc ht trivial) h
      simpa using this

/-- Two clients; client 1 has two commands waiting, client 0 one. -/
def waiting : List Act := boot ++ join 0 ++ join 1 ++
  [.beginCall 1 (.flow 7), .submit 1 0, .beginCall 0 (.flow 1), .submit 0 0, .beginCall 1 (.flow 8), .submit 1 0]

/-- C110 (client): the second command of client 1 is passed on with the second service of client 1. -/
example : ∃ s s', Reachable cfg0 s ∧ (s.clients 1).queue = [⟨.flow ⟨1, 7⟩, none⟩] ++ ⟨.flow ⟨1, 8⟩, none⟩ :: [] ∧
    Continues cfg0 s [.engOut 1 (.ok []) net0, .engOut 0 (.ok []) net0, .engOut 1 (.ok []) net0] s' ∧
    [⟨.flow ⟨1, 7⟩, none⟩, ⟨.flow ⟨1, 8⟩, none⟩] <+: (passedOn s'.sent 1).map (·.2) := by
  obtain ⟨s, hr, ho⟩ := reachable_obs (as := waiting)
    (f := fun s => ((s.nClients, (s.clients 1).queue, (passedOn s.sent 1).map (·.2)),
      (exec cfg0 s [.engOut 1 (.ok []) net0, .engOut 0 (.ok []) net0, .engOut 1 (.ok []) net0]).map fun s' => (s'.nClients, s'.mode)))
    (x := ((2, [⟨.flow ⟨1, 7⟩, none⟩, ⟨.flow ⟨1, 8⟩, none⟩], []), some (2, .idle))) rfl
  simp only [Prod.mk.injEq, Option.map_eq_some_iff] at ho
  obtain ⟨⟨h1, h2, h3⟩, s', he, h4, h5⟩ := ho
  have hp : Continues cfg0 s ([] ++ [.engOut 1 (.ok []) net0, .engOut 0 (.ok []) net0, .engOut 1 (.ok []) net0]) s' :=
    continues_of_exec (.nil trivial) he
  refine ⟨s, s', ⟨_, hr⟩, h2, hp, ?_⟩
  have := C110_client (i := 1) (pre := [⟨.flow ⟨1, 7⟩, none⟩]) (post := []) ⟨_, hr⟩ (by omega) h2 hp (by decide) (by rw [h4]; decide) (by rw [h5]; decide)
  rw [h3] at this
  exact this

/-- C112: in the order of registration, client 0 is served first; the second command of client 1 is passed on with the third service. -/
example : ∃ s s', Reachable cfg0 s ∧ s.vec = [0] ++ 1 :: [] ∧
    InOrder cfg0 s [.engOut 0 (.ok []) net0, .engOut 1 (.ok []) net0, .engOut 1 (.ok []) net0] s' ∧
    [⟨.flow ⟨1, 7⟩, none⟩, ⟨.flow ⟨1, 8⟩, none⟩] <+: (passedOn s'.sent 1).map (·.2) := by
  obtain ⟨s, hr, ho⟩ := reachable_obs (as := waiting)
    (f := fun s => ((s.vec, (s.clients 1).queue, (passedOn s.sent 1).map (·.2), (s.clients 0).queue.length),
      (step cfg0 s (.engOut 0 (.ok []) net0)).map fun s1 => ((s1.vec, (s1.clients 0).queue, (s1.clients 0).phase),
        (step cfg0 s1 (.engOut 1 (.ok []) net0)).map fun s2 => ((s2.vec, (s2.clients 0).queue, (s2.clients 0).phase),
          (step cfg0 s2 (.engOut 1 (.ok []) net0)).map fun s3 => (s3.nClients, s3.mode)))))
    (x := (([0, 1], [⟨.flow ⟨1, 7⟩, none⟩, ⟨.flow ⟨1, 8⟩, none⟩], [], 1),
      some (([0, 1], [], .ready), some (([0, 1], [], .ready), some (2, .idle))))) rfl
  simp only [Prod.mk.injEq, Option.map_eq_some_iff] at ho
  obtain ⟨⟨h1, h2, h3, h4⟩, s1, e1, ⟨k1, k2, k3⟩, s2, e2, ⟨l1, l2, l3⟩, s3, e3, m1, m2⟩ := ho
  have hp : InOrder cfg0 s ([.engOut 0 (.ok []) net0, .engOut 1 (.ok []) net0] ++ [.engOut 1 (.ok []) net0]) s3 := by
    refine .snoc (s' := s2) (.snoc (as := [.engOut 0 (.ok []) net0]) (s' := s1) (.snoc (as := []) .nil ?_ e1) ?_ e2) ?_ e3
    · exact ⟨[], [1], h1, fun j hj => by cases hj⟩
    · refine ⟨[0], [], k1, fun j hj => ?_⟩
      obtain rfl := List.mem_singleton.mp hj
      exact ⟨k2, by rw [k3]; decide⟩
    · refine ⟨[0], [], l1, fun j hj => ?_⟩
      obtain rfl := List.mem_singleton.mp hj
      exact ⟨l2, by rw [l3]; decide⟩
  refine ⟨s, s3, ⟨_, hr⟩, h1, hp, ?_⟩
  have := C112_bounded_wait (before := [0]) (after := []) (pre := [⟨.flow ⟨1, 7⟩, none⟩]) ⟨_, hr⟩ h1 h2 hp (by simp [h4]; decide)
    (by rw [m1]; decide) (by rw [m2]; decide)
  rw [h3] at this
  exact this

/-- The sequence id a receipt is for. -/
def receiptOf (e : Event) : Option UInt64 := match e.inb with
  | .sendReceipt r => some r.sequenceId
  | _ => none

theorem answers_receipt {e : Event} (h : receiptOf e = some 0) : Answers (.send (.single "c" 1 0 [1])) e.inb := by
  unfold receiptOf at h
  cases hi : e.inb <;> simp only [hi] at h <;> first | cases h; done | skip
  simpa [Answers, Send.sequenceId] using h

/-- C110 (reads) and C111: a send has been passed on; two messages and its receipt have been read.  After three services
of that connection the request is complete. -/
example : ∃ s s' e1 e2 e3, Reachable cfg0 s ∧ (s.conns b0).outbox = [e1, e2] ++ e3 :: [] ∧ Answers (.send (.single "c" 1 0 [1])) e3.inb ∧
    Continues cfg0 s [.engIn b0, .engIn b0, .engIn b0] s' ∧ Done s' 0 ∧ [e1, e2, e3] <+: (s'.conns b0).dispatched := by
  obtain ⟨s, hr, ho⟩ := reachable_obs (as := boot ++ join 0 ++ join 1 ++ ask 1 (.sendMessage [1]) ++ [.connCmd b0 .ok,
      .connRead b0 (.command (messageC 0 [5]) none), .connRead b0 (.command (messageC 0 [6]) none), .connRead b0 (.command (receiptC 1 0) (some 0))])
    (f := fun s => (((s.conns b0).outbox.length, (s.conns b0).outbox[2]?.map receiptOf, (s.conns b0).dispatched.length, passedOn s.sent 1),
      (exec cfg0 s [.engIn b0, .engIn b0, .engIn b0]).map fun s' => s'.mode))
    (x := ((3, some (some 0), 0, [(b0, ⟨.send (.single "c" 1 0 [1]), some 0⟩)]), some .idle)) rfl
  simp only [Prod.mk.injEq, Option.map_eq_some_iff] at ho
  obtain ⟨⟨h1, h2, h3, h4⟩, s', he, h5⟩ := ho
  obtain ⟨e3, h2, h6⟩ := h2
  have hq : ∃ e1 e2, (s.conns b0).outbox = [e1, e2] ++ e3 :: [] := by
    match hh : (s.conns b0).outbox, h1, h2 with
    | [a, b, c], _, h2 => cases h2; exact ⟨a, b, rfl⟩
  obtain ⟨e1, e2, hq⟩ := hq
  have hp : Continues cfg0 s ([] ++ [.engIn b0, .engIn b0, .engIn b0]) s' := continues_of_exec (.nil trivial) he
  have ha : Answers (.send (.single "c" 1 0 [1])) e3.inb := answers_receipt h6
  refine ⟨s, s', e1, e2, e3, ⟨_, hr⟩, hq, ha, hp, ?_, ?_⟩
  · exact C111_answered (i := 1) ⟨_, hr⟩ (by rw [h4]; exact List.mem_singleton.mpr rfl) rfl hq ha hp (by show 2 < _; decide)
  · have := C110_reads ⟨_, hr⟩ hq hp (by show 2 < _; decide) (by rw [h5]; decide)
    rw [List.length_eq_zero_iff.mp h3] at this
    exact this

/-- C110 (connection): two commands are waiting to be written; after two writes the second is out. -/
example : ∃ s s' c1 c2, Reachable cfg0 s ∧ (s.conns b0).queue = [c1] ++ c2 :: [] ∧
    Continues cfg0 s [.connCmd b0 .ok, .connCmd b0 .ok] s' ∧ [c1, c2] <+: (s'.conns b0).written := by
  obtain ⟨s, hr, ho⟩ := reachable_obs (as := waiting ++ [.engOut 1 (.ok []) net0, .engOut 0 (.ok []) net0])
    (f := fun s => (((s.conns b0).queue.length, (s.conns b0).written.length),
      (exec cfg0 s [.connCmd b0 .ok, .connCmd b0 .ok]).map fun s' => (s'.conns b0).alive))
    (x := ((2, 0), some true)) (by decide +kernel)
  simp only [Prod.mk.injEq, Option.map_eq_some_iff] at ho
  obtain ⟨⟨h1, h2⟩, s', he, h5⟩ := ho
  have hp : Continues cfg0 s ([] ++ [.connCmd b0 .ok, .connCmd b0 .ok]) s' := continues_of_exec (.nil trivial) he
  obtain ⟨c1, c2, hh⟩ := List.length_eq_two.mp h1
  refine ⟨s, s', c1, c2, ⟨_, hr⟩, hh, hp, ?_⟩
  have := C110_connection (pre := [c1]) (post := []) ⟨_, hr⟩ hh hp (by show 1 < _; decide)
    (by intro w hw; simp at hw; exact hw) h5
  rw [List.length_eq_zero_iff.mp h2] at this
  exact this

/-- C110 (registration): two clients are waiting to be registered. -/
example : ∃ s s', Reachable cfg0 s ∧ s.regQueue = [0] ++ 1 :: [] ∧ Continues cfg0 s [.engReg, .engReg] s' ∧ s.vec ++ [0] ++ [1] <+: s'.vec := by
  obtain ⟨s, hr, ho⟩ := reachable_obs (as := boot ++ [.newClient "a", .newClient "b", .sendReg 0, .sendReg 1])
    (f := fun s => (s.regQueue, (exec cfg0 s [.engReg, .engReg]).map fun s' => s'.mode))
    (x := ([0, 1], some .idle)) rfl
  simp only [Prod.mk.injEq, Option.map_eq_some_iff] at ho
  obtain ⟨h1, s', he, h5⟩ := ho
  have hp : Continues cfg0 s ([] ++ [.engReg, .engReg]) s' := continues_of_exec (.nil trivial) he
  exact ⟨s, s', ⟨_, hr⟩, h1, hp, C110_registration (pre := [0]) (post := []) h1 hp (by decide)⟩

end ServiceExample

end Neutron.Props
