import Verif.Proof.AppOrder
import Verif.Props.AppCalls
import Mathlib.Data.List.Forall2

/-!
# What the application does one after the other stays in order: C119
-/

namespace Neutron.Props

open Neutron Neutron.World Neutron.App Session

variable {T : Type}

theorem not_both {α : Type} {l : List α} {x y : α} (hn : l.Nodup) (h1 : [x, y].Sublist l) (h2 : [y, x].Sublist l) : False := by
  induction l with
  | nil => cases h1
  | cons z l ih =>
    rw [List.nodup_cons] at hn
    cases h1 with
    | cons _ h1 =>
      cases h2 with
      | cons _ h2 => exact ih hn.2 h1 h2
      | cons_cons _ h2 => exact hn.1 (h1.subset (by simp))
    | cons_cons _ h1 =>
      cases h2 with
      | cons _ h2 => exact hn.1 (h2.subset (by simp))
      | cons_cons _ h2 => exact hn.1 (h1.subset (by simp))

theorem toks_nodup {cfg : Sys.Cfg} {s : Sys.State} (h : Sys.Reachable cfg s) {i : Nat} (hi : i < s.nClients) :
    ((s.clients i).submitted.filterMap Sys.ClientCmd.tok).Nodup := by
  have h1 := (List.pairwise_append.mp (Sys.once_client h i hi).1).1
  rw [List.nodup_iff_pairwise_ne, List.pairwise_filterMap]
  refine h1.imp ?_
  intro a b hab t ht t' ht' he
  subst he
  exact hab t ht ht'

theorem sublist_toks {l : List Sys.ClientCmd} : ∀ {ts : List Nat}, ts.Sublist (l.filterMap Sys.ClientCmd.tok) →
    ∃ xs : List Sys.ClientCmd, xs.Sublist l ∧ xs.map Sys.ClientCmd.tok = ts.map some := by
  induction l with
  | nil => intro ts h; cases h; exact ⟨[], .slnil, rfl⟩
  | cons c l ih =>
    intro ts h
    cases hc : c.tok with
    | none =>
      rw [List.filterMap_cons_none hc] at h
      obtain ⟨xs, h1, h2⟩ := ih h
      exact ⟨xs, h1.cons _, h2⟩
    | some t =>
      rw [List.filterMap_cons_some hc] at h
      cases h with
      | cons _ h =>
        obtain ⟨xs, h1, h2⟩ := ih h
        exact ⟨xs, h1.cons _, h2⟩
      | cons_cons _ h =>
        obtain ⟨xs, h1, h2⟩ := ih h
        exact ⟨c :: xs, h1.cons_cons _, by simp [hc, h2]⟩

theorem ids_increase {f : Outbound → Option UInt64} {l : List (Nat × Outbound)} {i n t t' : Nat} {o o' : Outbound} {x x' : UInt64}
    (h : Sys.idsOf f l i = Sys.countUp n) (hn : (Sys.idsOf f l i).length ≤ 2 ^ 64) (hlt : t < t') (h1 : l[t]? = some (i, o))
    (h2 : l[t']? = some (i, o')) (hx : f o = some x) (hx' : f o' = some x') : x < x' := by
  have hpw : (Sys.idsOf f l i).Pairwise (· < ·) := by
    rw [h] at hn ⊢
    unfold Sys.countUp at hn ⊢
    rw [List.length_map, List.length_range] at hn
    rw [List.pairwise_map]
    refine List.Pairwise.imp_of_mem ?_ List.pairwise_lt_range
    intro a b ha hb hab
    rw [List.mem_range] at ha hb
    rw [UInt64.lt_iff_toNat_lt, UInt64.toNat_ofNat', UInt64.toNat_ofNat', Nat.mod_eq_of_lt (by omega), Nat.mod_eq_of_lt (by omega)]
    exact hab
  have hmem : ∀ (m : List (Nat × Outbound)) (o : Outbound) (x : UInt64), (i, o) ∈ m → f o = some x → x ∈ Sys.idsOf f m i := by
    intro m o x hm hx
    unfold Sys.idsOf; rw [List.mem_filterMap]; exact ⟨_, hm, by simp [hx]⟩
  rw [← List.take_append_drop t' l, Sys.idsOf_append, List.pairwise_append] at hpw
  refine hpw.2.2 x (hmem _ o x ?_ hx) x' (hmem _ o' x' ?_ hx')
  · refine List.mem_of_getElem? (i := t) ?_
    rw [List.getElem?_take_of_lt hlt]; exact h1
  · refine List.mem_of_getElem? (i := 0) ?_
    rw [List.getElem?_drop]; simpa using h2

/-- Two `SEND`s of a producer, the one given to the engine before the other: in what any broker has been sent, the first comes before
the second. -/
theorem C119_on_the_wire {cfg : World.Cfg T} {acts : List World.Act} {w : World T} (h : World.Run cfg acts w) (hv : Fits w)
    (hn : w.sys.nClients ≤ 2 ^ 64) {i : Nat} (hsq : (Sys.idsOf Sys.sequenceIdOf w.sys.issued i).length ≤ 2 ^ 64)
    {t1 t2 : Nat} {m1 m2 : Send} (h1 : w.sys.issued[t1]? = some (i, .send m1)) (h2 : w.sys.issued[t2]? = some (i, .send m2))
    (ho : [t1, t2].Sublist ((w.sys.clients i).submitted.filterMap Sys.ClientCmd.tok))
    {b : BrokerAddress} {fs : List (MessageCommand × Bytes)} (hb : BeginsWith (w.tx b).sent fs) {k1 k2 : Nat}
    {f1 f2 : MessageCommand × Bytes} (hk1 : fs[k1]? = some f1) (hk2 : fs[k2]? = some f2)
    (hf1 : IsSendCommand f1.1 (UInt64.ofNat i) m1.sequenceId) (hf2 : IsSendCommand f2.1 (UInt64.ofNat i) m2.sequenceId) : k1 < k2 := by
  obtain ⟨log, appLog, hp⟩ := proj h
  have hr : Sys.Reachable cfg.sys w.sys := ⟨_, hp.sys⟩
  have hi := ((Sys.req hr).issued _ _ _ h1).1
  have hnd := toks_nodup hr hi
  have tok : ∀ {c : Sys.ConnCmd} {v : MessageCommand} {now : UInt64} {m : Send} {t : Nat}, c ∈ (w.sys.conns b).processed →
      c.out.toCommand now = .ok v → IsSendCommand v (UInt64.ofNat i) m.sequenceId → w.sys.issued[t]? = some (i, .send m) →
      ∃ cm, c.origin = some (i, cm) ∧ cm.tok = some t := by
    intro c v now m t hc hnow hf ht
    obtain ⟨m', m1, m2, m3⟩ := send_of_command hnow hf
    obtain ⟨t', i', s1, s2, s3, s4, s5⟩ := send_taken hr hc m1
    have hii : i' = i := by
      have := congrArg UInt64.toNat (s5.symm.trans m2)
      rw [UInt64.toNat_ofNat', UInt64.toNat_ofNat', Nat.mod_eq_of_lt (by omega), Nat.mod_eq_of_lt (by omega)] at this
      exact this
    subst hii
    have htt : t' = t := idsOf_inj ((C44_unique hr hi).1 hsq) s4 ht (x := m.sequenceId) (by simp [Sys.sequenceIdOf, m3]) rfl
    subst htt
    have hok := (Sys.cmd hr).sentOk b c s2
    unfold Sys.tokOf at s1
    cases ho : c.origin with
    | none => rw [ho] at s1; cases s1
    | some x =>
      obtain ⟨n, cm⟩ := x
      rw [ho] at s1 hok
      have hcm : cm.tok = some t' := s1
      have := (Sys.taken hr n hok.1 cm hok.2.1 t' hcm).1
      rw [s4, Option.some.injEq, Prod.mk.injEq] at this
      exact ⟨cm, by rw [this.1], hcm⟩
  obtain ⟨l, l1, l2, l3⟩ := received_of h hv b hb
  have at' : ∀ {k : Nat} {f : MessageCommand × Bytes}, fs[k]? = some f → ∃ c, l[k]? = some (c, f.1) := by
    intro k f hk
    have : (l.map (·.2))[k]? = some f.1 := by rw [l2, List.getElem?_map, hk]; rfl
    rw [List.getElem?_map, Option.map_eq_some_iff] at this
    obtain ⟨⟨c, v⟩, hl, rfl⟩ := this
    exact ⟨c, hl⟩
  obtain ⟨c1, hc1⟩ := at' hk1
  obtain ⟨c2, hc2⟩ := at' hk2
  obtain ⟨now1, hnow1⟩ := l3 _ (List.mem_of_getElem? hc1)
  obtain ⟨now2, hnow2⟩ := l3 _ (List.mem_of_getElem? hc2)
  obtain ⟨cm1, o1, u1⟩ := tok (l1.subset (List.mem_map_of_mem (List.mem_of_getElem? hc1))) hnow1 hf1 h1
  obtain ⟨cm2, o2, u2⟩ := tok (l1.subset (List.mem_map_of_mem (List.mem_of_getElem? hc2))) hnow2 hf2 h2
  have hne : t1 ≠ t2 := by
    rintro rfl
    have := hnd.sublist ho
    simp at this
  have hpart := part_in_order hr hn hi b l1
  rcases Nat.lt_trichotomy k1 k2 with hlt | heq | hlt
  · exact hlt
  · subst heq
    rw [hc1] at hc2
    obtain ⟨rfl, _⟩ := Prod.mk.inj (Option.some.inj hc2)
    rw [o1] at o2
    cases o2
    rw [u1] at u2
    exact absurd (Option.some.inj u2) hne
  · exfalso
    have hsub : [c2, c1].Sublist (l.map (·.1)) := by
      have e2 : (l.map (·.1))[k2]? = some c2 := by rw [List.getElem?_map, hc2]; rfl
      have e1 : (l.map (·.1))[k1]? = some c1 := by rw [List.getElem?_map, hc1]; rfl
      generalize l.map (·.1) = q at e1 e2
      rw [← List.take_append_drop k1 q]
      refine List.Sublist.append (l₁ := [c2]) (r₁ := [c1]) ?_ ?_
      · rw [List.singleton_sublist]
        refine List.mem_of_getElem? (i := k2) ?_
        rw [List.getElem?_take_of_lt hlt]; exact e2
      · rw [List.singleton_sublist]
        refine List.mem_of_getElem? (i := 0) ?_
        rw [List.getElem?_drop]; simpa using e1
    have hx : [t2, t1].Sublist ((w.sys.clients i).submitted.filterMap Sys.ClientCmd.tok) := by
      have h3 : (Sys.ofClient i [c2, c1]).Sublist (w.sys.clients i).submitted := (List.Sublist.filterMap _ hsub).trans hpart
      have h4 : Sys.ofClient i [c2, c1] = [cm2, cm1] := by
        unfold Sys.ofClient
        rw [List.filterMap_cons, List.filterMap_cons, o1, o2]
        simp
      rw [h4] at h3
      have := h3.filterMap Sys.ClientCmd.tok
      simpa [u1, u2] using this
    exact not_both hnd ho hx

/-- One of the application's sends that returned `Ok`: it has one request, for the `SEND` of what was to be sent. -/
theorem sends_one {cfg : World.Cfg T} {acts : List App.Act} {log : List World.Act} {a : App.State T} (h : App.Run cfg acts log a)
    {j : Job} (hj : j ∈ a.jobs) {i : Nat} {p : Prog Unit} {c : Call} (hm : j.made = .call i p) (hp : Sends p c)
    (he : j.ended = some (.ok ())) :
    j.client = some i ∧ ∃ t core m, requests j.events = [t] ∧ a.world.sys.issued[t]? = some (i, .send m) ∧
      (Client.issue core c).2 = .send m := by
  obtain ⟨h1, h2, h3⟩ := call_ran h hj hm he
  have hc : Runs (do let _ ← Session.call c; pure () : Prog Unit) j.events (.ok ()) ∧ c.expectsResponse = true ∧
      ∀ core, ∃ m, (Client.issue core c).2 = .send m := by
    rcases hp with ⟨V, ser, m, payload, hs, rfl, rfl⟩ | ⟨V, ser, ms, payloads, hs, rfl, rfl⟩
    · unfold send at h2
      rw [hs] at h2
      exact ⟨h2, rfl, fun core => ⟨_, rfl⟩⟩
    · unfold sendBatch at h2
      rw [hs] at h2
      exact ⟨h2, rfl, fun core => ⟨_, rfl⟩⟩
  refine ⟨h1, ?_⟩
  rcases runs_bind.mp hc.1 with ⟨tr1, tr2, r, hev, g1, g2⟩ | ⟨e, _, he⟩ | ⟨_, he⟩
  · rw [runs_pure] at g2
    obtain ⟨rfl, _⟩ := g2
    rw [List.append_nil] at hev
    rw [← hev] at g1
    rcases runs_call.mp g1 with ⟨_, g⟩ | ⟨t, inp, hev, _⟩
    · cases g
    · obtain ⟨core, hcore⟩ := h3 (.handed c (.ok t)) (by rw [hev]; simp) hc.2.1
      obtain ⟨m, hm⟩ := hc.2.2 core
      exact ⟨t, core, m, by rw [hev]; simp [requests, hc.2.1], by rw [← hm]; exact hcore, hm⟩
  · cases he
  · cases he

/-- **C119.**  One task sends something, and when that has returned `Ok` it sends something else with the same producer, which returns
`Ok` too: the first was given to the engine before the second, has the smaller sequence id, and comes before the second in what any
broker has been sent. -/
theorem C119_sends_in_order {cfg : World.Cfg T} {pre post : List App.Act} {log1 log : List World.Act} {a1 a : App.State T}
    (h1 : App.Run cfg pre log1 a1) (h : App.Run cfg (pre ++ post) log a) {j1 j2 : Job} {k i : Nat} {p1 p2 : Prog Unit} {c1 c2 : Call}
    (hj1 : j1 ∈ a1.jobs) (hm1 : j1.made = .call i p1) (hp1 : Sends p1 c1) (he1 : j1.ended = some (.ok ()))
    (hk : a1.jobs.length ≤ k) (hj2 : a.jobs[k]? = some j2) (hm2 : j2.made = .call i p2) (hp2 : Sends p2 c2)
    (he2 : j2.ended = some (.ok ())) (hsq : (Sys.idsOf Sys.sequenceIdOf a.world.sys.issued i).length ≤ 2 ^ 64) :
    ∃ core1 core2 m1 m2, (Client.issue core1 c1).2 = .send m1 ∧ (Client.issue core2 c2).2 = .send m2 ∧
      [Outbound.send m1, .send m2].Sublist ((a.world.sys.clients i).submitted.map Sys.ClientCmd.out) ∧
      m1.sequenceId < m2.sequenceId ∧
      (World.Fits a.world → a.world.sys.nClients ≤ 2 ^ 64 → ∀ (b : BrokerAddress) (fs : List (MessageCommand × Bytes)),
        BeginsWith (a.world.tx b).sent fs → ∀ (n1 n2 : Nat) (f1 f2 : MessageCommand × Bytes), fs[n1]? = some f1 → fs[n2]? = some f2 →
        IsSendCommand f1.1 (UInt64.ofNat i) m1.sequenceId → IsSendCommand f2.1 (UInt64.ofNat i) m2.sequenceId → n1 < n2) := by
  obtain ⟨cl1, t1, core1, m1, r1, i1, o1⟩ := sends_one h1 hj1 hm1 hp1 he1
  obtain ⟨cl2, t2, core2, m2, r2, i2, o2⟩ := sends_one h (List.mem_of_getElem? hj2) hm2 hp2 he2
  have hr := App.reachable h
  have ho := ordered h1 h hj1 hk hj2 cl1 cl2
  rw [r1, r2] at ho
  obtain ⟨⟨l, hl⟩, _, _, hfrom⟩ := later h1 h
  have i1' : a.world.sys.issued[t1]? = some (i, .send m1) := by rw [← hl]; exact Sys.getElem?_append_some i1
  have hlt : t1 < t2 := Nat.lt_of_lt_of_le (List.getElem?_eq_some_iff.mp i1).1 ((hfrom k j2 hk hj2).1 t2 (by rw [r2]; simp))
  have hi := ((Sys.req hr).issued _ _ _ i2).1
  refine ⟨core1, core2, m1, m2, o1, o2, ?_, ?_, fun hv hn b fs hb n1 n2 f1 f2 g1 g2 g3 g4 =>
    C119_on_the_wire (run_world h) hv hn hsq i1' i2 ho hb g1 g2 g3 g4⟩
  · obtain ⟨xs, x1, x2⟩ := sublist_toks ho
    obtain ⟨x, y, rfl⟩ : ∃ x y, xs = [x, y] := List.length_eq_two.mp (by simpa using congrArg List.length x2)
    simp only [List.cons_append, List.nil_append, List.map_cons, List.map_nil, List.cons.injEq, and_true] at x2
    have hx := Sys.submitted_issued hr i hi x (x1.subset (by simp)) t1 x2.1
    have hy := Sys.submitted_issued hr i hi y (x1.subset (by simp)) t2 x2.2
    rw [i1', Option.some.injEq, Prod.mk.injEq] at hx
    rw [i2, Option.some.injEq, Prod.mk.injEq] at hy
    rw [hx.2, hy.2]
    exact x1.map _
  · exact ids_increase ((C44_consecutive hr hi).1) hsq hlt i1' i2 rfl rfl

theorem calls_cmds {cfg : Sys.Cfg} {s : Sys.State} (h : Sys.Reachable cfg s) {i : Nat} (hi : i < s.nClients) {evs : List Ev} :
    ∀ {xs : List Sys.ClientCmd}, Accepted evs → (∀ ev ∈ evs, Sys.Fits s i ev) → xs.map Sys.ClientCmd.tok = (requests evs).map some →
      (∀ x ∈ xs, x ∈ (s.clients i).submitted) →
      List.Forall₂ (fun c o => ∃ core, (Client.issue core c).2 = o) ((calls evs).filter (·.expectsResponse)) (xs.map Sys.ClientCmd.out) := by
  induction evs with
  | nil =>
    intro xs _ _ hx _
    have : xs = [] := by simpa [requests] using hx
    subst this
    exact .nil
  | cons ev evs ih =>
    intro xs ha hf hx hm
    have ha' : Accepted evs := fun c e hm => ha c e (List.mem_cons_of_mem _ hm)
    have hf' : ∀ ev ∈ evs, Sys.Fits s i ev := fun ev hm => hf ev (List.mem_cons_of_mem _ hm)
    cases ev with
    | waited t c r => exact ih ha' hf' hx hm
    | handed c r =>
      cases r with
      | err e => exact absurd (by simp) (ha c e)
      | panic => exact (hf (.handed c .panic) (by simp)).elim
      | ok t =>
        cases he : c.expectsResponse with
        | false =>
          have h1 : requests (.handed c (.ok t) :: evs) = requests evs := by simp [requests, he]
          have h2 : (calls (.handed c (.ok t) :: evs)).filter (·.expectsResponse) = (calls evs).filter (·.expectsResponse) := by
            simp [calls, he]
          rw [h1] at hx
          rw [h2]
          exact ih ha' hf' hx hm
        | true =>
          have h1 : requests (.handed c (.ok t) :: evs) = t :: requests evs := by simp [requests, he]
          have h2 : (calls (.handed c (.ok t) :: evs)).filter (·.expectsResponse) = c :: (calls evs).filter (·.expectsResponse) := by
            simp [calls, he]
          rw [h1] at hx
          rw [h2]
          cases xs with
          | nil => simp at hx
          | cons x xs =>
            simp only [List.map_cons, List.cons.injEq] at hx
            refine .cons ?_ (ih ha' hf' hx.2 fun y hy => hm y (List.mem_cons_of_mem _ hy))
            obtain ⟨core, hcore⟩ := hf (.handed c (.ok t)) (by simp) he
            have := Sys.submitted_issued h i hi x (hm x (by simp)) t hx.1
            rw [hcore, Option.some.injEq, Prod.mk.injEq] at this
            exact ⟨core, this.2⟩

/-- What one call of the application asks for, it asks for in order: unless the engine has stopped, the commands of its requests were
all given to the engine, in the order of the call. -/
theorem C119_call_in_order {cfg : World.Cfg T} {acts : List App.Act} {log : List World.Act} {a : App.State T} (h : App.Run cfg acts log a)
    {j : Job} (hj : j ∈ a.jobs) {i : Nat} (hc : j.client = some i) (hm : a.world.sys.mode ≠ .stopped) :
    ∃ outs, List.Forall₂ (fun c o => ∃ core, (Client.issue core c).2 = o) ((calls j.events).filter (·.expectsResponse)) outs ∧
      outs.Sublist ((a.world.sys.clients i).submitted.map Sys.ClientCmd.out) := by
  obtain ⟨hi, ho⟩ := in_order h j hj i hc
  obtain ⟨xs, h1, h2⟩ := sublist_toks ho
  have hev : ∀ ev ∈ j.events, ∃ core, SetupEv.did core ev ∈ j.trace := by
    intro ev hev
    unfold Job.events at hev
    obtain ⟨sev, hs, hx⟩ := List.mem_filterMap.mp hev
    cases sev with
    | allocated | registered => cases hx
    | did cl ev => cases hx; exact ⟨cl, hs⟩
  refine ⟨_, calls_cmds (App.reachable h) hi ?_ ?_ h2 (fun x hx => h1.subset hx), h1.map _⟩
  · intro c e hx
    obtain ⟨core, hx⟩ := hev _ hx
    exact hm (refused_stopped h j hj core c e hx)
  · intro ev hx
    obtain ⟨core, hx⟩ := hev _ hx
    exact (seen h j hj).events i hc core ev hx

/-- `send_all`: the messages that can be serialised were given to the engine, each as a `SEND` of its own, in the order of the list. -/
theorem C119_send_all {cfg : World.Cfg T} {acts : List App.Act} {log : List World.Act} {a : App.State T} (h : App.Run cfg acts log a)
    {j : Job} (hj : j ∈ a.jobs) {i : Nat} {V : Type} {serialize : V → Option Bytes} {ms : List V}
    (hm : j.made = .call i (sendAll serialize ms)) {o : Outcome Unit} (he : j.ended = some o) (hs : a.world.sys.mode ≠ .stopped) :
    o = .ok () ∧ ∃ outs, List.Forall₂ (fun payload out => ∃ name id seq, out = Outbound.send (.single name id seq payload))
      (ms.filterMap serialize) outs ∧ outs.Sublist ((a.world.sys.clients i).submitted.map Sys.ClientCmd.out) := by
  obtain ⟨h1, h2, h3⟩ := call_ran h hj hm he
  obtain ⟨outs, o1, o2⟩ := C119_call_in_order h hj h1 hs
  have hc := (C86_send_all (proj (run_world h)).choose_spec.choose_spec.sys h2 h3).1
  refine ⟨(runs_all h2).1, outs, ?_, o2⟩
  rw [hc, List.filter_eq_self.mpr (by intro c hc; obtain ⟨_, _, rfl⟩ := List.mem_map.mp hc; rfl), List.forall₂_map_left_iff] at o1
  refine o1.imp ?_
  rintro p out ⟨core, rfl⟩
  exact ⟨_, _, _, rfl⟩

/-- `ack_all`: the acknowledgements were given to the engine, one for each message, in the order of the list. -/
theorem C119_ack_all {cfg : World.Cfg T} {acts : List App.Act} {log : List World.Act} {a : App.State T} (h : App.Run cfg acts log a)
    {j : Job} (hj : j ∈ a.jobs) {i : Nat} {ids : List MessageId} (hm : j.made = .call i (ackAll ids)) {o : Outcome Unit}
    (he : j.ended = some o) (hs : a.world.sys.mode ≠ .stopped) :
    o = .ok () ∧ ∃ outs, List.Forall₂ (fun id out => ∃ consumer req, out = Outbound.ack [⟨consumer, id, req⟩]) ids outs ∧
      outs.Sublist ((a.world.sys.clients i).submitted.map Sys.ClientCmd.out) := by
  obtain ⟨h1, h2, h3⟩ := call_ran h hj hm he
  obtain ⟨outs, o1, o2⟩ := C119_call_in_order h hj h1 hs
  have hc := (C87_ack_all (proj (run_world h)).choose_spec.choose_spec.sys h2 h3).1
  refine ⟨(runs_all h2).1, outs, ?_, o2⟩
  rw [hc, List.filter_eq_self.mpr (by intro c hc; obtain ⟨_, _, rfl⟩ := List.mem_map.mp hc; rfl), List.forall₂_map_left_iff] at o1
  refine o1.imp ?_
  rintro p out ⟨core, rfl⟩
  exact ⟨_, _, rfl⟩

end Neutron.Props
