import Verif.Spec.Given
import Verif.Proof.AppWithin
import Verif.Props.AppAsked
import Verif.Props.EndToEnd
import Verif.Props.Receive

/-!
# Only what the application was given is acknowledged: C138
-/

namespace Neutron.Props

open Neutron Neutron.World Neutron.App Session Proto

variable {T : Type}

/-- Results stay. -/
theorem results_step {cfg : Consumer.Cfg T} {s s' : Consumer.State T} {a : Consumer.Act} (h : Consumer.step cfg s a = some s') :
    s.results <+: s'.results := by
  have hrun : ∀ i t c s', Consumer.runCode s i t c = some s' → s.results <+: s'.results := by
    intro i t c s' h
    cases c <;> simp only [Consumer.runCode] at h
    case ret => cases h; exact List.prefix_append _ _
    case recv k =>
      split at h
      · cases h; exact List.prefix_rfl
      · cases h; exact List.prefix_rfl
      · split at h
        · cases h
        · cases h; exact List.prefix_rfl
    all_goals (try split at h) <;> first | (cases h; done) | (cases h; exact List.prefix_rfl)
  cases a <;> simp only [Consumer.step] at h
  case run i =>
    split at h
    · rename_i t ht
      unfold Consumer.runTask at h
      split at h
      · exact hrun _ _ _ _ h
      · split at h
        · cases h; exact List.prefix_rfl
        · cases h
      · split at h
        · cases h
        · cases h; exact List.prefix_rfl
      · cases h
    · cases h
  all_goals (repeat' split at h) <;> first | (cases h; done) | (cases h; exact List.prefix_rfl)

theorem results_world {cfg : World.Cfg T} {w w' : World T} {x : World.Act} (h : World.step cfg w x = some w') :
    w.app.results <+: w'.app.results := by
  cases x <;> simp only [World.step] at h
  case app a =>
    split at h
    · split at h
      · rename_i happ
        split at h
        · cases h; exact results_step happ
        · cases h
      · cases h
    · cases h
  all_goals (repeat' split at h) <;> first | (cases h; done) | (cases h; exact List.prefix_rfl)

theorem results_steps {cfg : World.Cfg T} : ∀ {l : List World.Act} {w w' : World T}, worldSteps cfg w l = some w' →
    w.app.results <+: w'.app.results := by
  intro l
  induction l with
  | nil => intro w w' h; cases h; exact List.prefix_rfl
  | cons x l ih =>
    intro w w' h
    unfold worldSteps at h
    split at h
    · rename_i hs
      exact (results_world hs).trans (ih h)
    · cases h

/-- What the application was given stays given. -/
theorem given_later {cfg : World.Cfg T} {pre : List App.Act} {log1 : List World.Act} {a1 : App.State T} (h1 : App.Run cfg pre log1 a1) :
    ∀ {post : List App.Act} {log : List World.Act} {a : App.State T}, App.Run cfg (pre ++ post) log a →
      a1.world.app.results <+: a.world.app.results := by
  intro post
  induction post using List.reverseRecOn with
  | nil =>
    intro log a h
    rw [List.append_nil] at h
    obtain ⟨_, rfl⟩ := App.run_unique h1 h
    exact List.prefix_rfl
  | append_singleton post x ih =>
    intro log a h
    rw [← List.append_assoc] at h
    obtain ⟨log0, a0, hr, hs, _⟩ := App.run_last h rfl
    obtain ⟨_, hw, _⟩ := step_some hs
    exact (ih hr).trans (results_steps hw)

/-- Every call in progress was made. -/
theorem was_made {cfg : World.Cfg T} {acts : List App.Act} {log : List World.Act} {a : App.State T} (h : App.Run cfg acts log a) :
    ∀ j ∈ a.jobs, ∃ pre post log0 a0, acts = pre ++ .start j.made :: post ∧ App.Run cfg pre log0 a0 := by
  induction h with
  | nil => intro j hj; cases hj
  | @snoc as log a a' x h hs ih =>
    have up : ∀ j ∈ a.jobs, ∃ pre post log0 a0, as ++ [x] = pre ++ .start j.made :: post ∧ App.Run cfg pre log0 a0 := by
      intro j hj
      obtain ⟨pre, post, log0, a0, h1, h2⟩ := ih j hj
      exact ⟨pre, post ++ [x], log0, a0, by rw [h1]; simp, h2⟩
    have upm : ∀ (k : Nat) (f : Job → Job), (∀ j, (f j).made = j.made) → ∀ j ∈ a.jobs.modify k f,
        ∃ pre post log0 a0, as ++ [x] = pre ++ .start j.made :: post ∧ App.Run cfg pre log0 a0 := by
      intro k f hf j hj
      obtain ⟨n, hn⟩ := List.mem_iff_getElem?.mp hj
      rw [List.getElem?_modify] at hn
      cases h0 : a.jobs[n]? with
      | none => rw [h0] at hn; cases hn
      | some j0 =>
        rw [h0] at hn
        have hm : j.made = j0.made := by
          by_cases hk : k = n
          · simp only [hk, if_true, Option.map_eq_map, Option.map_some, Option.some.injEq] at hn
            rw [← hn]; exact hf j0
          · simp only [hk, if_false, Option.map_eq_map, Option.map_some, Option.some.injEq, id_eq] at hn
            rw [hn]
        rw [hm]
        exact up j0 (List.mem_of_getElem? h0)
    obtain ⟨_, _, hj⟩ := step_some hs
    intro j hm
    rw [hj] at hm
    cases x with
    | world _ => exact up j hm
    | start c =>
      rcases List.mem_append.mp hm with hm | hm
      · exact up j hm
      · rw [List.mem_singleton] at hm
        subst hm
        exact ⟨as, [], log, a, by cases c <;> rfl, h⟩
    | run k =>
      refine upm k _ (fun j => ?_) j hm
      unfold Job.after
      split <;> (try rfl) <;> split <;> rfl
    | drop k => exact upm k (fun j => { j with live := false }) (fun j => rfl) j hm

/-- What the application was given came from a broker. -/
theorem given_read {cfg : World.Cfg T} {log : List World.Act} {w : World T} (h : World.Run cfg log w) (hme : cfg.me < w.sys.nClients)
    {id : MessageId} (hg : w.app.Given id) : ∃ b m, m ∈ readFor w cfg.me b ∧ id ∈ m.ids := by
  obtain ⟨slog, alog, hp⟩ := proj h
  obtain ⟨k, ms, r, h1, h2, h3⟩ := hg
  have hh : (Outcome.ok r : Outcome (Consumer.Received T)) ∈ w.app.handedOut :=
    List.mem_flatMap.mpr ⟨_, h1, List.mem_map_of_mem h2⟩
  have hst := (C88_no_duplicates hp.app).subset hh
  obtain ⟨m, hm, hy⟩ := List.mem_flatMap.mp hst
  have hid : id ∈ m.ids := by
    cases m with
    | single c mid p =>
      simp only [Consumer.yields] at hy
      split at hy
      · rw [List.mem_singleton] at hy
        cases hy
        simp [Message.ids, ← h3]
      · rw [List.mem_singleton] at hy; cases hy
    | batch c mid ps =>
      simp only [Consumer.yields] at hy
      split at hy
      · obtain ⟨r', hr', he⟩ := List.mem_map.mp hy
        cases he
        obtain ⟨⟨x, n⟩, hx, hd⟩ := List.mem_filterMap.mp hr'
        obtain ⟨t, _, rfl⟩ := Option.map_eq_some_iff.mp hd
        have := (List.mem_zipIdx hx).2.1
        simp only [Message.ids, List.mem_map, List.mem_range]
        exact ⟨n, by simpa using this, h3⟩
      · rw [List.mem_singleton] at hy; cases hy
  rw [hp.delivered] at hm
  obtain ⟨b, hb⟩ := Sys.message_source hp.sys hm
  rw [hp.socket b] at hb
  refine ⟨b, m, ?_, hid⟩
  unfold readFor Sys.addressedTo
  refine List.mem_filter.mpr ⟨hb, ?_⟩
  have hc : ∃ e ∈ (w.sys.clients cfg.me).taken ++ (w.sys.clients cfg.me).inbox, e.inb = .message m := by
    unfold Sys.messagesIn at hm
    obtain ⟨e, he, hx⟩ := List.mem_filterMap.mp hm
    refine ⟨e, he, ?_⟩
    split at hx
    · cases hx; assumption
    · cases hx
  obtain ⟨e, he, hem⟩ := hc
  have := C26_ids ⟨_, hp.sys⟩ hme he (id := m.consumerId) (by rw [hem]; rfl)
  rw [(Sys.wf ⟨_, hp.sys⟩).ids _ hme] at this
  simpa using this.symm

/-- What a call on a client did is what its program can do. -/
theorem events_steps {cfg : World.Cfg T} {acts : List App.Act} {log : List World.Act} {a : App.State T} (h : App.Run cfg acts log a)
    {j : Job} (hj : j ∈ a.jobs) {i : Nat} {p : Prog Unit} (hm : j.made = .call i p) : Steps p j.events := by
  have hst := steps_of h hj
  have hk := kind h j hj
  cases hk with
  | missing _ _ _ hm' => rcases hm' with ⟨b, hb, _⟩ | ⟨b, hb, _⟩ <;> rw [hm] at hb <;> cases hb
  | consumer b name topic sub hb hm' => rw [hm] at hm'; cases hm'
  | producer b name topic hb hm' => rw [hm] at hm'; cases hm'
  | call i' p' core evs hm' hc hp ht hs =>
    rw [hm] at hm'
    cases hm'
    have hev : j.events = evs := events_of (pre := []) (by simpa using ht) (by simp)
    rw [hev]
    have inj : ∀ l l' : List Ev, l.map (SetupEv.did core) = l'.map (SetupEv.did core) → l = l' := by
      intro l l' h
      exact List.map_injective_iff.mpr (fun x y h => by cases h; rfl) h
    rw [hs, ht] at hst
    generalize hl : evs.map (SetupEv.did core) = l at hst
    cases hst with
    | nil => cases evs with
      | nil => exact .nil _
      | cons x l => cases hl
    | inSession _ _ _ evs' hp' => rw [inj _ _ hl]; exact hp'
    | session _ _ _ evs' r tr hp' hk =>
      cases hk
      rw [List.append_nil] at hl
      rw [inj _ _ hl]
      exact steps_of_runs hp'

/-- At-least-once, on the client's side: if the application acknowledges only messages it was given, then every acknowledgement of its
consumer a broker has been sent - whenever one looks, so also at the moment the process ends - is for a message that a receiving call
has returned to the application, and that a broker sent to this consumer. -/
theorem C138_acknowledged_was_given {cfg : World.Cfg T} {acts : List App.Act} {log : List World.Act} {a : App.State T}
    (h : App.Run cfg acts log a) (hv : Fits a.world) (hn : a.world.sys.nClients ≤ 2 ^ 64) (hme : cfg.me < a.world.sys.nClients)
    (hg : AcksOnlyGiven cfg acts) {b : BrokerAddress} {v : MessageCommand} (hf : Received (a.world.tx b).sent v) {id : MessageId}
    (hk : IsAck v (UInt64.ofNat cfg.me) id) :
    a.world.app.Given id ∧ ∃ b' m, m ∈ readFor a.world cfg.me b' ∧ id ∈ m.ids := by
  obtain ⟨j, i, p, m, t, hj, hm, he, hk'⟩ := C121_acks h hv hf hk.1
  have hlt : i < a.world.sys.nClients := ((seen h j hj).client i (within h j hj i p hm).1).1
  obtain ⟨_, x, h1, h2, h3⟩ := hk
  obtain ⟨_, x', h1', h2', h3'⟩ := hk'
  rw [h1] at h1'
  cases h1'
  rw [h3] at h3'
  cases h3'
  rw [h2] at h2'
  have hi : cfg.me = i := by
    have := congrArg UInt64.toNat h2'
    simp only [UInt64.toNat_ofNat'] at this
    omega
  subst hi
  obtain ⟨pre, post, log0, a0, hacts, hr⟩ := was_made h j hj
  rw [hm] at hacts
  obtain ⟨k, ms, r, g1, g2, g3⟩ := hg pre p post log0 a0 hacts hr id ⟨_, _, events_steps h hj hm, he⟩
  subst hacts
  have hgiven : a.world.app.Given id := ⟨k, ms, r, (given_later hr h).subset g1, g2, g3⟩
  exact ⟨hgiven, given_read (run_world h) hme hgiven⟩

/-- So a message the application was not given - not arrived, waiting in a channel, in the consumer's buffer, or lost by a dropped
call - is not acknowledged. -/
theorem C138_not_given_not_acknowledged {cfg : World.Cfg T} {acts : List App.Act} {log : List World.Act} {a : App.State T}
    (h : App.Run cfg acts log a) (hv : Fits a.world) (hn : a.world.sys.nClients ≤ 2 ^ 64) (hme : cfg.me < a.world.sys.nClients)
    (hg : AcksOnlyGiven cfg acts) {id : MessageId} (hid : ¬ a.world.app.Given id) (b : BrokerAddress) (v : MessageCommand)
    (hf : Received (a.world.tx b).sent v) : ¬ IsAck v (UInt64.ofNat cfg.me) id :=
  fun hk => hid (C138_acknowledged_was_given h hv hn hme hg hf hk).1

theorem calls_mem {tr : List Ev} {c : Call} {r : Outcome Nat} (h : .handed c r ∈ tr) : c ∈ calls tr :=
  List.mem_filterMap.mpr ⟨_, h, rfl⟩

theorem steps_done {α : Type} {p : Prog α} {tr : List Ev} (h : Steps (do let _ ← p; pure () : Prog Unit) tr) : Steps p tr := by
  rcases steps_bind h with h | ⟨tr1, tr2, r, rfl, h1, h2⟩
  · exact h
  · rw [steps_pure] at h2; subst h2; rw [List.append_nil]; exact steps_of_runs h1

theorem handAll_calls (f : MessageId → Call) (ms : List MessageId) : ∀ tr, Steps (handAll (ms.map fun id => .ok (f id))) tr →
    ∀ c ∈ calls tr, ∃ id ∈ ms, c = f id := by
  induction ms with
  | nil =>
    intro tr h c hc
    simp only [List.map_nil, handAll] at h
    rw [steps_pure] at h; subst h; cases hc
  | cons m ms ih =>
    intro tr h c hc
    simp only [List.map_cons, handAll] at h
    have one : ∀ (r : Outcome Nat) (tr2 : List Ev), (∀ c ∈ calls tr2, ∃ id ∈ ms, c = f id) → c ∈ calls (.handed (f m) r :: tr2) →
        ∃ id ∈ m :: ms, c = f id := by
      intro r tr2 h2 hc
      have : calls (.handed (f m) r :: tr2) = f m :: calls tr2 := rfl
      rw [this, List.mem_cons] at hc
      rcases hc with rfl | hc
      · exact ⟨m, by simp, rfl⟩
      · obtain ⟨id, h1, h3⟩ := h2 c hc
        exact ⟨id, by simp [h1], h3⟩
    rcases steps_andThen h with h | ⟨tr1, tr2, r, rfl, h1, _, h2⟩
    · rcases steps_handOver h with rfl | ⟨r, rfl, _⟩
      · cases hc
      · exact one r [] (by intro c hc; cases hc) hc
    · rw [runs_handOver] at h1
      obtain ⟨rfl, _⟩ := h1
      refine one r tr2 ?_ hc
      rcases steps_bind h2 with h2 | ⟨tr3, tr4, ts, rfl, h3, h4⟩
      · exact ih _ h2
      · have : tr4 = [] := by cases r <;> exact steps_pure.mp h4
        subst this; rw [List.append_nil]; exact ih _ (steps_of_runs h3)

theorem waitAll_calls (l : List (Nat × Call)) : ∀ tr, Steps (waitAll l) tr → calls tr = [] := by
  induction l with
  | nil => intro tr h; simp only [waitAll] at h; rw [steps_pure] at h; subst h; rfl
  | cons x l ih =>
    intro tr h
    obtain ⟨t, c⟩ := x
    simp only [waitAll] at h
    rcases steps_andThen h with h | ⟨tr1, tr2, r, rfl, h1, _, h2⟩
    · rcases steps_await h with rfl | ⟨i, rfl⟩ <;> rfl
    · rw [runs_await] at h1
      obtain ⟨rfl, _⟩ := h1
      exact ih tr2 h2

/-- `ack` and `ack_all` ask for the acknowledgement of the messages they are given only; the other calls for none. -/
theorem C138_calls {S : Type} (serialize : S → Option Bytes) (m : MessageId) (ms : List MessageId) (x : S) (xs : List S) (id : MessageId) :
    (Acks (Session.ack m) id → id = m) ∧ (Acks (Session.ackAll ms) id → id ∈ ms) ∧
    ¬ Acks (Session.send serialize x) id ∧ ¬ Acks (Session.sendBatch serialize xs) id ∧ ¬ Acks (Session.sendAll serialize xs) id := by
  obtain ⟨h1, h2, h3⟩ := C107_only_serialised (serialize := serialize) x xs
  refine ⟨?_, ?_, ?_, ?_, ?_⟩
  · rintro ⟨tr, r, h, hm⟩
    have h := steps_done h
    rcases steps_call h with rfl | rfl | ⟨t, rfl⟩ | ⟨t, i, rfl⟩ <;> simp at hm
    · exact hm.1
    · exact hm.1
    · exact hm.1
  · rintro ⟨tr, r, h, hm⟩
    have hc := calls_mem hm
    have key : ∀ tr, Steps (Session.ackAll ms) tr → ∀ c ∈ calls tr, ∃ id ∈ ms, c = .ack id := by
      intro tr h c hc
      rcases steps_bind h with h | ⟨tr1, tr2, ts, rfl, g1, g2⟩
      · exact handAll_calls .ack ms _ h c hc
      · rw [calls_append, waitAll_calls _ _ (steps_done g2), List.append_nil] at hc
        exact handAll_calls .ack ms _ (steps_of_runs g1) c hc
    obtain ⟨id', g1, g2⟩ := key _ h _ hc
    cases g2
    exact g1
  · rintro ⟨tr, r, h, hm⟩
    have hc := calls_mem hm
    rcases h1 tr h with h | ⟨p, _, h⟩ <;> rw [h] at hc <;> simp at hc
  · rintro ⟨tr, r, h, hm⟩
    have hc := calls_mem hm
    rcases h2 tr h with h | ⟨p, _, h⟩ <;> rw [h] at hc <;> simp at hc
  · rintro ⟨tr, r, h, hm⟩
    have hc := (h3 tr h).subset (calls_mem hm)
    simp at hc

end Neutron.Props
