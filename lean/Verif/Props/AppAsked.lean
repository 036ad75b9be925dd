import Verif.Proof.AppAsked
import Verif.Props.AppOrder
import Verif.Props.AppCalls
import Verif.Props.Builder

/-!
# Nothing is sent that the application did not ask for: C121
-/

namespace Neutron.Props

open Neutron Neutron.World Neutron.App Session Proto

variable {T : Type}

/-- The commands of two steps are equal: then so is the one with the other's id and name. -/
theorem same_issue {core core2 : Client} {c c2 : Call} (h : (core.issue c).2 = (core2.issue c2).2) :
    ((⟨core2.clientId, core2.clientName, core.requestId, core.sequenceId⟩ : Client).issue c).2 = (core.issue c).2 := by
  cases c <;> cases c2 <;> simp_all [Client.issue]

/-- A request handed over as step `c` of a call on client `i`: this is its command. -/
theorem request_of {cfg : World.Cfg T} {acts : List App.Act} {log : List World.Act} {a : App.State T} (h : App.Run cfg acts log a)
    {j : Job} (hj : j ∈ a.jobs) {i : Nat} (hc : j.client = some i) {c : Call} {t : Nat} (he : .handed c (.ok t) ∈ j.events)
    (hx : c.expectsResponse = true) : i < a.world.sys.nClients ∧ ∃ req seq,
      a.world.sys.issued[t]? = some (i, ((⟨UInt64.ofNat i, (a.world.sys.clients i).core.clientName, req, seq⟩ : Client).issue c).2) := by
  have hs := seen h j hj
  have hm : ∃ core, SetupEv.did core (.handed c (.ok t)) ∈ j.trace := by
    unfold Job.events at he
    obtain ⟨ev, h1, h2⟩ := List.mem_filterMap.mp he
    cases ev with
    | did core ev => simp only [Option.some.injEq] at h2; subst h2; exact ⟨core, h1⟩
    | _ => simp at h2
  obtain ⟨core0, hm⟩ := hm
  obtain ⟨core, hi⟩ := hs.events i hc core0 _ hm hx
  obtain ⟨h1, core2, c2, h2, h3, _, h4⟩ := Sys.issued_named (reachable h) _ _ _ hi
  refine ⟨h1, core.requestId, core.sequenceId, ?_⟩
  rw [hi, ← h2, ← h3, same_issue h4]

/-- What the engine passes on for the command of step `c` of a call. -/
theorem carries {cfg : Sys.Cfg} {i : Nat} {name : String} {req seq : UInt64} {c : Call} (hx : c.expectsResponse = true) {out : Outbound}
    (hp : Sys.Passes cfg ((⟨UInt64.ofNat i, name, req, seq⟩ : Client).issue c).2 out) {now : UInt64} {v : MessageCommand}
    (hv : out.toCommand now = .ok v) : Carries cfg i name c v := by
  have conn : ∀ (x : Connect) auth c2, x.authMethodName = none → Sys.connectFor cfg x auth = .ok c2 →
      c2.brokerAddress = Sys.connectAddress cfg x.brokerAddress ∧ c2.authMethodName = cfg.authMethod := by
    intro x auth c2 hx h
    unfold Sys.connectFor at h
    simp only [] at h
    split at h
    · rename_i m hm
      split at h
      · cases h; exact ⟨rfl, hm.symm⟩
      · cases h
      · cases h
    · rename_i hm; cases h; exact ⟨rfl, by rw [hm]; exact hx⟩
  cases c with
  | flow n => cases hx
  | connect =>
    obtain ⟨auth, c2, h1, rfl⟩ := hp
    obtain ⟨g1, g2⟩ := conn _ _ _ rfl h1
    cases hv
    exact .connect c2 g1 g2
  | connectToProxy p =>
    obtain ⟨auth, c2, h1, rfl⟩ := hp
    obtain ⟨g1, g2⟩ := conn _ _ _ rfl h1
    cases hv
    refine .proxied p c2 ?_ g2
    rw [g1]
    simp [Sys.connectAddress]
  | lookupTopic t => cases hp; cases hv; exact .lookup t req
  | producer t => cases hp; cases hv; exact .producer t req
  | subscribe t s => cases hp; cases hv; exact .subscribe t s req
  | ack m => cases hp; exact .ack m req v hv
  | sendMessage p => cases hp; exact .send p seq now v hv
  | sendBatch p => cases hp; exact .sendBatch p seq now v hv

/-- A command that went to a connection was asked for. -/
theorem taken_from {cfg : World.Cfg T} {acts : List App.Act} {log : List World.Act} {a : App.State T} (h : App.Run cfg acts log a)
    {b : BrokerAddress} {x : Sys.ConnCmd} (hx : x ∈ (a.world.sys.conns b).processed) {now : UInt64} {v : MessageCommand}
    (hv : x.out.toCommand now = .ok v) : (b, x) ∈ a.world.sys.sent ∧
      match Sys.tokOf x with
      | none => IsPong v ∨ ∃ i, i < a.world.sys.nClients ∧ IsFlow v (UInt64.ofNat i) ∧ (i = cfg.me ∨
          ∃ (n : Nat) (j : Job) (q : UInt32) (t : Nat), a.jobs[n]? = some j ∧ j.client = some i ∧ .handed (.flow q) (.ok t) ∈ j.events)
      | some t => ∃ (n p : Nat) (j : Job) (i : Nat) (c : Call), a.jobs[n]? = some j ∧ j.client = some i ∧
          j.events[p]? = some (.handed c (.ok t)) ∧ Carries cfg.sys i (a.world.sys.clients i).core.clientName c v := by
  have hr := reachable h
  have hs : (b, x) ∈ a.world.sys.sent := by
    rw [← Sys.mem_sentTo, ← (Sys.conn hr).accepted b, ((Sys.conn hr).ok b).fifo]
    exact List.mem_append_left _ hx
  refine ⟨hs, ?_⟩
  have hok := (Sys.cmd hr).sentOk b x hs
  cases ho : x.origin with
  | none =>
    rw [ho] at hok
    simp only [Sys.tokOf, ho, Option.bind_none]
    rw [hok.1] at hv
    cases hv
    exact .inl (commandType_base ..)
  | some y =>
    obtain ⟨i, cm⟩ := y
    rw [ho] at hok
    obtain ⟨h1, h2, h3⟩ := hok
    have hsub : cm ∈ (a.world.sys.clients i).submitted := ((Sys.cmd hr).submitted i h1).subset (List.mem_append_left _ h2)
    have hask := asked h i h1 cm hsub
    unfold AskedBy at hask
    have htok : Sys.tokOf x = cm.tok := by simp [Sys.tokOf, ho]
    rw [htok]
    cases ht : cm.tok with
    | none =>
      rw [ht] at hask
      obtain ⟨core, call, k1, k2, k3⟩ := Sys.made_handled hr h1 h2
      rw [ht] at k3
      refine .inr ⟨i, h1, ?_, ?_⟩
      · cases call <;> first | (simp [Call.expectsResponse] at k3; done) | skip
        rename_i q
        rw [k2] at h3
        have hout : x.out = .flow ⟨core.clientId, q⟩ := h3
        rw [hout] at hv
        cases hv
        refine ⟨commandType_base .., Neutron.mkMsg .commandFlow [(1, vU64 core.clientId), (2, [.int q.toNat])], ?_, ?_⟩
        · unfold getMsg Flow.toCommand baseCommand
          rw [getF_mk _ _ _ rfl]
          rfl
        · rw [← k1]; exact u64_of rfl rfl
      · rcases hask with hask | ⟨n, j, c, t, g1, g2, g3, g4⟩
        · exact .inl hask
        · cases c <;> first | (simp [Call.expectsResponse] at g4; done) | skip
          exact .inr ⟨n, j, _, t, g1, g2, g3⟩
    | some t =>
      rw [ht] at hask
      obtain ⟨n, j, g1, g2, g3⟩ := hask
      unfold requests at g3
      obtain ⟨ev, g4, g5⟩ := List.mem_filterMap.mp g3
      have hev : ∃ c, ev = .handed c (.ok t) ∧ c.expectsResponse = true := by
        split at g5
        · split at g5
          · cases g5; exact ⟨_, rfl, by assumption⟩
          · cases g5
        · cases g5
      obtain ⟨c, rfl, hexp⟩ := hev
      obtain ⟨p, hp⟩ := List.getElem?_of_mem g4
      obtain ⟨_, req, seq, hq⟩ := request_of h (List.mem_of_getElem? g1) g2 g4 hexp
      have hq2 := Sys.submitted_issued hr i h1 cm hsub t ht
      rw [hq, Option.some.injEq, Prod.mk.injEq] at hq2
      rw [← hq2.2] at h3
      exact ⟨n, p, j, i, c, g1, g2, hp, carries hexp h3 hv⟩

/-- Over all sockets, what requests put on the wire is there once. -/
theorem wire_once {cfg : World.Cfg T} {acts : List World.Act} {w : World T} (h : World.Run cfg acts w) (hn : w.sys.nClients ≤ 2 ^ 64)
    {b b' : BrokerAddress} {l l' : List Sys.ConnCmd} (hl : l.Sublist (w.sys.conns b).processed)
    (hl' : l'.Sublist (w.sys.conns b').processed) (hll : b = b' → l = l') {k k' : Nat} {x x' : Sys.ConnCmd} (hk : l[k]? = some x)
    (hk' : l'[k']? = some x') {t : Nat} (ht : Sys.tokOf x = some t) (ht' : Sys.tokOf x' = some t) : b = b' ∧ k = k' := by
  obtain ⟨log, appLog, hp⟩ := proj h
  have hr : Sys.Reachable cfg.sys w.sys := ⟨_, hp.sys⟩
  have honce := Sys.once hr hn
  have mem : ∀ {b : BrokerAddress} {l : List Sys.ConnCmd} {k : Nat} {x : Sys.ConnCmd}, l.Sublist (w.sys.conns b).processed →
      l[k]? = some x → (b, x) ∈ w.sys.sent := by
    intro b l k x hl hk
    rw [← Sys.mem_sentTo, ← (Sys.conn hr).accepted b, ((Sys.conn hr).ok b).fifo]
    exact List.mem_append_left _ (hl.subset (List.mem_of_getElem? hk))
  have hbb : b = b' := by
    obtain ⟨n, hn1, hn2⟩ := List.mem_iff_getElem.mp (mem hl hk)
    obtain ⟨n', hn1', hn2'⟩ := List.mem_iff_getElem.mp (mem hl' hk')
    rw [List.pairwise_iff_getElem] at honce
    rcases Nat.lt_trichotomy n n' with hlt | heq | hlt
    · exact absurd (by rw [hn2']; exact ht') (honce n n' hn1 hn1' hlt t (by rw [hn2]; exact ht))
    · subst heq; rw [hn2, Prod.mk.injEq] at hn2'; exact hn2'.1
    · exact absurd (by rw [hn2]; exact ht) (honce n' n hn1' hn1 hlt t (by rw [hn2']; exact ht'))
  refine ⟨hbb, ?_⟩
  have := hll hbb
  subst this
  have hpw : l.Pairwise fun x y => ∀ t, Sys.tokOf x = some t → Sys.tokOf y ≠ some t := by
    refine List.Pairwise.sublist hl ?_
    have : (Sys.sentTo w.sys.sent b).Pairwise fun x y => ∀ t, Sys.tokOf x = some t → Sys.tokOf y ≠ some t := by
      unfold Sys.sentTo
      rw [List.pairwise_filterMap]
      refine honce.imp ?_
      intro x y hxy u hu v hv'
      split at hu
      · split at hv'
        · cases hu; cases hv'; exact hxy
        · cases hv'
      · cases hu
    rw [← (Sys.conn hr).accepted b, ((Sys.conn hr).ok b).fifo] at this
    exact (List.pairwise_append.mp this).1
  rw [List.pairwise_iff_getElem] at hpw
  obtain ⟨q1, q2⟩ := List.getElem?_eq_some_iff.mp hk
  obtain ⟨q1', q2'⟩ := List.getElem?_eq_some_iff.mp hk'
  rcases Nat.lt_trichotomy k k' with hlt | heq | hlt
  · exact absurd (by rw [q2']; exact ht') (hpw k k' q1 q1' hlt t (by rw [q2]; exact ht))
  · exact heq
  · exact absurd (by rw [q2]; exact ht) (hpw k' k q1' q1 hlt t (by rw [q2']; exact ht'))

/-- Everything the brokers have been sent was asked for, once.  Take the whole commands `fs b` each broker `b` has been sent.  Each is a
`PONG`; or a `FLOW` of the consumer receiving, or of one that a call of the application set up; or it is what step `p` of call `n` of the
application put on the wire: `who b k = (n, p)` says which.  And no step of a call is on the wire twice. -/
theorem C121_asked {cfg : World.Cfg T} {acts : List App.Act} {log : List World.Act} {a : App.State T} (h : App.Run cfg acts log a)
    (hv : Fits a.world) (hn : a.world.sys.nClients ≤ 2 ^ 64) (fs : BrokerAddress → List (MessageCommand × Bytes))
    (hfs : ∀ b, BeginsWith (a.world.tx b).sent (fs b)) :
    ∃ who : BrokerAddress → Nat → Option (Nat × Nat),
      (∀ b k f, (fs b)[k]? = some f → match who b k with
        | none => IsPong f.1 ∨ ∃ i, i < a.world.sys.nClients ∧ IsFlow f.1 (UInt64.ofNat i) ∧ (i = cfg.me ∨
            ∃ (n : Nat) (j : Job) (q : UInt32) (t : Nat), a.jobs[n]? = some j ∧ j.client = some i ∧ .handed (.flow q) (.ok t) ∈ j.events)
        | some (n, p) => ∃ (j : Job) (i : Nat) (c : Call) (t : Nat), a.jobs[n]? = some j ∧ j.client = some i ∧
            j.events[p]? = some (.handed c (.ok t)) ∧ Carries cfg.sys i (a.world.sys.clients i).core.clientName c f.1) ∧
      ∀ b k b' k' x, k < (fs b).length → k' < (fs b').length → who b k = some x → who b' k' = some x → b = b' ∧ k = k' := by
  have hall : ∀ b, ∃ l : List (Sys.ConnCmd × MessageCommand), (l.map (·.1)).Sublist (a.world.sys.conns b).processed ∧
      l.map (·.2) = (fs b).map (·.1) ∧ ∀ x ∈ l, ∃ now, x.1.out.toCommand now = .ok x.2 := fun b => received_of (run_world h) hv b (hfs b)
  obtain ⟨l, hl⟩ := Classical.axiomOfChoice hall
  have at' : ∀ {b : BrokerAddress} {k : Nat} {f : MessageCommand × Bytes}, (fs b)[k]? = some f → ∃ x, (l b)[k]? = some (x, f.1) := by
    intro b k f hk
    have h2 : ((fs b).map (·.1))[k]? = some f.1 := by rw [List.getElem?_map, hk]; rfl
    rw [← (hl b).2.1, List.getElem?_map, Option.map_eq_some_iff] at h2
    obtain ⟨⟨c, v⟩, hl, rfl⟩ := h2
    exact ⟨c, hl⟩
  -- for each frame made by a request: a step of a call with that request
  have hstep : ∀ (b : BrokerAddress) (k : Nat), ∃ w : Option (Nat × Nat), ∀ x v, (l b)[k]? = some (x, v) → match Sys.tokOf x with
      | none => w = none
      | some t => ∃ (n p : Nat) (j : Job) (i : Nat) (c : Call), w = some (n, p) ∧ a.jobs[n]? = some j ∧ j.client = some i ∧
          j.events[p]? = some (.handed c (.ok t)) ∧ Carries cfg.sys i (a.world.sys.clients i).core.clientName c v := by
    intro b k
    cases hk : (l b)[k]? with
    | none => exact ⟨none, fun x v hx => by cases hx⟩
    | some y =>
      obtain ⟨x, v⟩ := y
      have hm := List.mem_of_getElem? hk
      obtain ⟨now, hnow⟩ := (hl b).2.2 _ hm
      have := (taken_from h ((hl b).1.subset (List.mem_map_of_mem hm)) hnow).2
      cases ht : Sys.tokOf x with
      | none => exact ⟨none, fun x' v' hx => by cases hx; rw [ht]⟩
      | some t =>
        rw [ht] at this
        obtain ⟨n, p, j, i, c, h1, h2, h3, h4⟩ := this
        exact ⟨some (n, p), fun x' v' hx => by cases hx; rw [ht]; exact ⟨n, p, j, i, c, rfl, h1, h2, h3, h4⟩⟩
  obtain ⟨who, hwho⟩ := Classical.axiomOfChoice fun b => Classical.axiomOfChoice (hstep b)
  refine ⟨who, ?_, ?_⟩
  · intro b k f hk
    obtain ⟨x, hx⟩ := at' hk
    have hw := hwho b k x f.1 hx
    cases ht : Sys.tokOf x with
    | none =>
      rw [ht] at hw
      simp only [hw]
      have hm := List.mem_of_getElem? hx
      obtain ⟨now, hnow⟩ := (hl b).2.2 _ hm
      have := (taken_from h ((hl b).1.subset (List.mem_map_of_mem hm)) hnow).2
      rw [ht] at this
      exact this
    | some t =>
      rw [ht] at hw
      obtain ⟨n, p, j, i, c, h0, h1, h2, h3, h4⟩ := hw
      simp only [h0]
      exact ⟨j, i, c, t, h1, h2, h3, h4⟩
  · intro b k b' k' y hk hk' hw hw'
    obtain ⟨x, hx⟩ := at' (List.getElem?_eq_getElem hk)
    obtain ⟨x', hx'⟩ := at' (List.getElem?_eq_getElem hk')
    have h1 := hwho b k _ _ hx
    have h1' := hwho b' k' _ _ hx'
    cases ht : Sys.tokOf x with
    | none => rw [ht] at h1; simp only [h1] at hw; cases hw
    | some t =>
      cases ht' : Sys.tokOf x' with
      | none => rw [ht'] at h1'; simp only [h1'] at hw'; cases hw'
      | some t' =>
        rw [ht] at h1
        rw [ht'] at h1'
        obtain ⟨n, p, j, i, c, g0, g1, g2, g3, g4⟩ := h1
        obtain ⟨n', p', j', i', c', g0', g1', g2', g3', g4'⟩ := h1'
        rw [g0] at hw
        rw [g0'] at hw'
        have he := hw.trans hw'.symm
        simp only [Option.some.injEq, Prod.mk.injEq] at he
        obtain ⟨rfl, rfl⟩ := he
        rw [g1] at g1'; cases g1'
        rw [g3] at g3'
        have htt : t = t' := by simp only [Option.some.injEq, Ev.handed.injEq, Outcome.ok.injEq] at g3'; exact g3'.2
        subst htt
        exact wire_once (run_world h) hn (hl b).1 (hl b').1 (fun hb => by subst hb; rfl)
          (by rw [List.getElem?_map, hx]; rfl) (by rw [List.getElem?_map, hx']; rfl) ht ht'

/-- What a broker has been sent, other than `PONG`s and `FLOW`s, some call of the application put there. -/
theorem asked_one {cfg : World.Cfg T} {acts : List App.Act} {log : List World.Act} {a : App.State T} (h : App.Run cfg acts log a)
    (hv : Fits a.world) {b : BrokerAddress} {v : MessageCommand} (hf : Received (a.world.tx b).sent v)
    (hp : commandType v.command ≠ 19) (hfl : commandType v.command ≠ 11) :
    ∃ (j : Job) (i : Nat) (c : Call) (t : Nat), j ∈ a.jobs ∧ j.client = some i ∧ .handed c (.ok t) ∈ j.events ∧
      Carries cfg.sys i (a.world.sys.clients i).core.clientName c v := by
  obtain ⟨fs, hfs, hm⟩ := hf
  obtain ⟨l, l1, l2, l3⟩ := received_of (run_world h) hv b hfs
  rw [← l2] at hm
  obtain ⟨⟨x, v'⟩, hmem, hvv⟩ := List.mem_map.mp hm
  subst hvv
  obtain ⟨now, hnow⟩ := l3 _ hmem
  have := (taken_from h (l1.subset (List.mem_map_of_mem hmem)) hnow).2
  cases ht : Sys.tokOf x with
  | none =>
    rw [ht] at this
    rcases this with this | ⟨_, _, this, _⟩
    · exact absurd this hp
    · exact absurd this.1 hfl
  | some t =>
    rw [ht] at this
    obtain ⟨n, p, j, i, c, h1, h2, h3, h4⟩ := this
    exact ⟨j, i, c, t, List.mem_of_getElem? h1, h2, List.mem_of_getElem? h3, h4⟩

/-- The calls `connect` makes on its client: none sends or acknowledges anything. -/
theorem connect_calls {cfg : World.Cfg T} {acts : List App.Act} {log : List World.Act} {a : App.State T} (h : App.Run cfg acts log a)
    {j : Job} (hj : j ∈ a.jobs) {c : Call} {r : Outcome Nat} (he : .handed c r ∈ j.events) :
    (∃ i p, j.made = .call i p ∧ j.client = some i) ∨ (∀ m, c ≠ .ack m) ∧ (∀ m, c ≠ .sendMessage m) ∧ ∀ m, c ≠ .sendBatch m := by
  have follows : ∀ (script : List Call) (tr : List Ev), Follows script tr → ∀ c r, .handed c r ∈ tr → c ∈ script := by
    intro script tr hf
    induction hf with
    | stop => intro c r h; cases h
    | refused c cs e => intro c' r h; simp only [List.mem_singleton, Ev.handed.injEq] at h; simp [h.1]
    | handed c cs t => intro c' r h; simp only [List.mem_singleton, Ev.handed.injEq] at h; simp [h.1]
    | failed c cs t e => intro c' r h; simp at h; simp [h.1]
    | done c cs t r tr hf ih =>
      intro c' r' h
      simp only [List.mem_cons, Ev.handed.injEq, reduceCtorEq, false_or] at h
      rcases h with h | h
      · simp [h.1]
      · exact List.mem_cons_of_mem _ (ih _ _ h)
  have stage : ∀ (name topic : String) (q : Prog Unit), j.start = setup name topic q → ∃ evs, Steps q evs ∧ j.events = evs := by
    intro name topic q hst
    have hs := steps_of h hj
    rw [hst] at hs
    unfold Job.events
    generalize j.trace = tr at hs
    unfold setup at hs
    cases hs with
    | nil => exact ⟨[], .nil _, rfl⟩
    | newId _ id tr hs =>
      cases hs with
      | nil => exact ⟨[], .nil _, rfl⟩
      | register _ _ _ r tr hr hs =>
        have each : ∀ (core : Client) (l : List Ev), List.filterMap (fun ev => match ev with
            | SetupEv.did _ ev => some ev
            | _ => none) (l.map (SetupEv.did core)) = l := by
          intro core l
          induction l with
          | nil => rfl
          | cons x l ih => simp only [List.map_cons, List.filterMap_cons, ih]
        rcases hr with rfl | rfl
        · simp only [registered] at hs
          cases hs with
          | nil => exact ⟨[], .nil _, rfl⟩
          | inSession _ _ _ evs hp => exact ⟨evs, hp, by simp⟩
          | session _ _ _ evs r tr hp hk =>
            cases hk
            exact ⟨evs, steps_of_runs hp, by simp⟩
        · simp only [registered] at hs
          cases hs
          exact ⟨[], .nil _, rfl⟩
  have resolve : ∀ topic tgt, c ∈ resolveScript topic tgt → (∀ m, c ≠ .ack m) ∧ (∀ m, c ≠ .sendMessage m) ∧ ∀ m, c ≠ .sendBatch m := by
    intro topic tgt hc
    unfold resolveScript at hc
    cases tgt <;> simp at hc
    · rcases hc with rfl | rfl <;> simp
    · rcases hc with rfl | rfl | rfl | rfl <;> simp
  have hso := start_of h j hj
  cases kind h j hj with
  | missing hp hc ht hm => simp [Job.events, ht] at he
  | call i p core evs hm hc => exact .inl ⟨i, p, hm, hc⟩
  | consumer b name topic subscription hb hm hn hs =>
    right
    obtain ⟨evs, h1, h2⟩ := stage name topic (Session.consumerConnect topic subscription 250)
      (by rw [(hso.1 b hm).1]; exact consumer_setup b hb.1 hb.2.1 hb.2.2)
    rw [h2] at he
    have := follows _ _ (C40_consumer_order h1) _ _ he
    unfold consumerScript at this
    rw [List.mem_append] at this
    rcases this with this | this
    · exact resolve _ _ this
    · simp at this
      rcases this with rfl | rfl <;> simp
  | producer b name topic hb hm hn hs =>
    right
    obtain ⟨evs, h1, h2⟩ := stage name topic (Session.producerConnect topic)
      (by rw [(hso.2.1 b hm).1]; exact producer_setup b hb.1 hb.2)
    rw [h2] at he
    have := follows _ _ (C40_producer_order h1) _ _ he
    unfold producerScript at this
    rw [List.mem_append] at this
    rcases this with this | this
    · exact resolve _ _ this
    · simp at this
      subst this; simp

/-- The type of the command of each step. -/
theorem carries_type {cfg : Sys.Cfg} {i : Nat} {name : String} {c : Call} {v : MessageCommand} (h : Carries cfg i name c v) :
    commandType v.command = match c with
      | .connect => 2 | .connectToProxy _ => 2 | .lookupTopic _ => 23 | .producer _ => 5 | .subscribe _ _ => 4 | .ack _ => 10
      | .sendMessage _ => 6 | .sendBatch _ => 6 | .flow _ => 11 := by
  cases h with
  | ack m req v hv =>
    unfold ackToCommand at hv
    simp only [List.head?_cons, Outcome.unwrap] at hv
    cases hv
    exact commandType_base ..
  | send p seq now v hv => rw [Send.toCommand_eq] at hv; cases hv; exact commandType_base ..
  | sendBatch p seq now v hv => rw [Send.toCommand_eq] at hv; cases hv; exact commandType_base ..
  | _ => exact commandType_base ..

/-- No message is acknowledged that the application did not acknowledge: an `ACK` a broker has been sent was handed over by a call of
the application on that consumer, with that message id. -/
theorem C121_acks {cfg : World.Cfg T} {acts : List App.Act} {log : List World.Act} {a : App.State T} (h : App.Run cfg acts log a)
    (hv : Fits a.world) {b : BrokerAddress} {v : MessageCommand} (hf : Received (a.world.tx b).sent v) (ht : commandType v.command = 10) :
    ∃ (j : Job) (i : Nat) (p : Prog Unit) (m : MessageId) (t : Nat), j ∈ a.jobs ∧ j.made = .call i p ∧
      .handed (.ack m) (.ok t) ∈ j.events ∧ IsAck v (UInt64.ofNat i) m := by
  obtain ⟨j, i, c, t, hj, hc, he, hcar⟩ := asked_one h hv hf (by rw [ht]; decide) (by rw [ht]; decide)
  have hmade := connect_calls h hj he
  have hty := carries_type hcar
  rw [ht] at hty
  cases c <;> simp at hty
  rename_i m
  rcases hmade with ⟨i', p, h1, h2⟩ | ⟨h1, _⟩
  · have : i' = i := by simpa [hc] using h2.symm
    subst this
    cases hcar with
    | ack m req v hv =>
      unfold ackToCommand at hv
      simp only [List.head?_cons, Outcome.unwrap] at hv
      cases hv
      refine ⟨j, i', p, m, t, hj, h1, he, ht,
        Neutron.mkMsg .commandAck [(1, vU64 (UInt64.ofNat i')), (2, [.int 0]), (3, [.msg m]), (8, vU64 req)], ?_, ?_, ?_⟩
      · unfold getMsg baseCommand
        rw [getF_mk _ _ _ rfl]
        rfl
      · exact u64_of rfl rfl
      · rw [getF_mk _ _ _ rfl]; rfl
  · exact absurd rfl (h1 m)

/-- No message is sent that the application did not send: a `SEND` a broker has been sent was handed over by a call of the application
on that producer, and carries that call's message or batch. -/
theorem C121_sends {cfg : World.Cfg T} {acts : List App.Act} {log : List World.Act} {a : App.State T} (h : App.Run cfg acts log a)
    (hv : Fits a.world) {b : BrokerAddress} {v : MessageCommand} (hf : Received (a.world.tx b).sent v) (ht : commandType v.command = 6) :
    ∃ (j : Job) (i : Nat) (p : Prog Unit) (c : Call) (t : Nat) (m : Send) (now : UInt64), j ∈ a.jobs ∧ j.made = .call i p ∧
      .handed c (.ok t) ∈ j.events ∧ m.toCommand now = .ok v ∧ IsSendCommand v (UInt64.ofNat i) m.sequenceId ∧
      ((∃ payload, c = .sendMessage payload ∧
          m = .single (a.world.sys.clients i).core.clientName (UInt64.ofNat i) m.sequenceId payload) ∨
       ∃ payloads, c = .sendBatch payloads ∧
          m = .batch (a.world.sys.clients i).core.clientName (UInt64.ofNat i) m.sequenceId payloads) := by
  obtain ⟨j, i, c, t, hj, hc, he, hcar⟩ := asked_one h hv hf (by rw [ht]; decide) (by rw [ht]; decide)
  have hmade := connect_calls h hj he
  have hty := carries_type hcar
  rw [ht] at hty
  have isSend : ∀ (m : Send) (now : UInt64), m.producerId = UInt64.ofNat i →
      IsSendCommand (m.asCommand now) (UInt64.ofNat i) m.sequenceId := by
    intro m now hm
    refine ⟨commandType_base .., Neutron.mkMsg .commandSend
      [(1, vU64 m.producerId), (2, vU64 m.sequenceId), (3, [.int (asI32 m.numberOfMessages)])], ?_, ?_, ?_⟩
    · unfold getMsg Send.asCommand baseCommand
      rw [getF_mk _ _ _ rfl]
      rfl
    · rw [← hm]; exact u64_of rfl rfl
    · exact u64_of rfl rfl
  cases c <;> simp at hty
  · rename_i payload
    rcases hmade with ⟨i', p, h1, h2⟩ | ⟨_, h1, _⟩
    · have : i' = i := by simpa [hc] using h2.symm
      subst this
      cases hcar with
      | send _ seq now v hv =>
        rw [Send.toCommand_eq] at hv
        cases hv
        exact ⟨j, i', p, _, t, .single (a.world.sys.clients i').core.clientName (UInt64.ofNat i') seq payload, now, hj, h1, he, Send.toCommand_eq ..,
          isSend _ _ rfl, .inl ⟨payload, rfl, rfl⟩⟩
    · exact absurd rfl (h1 payload)
  · rename_i payloads
    rcases hmade with ⟨i', p, h1, h2⟩ | ⟨_, _, h1⟩
    · have : i' = i := by simpa [hc] using h2.symm
      subst this
      cases hcar with
      | sendBatch _ seq now v hv =>
        rw [Send.toCommand_eq] at hv
        cases hv
        exact ⟨j, i', p, _, t, .batch (a.world.sys.clients i').core.clientName (UInt64.ofNat i') seq payloads, now, hj, h1, he, Send.toCommand_eq ..,
          isSend _ _ rfl, .inr ⟨payloads, rfl, rfl⟩⟩
    · exact absurd rfl (h1 payloads)

end Neutron.Props
