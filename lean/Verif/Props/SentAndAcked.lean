import Verif.Props.PassedOn
import Verif.Props.Undisturbed
import Verif.Spec.SentAndAcked

/-!
# C151: what is sent is received and acknowledged
-/

namespace Neutron.Props

open Neutron Neutron.App Neutron.World Neutron.Sys Proto

variable {S T : Type}

section

variable {cfgP : World.Cfg S} {σP : Nat → App.State S} {actsP : Nat → App.Act} {cfg : World.Cfg T} {σ : Nat → App.State T} {acts : Nat → App.Act}

/-- What a consumer has received was read for it, on some connection. -/
theorem received_read (h : App.Forever cfg σ acts) {n : Nat} (hme : cfg.me < (sysOf σ n).nClients) {x : Message}
    (hx : x ∈ received (sysOf σ n) cfg.me) : ∃ b, x ∈ readFor (σ n).world cfg.me b := by
  obtain ⟨_, _, hr⟩ := run_at h n
  obtain ⟨slog, alog, hp⟩ := proj (run_world hr)
  obtain ⟨hm, hc⟩ := List.mem_filter.mp hx
  obtain ⟨b, hb⟩ := Sys.message_source hp.sys hm
  rw [hp.socket b] at hb
  refine ⟨b, List.mem_filter.mpr ⟨hb, ?_⟩⟩
  rw [show ((sysOf σ n).clients cfg.me).core.clientId = UInt64.ofNat cfg.me from (Sys.wf ⟨_, hp.sys⟩).ids _ hme] at hc
  exact hc

/-- What is read for a consumer is read on the connection its `SUBSCRIBE` has been received on. -/
theorem read_here (h : App.Forever cfg σ acts) (hb : ∀ n, (sysOf σ n).nClients ≤ 2 ^ 64) (hfit : ∀ n, World.Fits (σ n).world)
    (hof : ∀ n, App.Offers (σ n)) (hd : DeliverOnlySubscribed σ acts) (hme : cfg.me < 2 ^ 64) {n0 : Nat} {b : BrokerAddress} {v : MessageCommand}
    (hsub : Received ((σ n0).world.tx b).sent v) (hv : IsSubscribe v (UInt64.ofNat cfg.me)) {n : Nat} {b' : BrokerAddress} {x : Message}
    (hx : x ∈ readFor (σ n).world cfg.me b') : b' = b := by
  induction n with
  | zero => rw [h.start] at hx; cases hx
  | succ k ih =>
    rcases reads_only (h.steps k) cfg.me b' with h2 | ⟨ans, w, h2, h3, h4⟩
    · rw [h2] at hx; exact ih hx
    · obtain ⟨m, hm1, hm2⟩ := hd k b' ans w _ h2 h3 h4
      obtain ⟨_, _, hr⟩ := run_at h (max k n0)
      have p1 := (late_of (run_world hr) (hfit _) (hb _) hme (received_to h (Nat.le_max_left k n0) hm1) (.inr (.inl hm2))).2
      have p2 := (late_of (run_world hr) (hfit _) (hb _) hme (received_to h (Nat.le_max_right k n0) hsub) (.inr (.inl hv))).2
      exact (regular_of (i := cfg.me) hr (hof _) (hfit _) (hb _)).one (run_world hr) (placed_lt h p1) p2 p1

/-- What is handed out comes from a message received. -/
theorem handed_from (h : App.Forever cfg σ acts) (hm : ∀ n, (sysOf σ n).mode ≠ .stopped) {n : Nat} {o : Outcome (Consumer.Received T)}
    (ho : o ∈ (σ n).world.app.handedOut) : ∃ x ∈ received (sysOf σ n) cfg.me, o ∈ Consumer.yields cfg.app.decode x := by
  have hF := consumer_forever h hm
  have hst := (C88_no_duplicates (hF.run n)).subset ho
  obtain ⟨x, hx, hy⟩ := List.mem_flatMap.mp hst
  exact ⟨x, delivered_in h hm hx, hy⟩

theorem _root_.Neutron.App.Consumes.job {p n0 : Nat} (hC : Consumes cfg σ acts p n0) : (σ n0).world.app.jobOf 0 = some .consume := by
  obtain ⟨t, h1, _⟩ := hC.started
  have h2 : ((σ n0).world.app.tasks.map (·.job))[0]? = some t.job := by rw [List.getElem?_map, h1]; rfl
  have h3 := hC.one n0
  revert h2 h3
  generalize (σ n0).world.app.tasks.map (·.job) = l
  intro h2 h3
  obtain ⟨l', hl'⟩ := h3
  cases l with
  | nil => cases h2
  | cons a l =>
    simp only [List.cons_append, List.cons.injEq] at hl'
    obtain ⟨rfl, _⟩ := hl'
    simp only [List.getElem?_cons_zero] at h2
    simp only [Consumer.State.jobOf, h1, Option.map_some]
    exact h2.symm

theorem _root_.Neutron.App.Consumes.noBatches (h : App.Forever cfg σ acts) (hns : ∀ n, (sysOf σ n).mode ≠ .stopped) {p n0 : Nat} (hC : Consumes cfg σ acts p n0) :
    NoBatches acts := by
  intro n k ha
  have hF := consumer_forever h hns
  have h1 : Consumer.Job.batch k ∈ Consumer.jobs (Consumer.history [] (onConsumer σ acts) (n + 1)) := by
    show Consumer.Job.batch k ∈ Consumer.jobs (Consumer.history [] (onConsumer σ acts) n ++ (onConsumer σ acts n).toList)
    rw [on_app ha]
    simp [Consumer.jobs]
  rw [← Consumer.task_jobs (hF.run (n + 1))] at h1
  have := (hC.one (n + 1)).subset h1
  simp at this

theorem _root_.Neutron.App.Consumes.few {p n0 : Nat} (hC : Consumes cfg σ acts p n0) (n : Nat) : (σ n).world.app.live ≤ 251 := by
  have h1 := (hC.one n).length_le
  rw [List.length_map] at h1
  exact Nat.le_trans List.countP_le_length (Nat.le_trans h1 (by decide))

/-- Everything the consumer has received can be decoded. -/
theorem passed_decodable (hP : App.Forever cfgP σP actsP) (hbP : ∀ n, (sysOf σP n).nClients ≤ 2 ^ 64) (hfitP : ∀ n, World.Fits (σP n).world)
    {i : Nat} (hi : i < 2 ^ 64) (ho : SendsOnly σP i fun p => (cfg.app.decode p).isSome) {bP b : BrokerAddress}
    (h : App.Forever cfg σ acts)
    (hb : ∀ n, (sysOf σ n).nClients ≤ 2 ^ 64) (hfit : ∀ n, World.Fits (σ n).world) (hof : ∀ n, App.Offers (σ n))
    (hd : DeliverOnlySubscribed σ acts) {n0 : Nat}
    {v : MessageCommand}
    (hsub : Received ((σ n0).world.tx b).sent v) (hv : IsSubscribe v (UInt64.ofNat cfg.me)) (hpass : PassesOn σP bP i σ b cfg.me)
    (n : Nat) : ∀ x ∈ received (sysOf σ n) cfg.me, ∀ o ∈ Consumer.yields cfg.app.decode x, ∃ y, o = .ok y := by
  intro x hx o hox
  have hme : cfg.me < (sysOf σ n).nClients := by
    refine Classical.byContradiction fun hi' => ?_
    obtain ⟨_, _, hr⟩ := run_at h n
    obtain ⟨e1, e2⟩ := Sys.blank (App.reachable hr) cfg.me (Nat.le_of_not_lt hi')
    simp only [received, sysOf, e1, e2] at hx
    cases hx
  obtain ⟨b', hb'⟩ := received_read h hme hx
  obtain rfl := read_here h hb hfit hof hd (Nat.lt_of_lt_of_le hme (hb n)) hsub hv hb'
  obtain ⟨m, fs, hf, hr⟩ := hpass.faithful n
  obtain ⟨h1, h2⟩ := (relayed_read hP hbP hfitP hi ho hf hr).1 x hb'
  cases x with
  | batch c mid ps => cases h1
  | single c mid pl =>
    obtain ⟨t, ht⟩ := Option.isSome_iff_exists.mp h2
    simp only [Consumer.yields, ht, List.mem_singleton] at hox
    exact ⟨_, hox⟩

/-- **C151.**  A `consume` of such an application never ends. -/
theorem C151_goes_on (hP : App.Forever cfgP σP actsP) (hbP : ∀ n, (sysOf σP n).nClients ≤ 2 ^ 64) (hfitP : ∀ n, World.Fits (σP n).world)
    {i : Nat} (hi : i < 2 ^ 64) (ho : SendsOnly σP i fun p => (cfg.app.decode p).isSome) {bP b : BrokerAddress}
    (h : App.Forever cfg σ acts) (hp : DoTheirPart cfg.sys (sysOf σ) (roundsOf cfg σ acts))
    (hb : ∀ n, (sysOf σ n).nClients ≤ 2 ^ 64) (hfit : ∀ n, World.Fits (σ n).world) (hof : ∀ n, App.Offers (σ n))
    (hd : DeliverOnlySubscribed σ acts) {p n0 : Nat} (hC : Consumes cfg σ acts p n0)
    {v : MessageCommand}
    (hsub : Received ((σ n0).world.tx b).sent v) (hv : IsSubscribe v (UInt64.ofNat cfg.me)) (hpass : PassesOn σP bP i σ b cfg.me)
    {n : Nat} (hn : n0 ≤ n) : (σ n).world.app.alive 0 :=
  C150_goes_on h (not_stopped (app_forever h) hp.loops) hof hC.inTurn (fun p' h1 => by
    by_cases e : p' = p
    · subst e; exact .inl hC.acks
    · exact .inr (hC.others p' h1 e).2) (passed_decodable hP hbP hfitP hi ho h hb hfit hof hd hsub hv hpass) hC.job hC.started hn fun m _ _ => hC.kept m

theorem _root_.Neutron.App.Consumes.attended (hP : App.Forever cfgP σP actsP) (hbP : ∀ n, (sysOf σP n).nClients ≤ 2 ^ 64) (hfitP : ∀ n, World.Fits (σP n).world)
    {i : Nat} (hi : i < 2 ^ 64) (ho : SendsOnly σP i fun p => (cfg.app.decode p).isSome) {bP b : BrokerAddress}
    (h : App.Forever cfg σ acts) (hp : DoTheirPart cfg.sys (sysOf σ) (roundsOf cfg σ acts))
    (hb : ∀ n, (sysOf σ n).nClients ≤ 2 ^ 64) (hfit : ∀ n, World.Fits (σ n).world) (hof : ∀ n, App.Offers (σ n))
    (hs : Served cfg σ acts cfg.me) (hd : DeliverOnlySubscribed σ acts) {p n0 : Nat} (hC : Consumes cfg σ acts p n0)
    {v : MessageCommand}
    (hsub : Received ((σ n0).world.tx b).sent v) (hv : IsSubscribe v (UInt64.ofNat cfg.me)) (hpass : PassesOn σP bP i σ b cfg.me)
    : App.Attended cfg σ acts :=
  ⟨hC.fair, C147_plugins h hp.loops (fun p' h1 => by
    by_cases e : p' = p
    · subst e; exact C147_comes_back h hp hb hs h1 hC.acks
    · exact (hC.others p' h1 e).1) hC.one fun m hm => C151_goes_on hP hbP hfitP hi ho h hp hb hfit hof hd hC hsub hv hpass hm⟩

theorem _root_.Neutron.App.Consumes.asks (hP : App.Forever cfgP σP actsP) (hbP : ∀ n, (sysOf σP n).nClients ≤ 2 ^ 64) (hfitP : ∀ n, World.Fits (σP n).world)
    {i : Nat} (hi : i < 2 ^ 64) (ho : SendsOnly σP i fun p => (cfg.app.decode p).isSome) {bP b : BrokerAddress}
    (h : App.Forever cfg σ acts) (hp : DoTheirPart cfg.sys (sysOf σ) (roundsOf cfg σ acts))
    (hb : ∀ n, (sysOf σ n).nClients ≤ 2 ^ 64) (hfit : ∀ n, World.Fits (σ n).world) (hof : ∀ n, App.Offers (σ n))
    (hs : Served cfg σ acts cfg.me) (hd : DeliverOnlySubscribed σ acts) {p n0 : Nat} (hC : Consumes cfg σ acts p n0)
    {v : MessageCommand}
    (hsub : Received ((σ n0).world.tx b).sent v) (hv : IsSubscribe v (UInt64.ofNat cfg.me)) (hpass : PassesOn σP bP i σ b cfg.me)
    : KeepsAsking σ acts :=
  C148_asks h hp.loops (Consumes.attended hP hbP hfitP hi ho h hp hb hfit hof hs hd hC hsub hv hpass) (i := 0) (n1 := n0)
    fun m hm => C151_goes_on hP hbP hfitP hi ho h hp hb hfit hof hd hC hsub hv hpass hm

/-- **C151.**  Everything the application is handed is acknowledged: the plugin's `ack` returns `Ok`, and the broker that has delivered the message
receives an `ACK` of that consumer with the id of that message. -/
theorem C151_acknowledged (hP : App.Forever cfgP σP actsP) (hbP : ∀ n, (sysOf σP n).nClients ≤ 2 ^ 64) (hfitP : ∀ n, World.Fits (σP n).world)
    {i : Nat} (hi : i < 2 ^ 64) (ho : SendsOnly σP i fun p => (cfg.app.decode p).isSome) {bP b : BrokerAddress}
    (h : App.Forever cfg σ acts) (hp : DoTheirPart cfg.sys (sysOf σ) (roundsOf cfg σ acts))
    (hb : ∀ n, (sysOf σ n).nClients ≤ 2 ^ 64) (hfit : ∀ n, World.Fits (σ n).world) (hof : ∀ n, App.Offers (σ n))
    (hs : Served cfg σ acts cfg.me) (hd : DeliverOnlySubscribed σ acts) {p n0 : Nat} (hC : Consumes cfg σ acts p n0)
    {v : MessageCommand}
    (hsub : Received ((σ n0).world.tx b).sent v) (hv : IsSubscribe v (UInt64.ofNat cfg.me)) (hpass : PassesOn σP bP i σ b cfg.me)
    {n : Nat} {y : Consumer.Received T} (hy : .ok y ∈ (σ n).world.app.handedOut) :
    Acknowledged cfg σ acts 0 p y ∧ ∃ m w, Received ((σ m).world.tx b).sent w ∧ IsAck w (UInt64.ofNat cfg.me) y.ack := by
  have hns := not_stopped (app_forever h) hp.loops
  have hask := Consumes.asks hP hbP hfitP hi ho h hp hb hfit hof hs hd hC hsub hv hpass
  have hF := consumer_forever h hns
  have hpl0 : Placed (σ n0).world cfg.me b := by
    obtain ⟨_, _, hr⟩ := run_at h n0
    have hme : cfg.me < (sysOf σ n0).nClients := by
      rcases usable (run_world hr) with hq | hu
      · obtain ⟨t, ht, hne⟩ := hC.started
        exact absurd (hq t (List.mem_of_getElem? ht)) hne
      · exact hu.1
    exact (late_of (run_world hr) (hfit n0) (hb n0) (Nat.lt_of_lt_of_le hme (hb n0)) hsub (.inr (.inl hv))).2
  have hat : ∀ m, n0 ≤ m → Attached cfg.me b (sysOf σ m) := fun m hm => attached_at h hp.loops hb hfit hof hask (placed_to h hm hpl0)
  have hy' := (handedOut_grow hF (Nat.le_max_left n n0)).subset hy
  obtain ⟨x, hx, hyx⟩ := handed_from h hns hy'
  obtain ⟨h1, h2⟩ := C150_acknowledged h hp hb hfit hs hof hC.inTurn hC.plugin hC.acks hC.others hC.fair hC.one hC.kept hat hC.started
    (passed_decodable hP hbP hfitP hi ho h hb hfit hof hd hsub hv hpass) (Nat.le_max_right n n0) (List.mem_append_left _ hx) hyx
  exact ⟨h1, C147_there h hb hfit hof hsub hv h2⟩

/-- **C151.**  Whatever the broker has received from the producer the consumer's application is handed, from the first message on, in order. -/
theorem C151_all (hP : App.Forever cfgP σP actsP) (hbP : ∀ n, (sysOf σP n).nClients ≤ 2 ^ 64) (hfitP : ∀ n, World.Fits (σP n).world)
    {i : Nat} (hi : i < 2 ^ 64) (ho : SendsOnly σP i fun p => (cfg.app.decode p).isSome) {bP b : BrokerAddress}
    (h : App.Forever cfg σ acts) (hpm : cfg.app.permits = 250) (hp : DoTheirPart cfg.sys (sysOf σ) (roundsOf cfg σ acts))
    (hb : ∀ n, (sysOf σ n).nClients ≤ 2 ^ 64) (hfit : ∀ n, World.Fits (σ n).world) (hof : ∀ n, App.Offers (σ n))
    (hs : Served cfg σ acts cfg.me) (hd : DeliverOnlySubscribed σ acts) {p n0 : Nat} (hC : Consumes cfg σ acts p n0)
    {j : Job} (hj : j ∈ (σ n0).jobs) {builder : ConsumerBuilder Unit} (hm : j.made = .consumer builder)
    (hc : j.client = some cfg.me) (he : j.ended = some (.ok ())) {v : MessageCommand}
    (hsub : Received ((σ n0).world.tx b).sent v) (hv : IsSubscribe v (UInt64.ofNat cfg.me)) (hpass : PassesOn σP bP i σ b cfg.me)
    {m : Nat} {fs : List (MessageCommand × Bytes)} (hf : BeginsWith ((σP m).world.tx bP).sent fs) :
    ∃ n, ((sentBy (UInt64.ofNat i) (fs.map (·.1))).filterMap cfg.app.decode).map .ok <+: valuesOf (σ n).world.app.handedOut :=
  C149_all hP hbP hfitP hi ho h hpm ⟨hp.loops, hp.regs, hp.writes, hp.works⟩ hb hfit hof hs
    (Consumes.attended hP hbP hfitP hi ho h hp hb hfit hof hs hd hC hsub hv hpass) (hC.noBatches h (not_stopped (app_forever h) hp.loops)) hd hC.few
    (Consumes.asks hP hbP hfitP hi ho h hp hb hfit hof hs hd hC hsub hv hpass) hj hm hc he (hp.reads b) hsub hv hpass hf

theorem in_values {l : List (Outcome (Consumer.Received T))} {t : T} (h : .ok t ∈ valuesOf l) : ∃ id, .ok ⟨t, id⟩ ∈ l := by
  obtain ⟨o, ho, he⟩ := List.mem_map.mp h
  cases o with
  | ok y => cases he; exact ⟨y.ack, ho⟩
  | err e => cases he
  | panic => cases he

/-- **C151.**  From the producer's call to the broker's bookkeeping: a `send` is called, with a message that can be serialised, as `payload`, and its future is not
dropped.  Then the consumer's application is handed the value `payload` decodes to, with the id the broker has given the message, and the
broker receives an `ACK` of the consumer for that id. -/
theorem C151_send (hP : App.Forever cfgP σP actsP) (hbP : ∀ n, (sysOf σP n).nClients ≤ 2 ^ 64) (hfitP : ∀ n, World.Fits (σP n).world)
    {i : Nat} (hi : i < 2 ^ 64) (ho : SendsOnly σP i fun p => (cfg.app.decode p).isSome) {bP b : BrokerAddress}
    (hofP : ∀ n, App.Offers (σP n)) (hwP : Sys.KeepWorking cfgP.sys (sysOf σP) (roundsOf cfgP σP actsP)) (hsP : Served cfgP σP actsP i)
    {nP : Nat} {r : MessageCommand} (hreg : Received ((σP nP).world.tx bP).sent r) (hr : NamesClient r (UInt64.ofNat i))
    (h : App.Forever cfg σ acts) (hpm : cfg.app.permits = 250) (hp : DoTheirPart cfg.sys (sysOf σ) (roundsOf cfg σ acts))
    (hb : ∀ n, (sysOf σ n).nClients ≤ 2 ^ 64) (hfit : ∀ n, World.Fits (σ n).world) (hof : ∀ n, App.Offers (σ n))
    (hs : Served cfg σ acts cfg.me) (hd : DeliverOnlySubscribed σ acts) {p n0 : Nat} (hC : Consumes cfg σ acts p n0)
    {j : Job} (hj : j ∈ (σ n0).jobs) {builder : ConsumerBuilder Unit} (hm : j.made = .consumer builder)
    (hc : j.client = some cfg.me) (he : j.ended = some (.ok ())) {v : MessageCommand}
    (hsub : Received ((σ n0).world.tx b).sent v) (hv : IsSubscribe v (UInt64.ofNat cfg.me)) (hpass : PassesOn σP bP i σ b cfg.me)
    -- the call
    {k n : Nat} {call : Job} (hk : (σP n).jobs[k]? = some call) (hcl : call.live = true) (hcd : ∀ m, actsP m ≠ .drop k) (hcf : FairTo cfgP σP actsP k)
    {V : Type} {serialize : V → Option Bytes} {x : V} (hcm : call.made = .call i (Session.send serialize x)) {payload : Bytes}
    (hser : serialize x = some payload) {t : T} (ht : cfg.app.decode payload = some t) :
    ∃ id n' m w, .ok ⟨t, id⟩ ∈ (σ n').world.app.handedOut ∧ Received ((σ m).world.tx b).sent w ∧ IsAck w (UInt64.ofNat cfg.me) id := by
  obtain ⟨n', hn'⟩ := C149_send hP hbP hfitP hi ho hofP hwP hsP hreg hr h hpm ⟨hp.loops, hp.regs, hp.writes, hp.works⟩ hb hfit hof hs
    (Consumes.attended hP hbP hfitP hi ho h hp hb hfit hof hs hd hC hsub hv hpass) (hC.noBatches h (not_stopped (app_forever h) hp.loops)) hd hC.few
    (Consumes.asks hP hbP hfitP hi ho h hp hb hfit hof hs hd hC hsub hv hpass) hj hm hc he (hp.reads b) hsub hv hpass hk hcl hcd hcf hcm hser ht
  obtain ⟨id, hid⟩ := in_values hn'
  obtain ⟨_, m, w, h1, h2⟩ := C151_acknowledged hP hbP hfitP hi ho h hp hb hfit hof hs hd hC hsub hv hpass hid
  exact ⟨id, n', m, w, hid, h1, h2⟩

/-- **C151.**  The same for every message of a `send_all`. -/
theorem C151_send_all (hP : App.Forever cfgP σP actsP) (hbP : ∀ n, (sysOf σP n).nClients ≤ 2 ^ 64) (hfitP : ∀ n, World.Fits (σP n).world)
    {i : Nat} (hi : i < 2 ^ 64) (ho : SendsOnly σP i fun p => (cfg.app.decode p).isSome) {bP b : BrokerAddress}
    (hofP : ∀ n, App.Offers (σP n)) (hwP : Sys.KeepWorking cfgP.sys (sysOf σP) (roundsOf cfgP σP actsP)) (hsP : Served cfgP σP actsP i)
    {nP : Nat} {r : MessageCommand} (hreg : Received ((σP nP).world.tx bP).sent r) (hr : NamesClient r (UInt64.ofNat i))
    (h : App.Forever cfg σ acts) (hpm : cfg.app.permits = 250) (hp : DoTheirPart cfg.sys (sysOf σ) (roundsOf cfg σ acts))
    (hb : ∀ n, (sysOf σ n).nClients ≤ 2 ^ 64) (hfit : ∀ n, World.Fits (σ n).world) (hof : ∀ n, App.Offers (σ n))
    (hs : Served cfg σ acts cfg.me) (hd : DeliverOnlySubscribed σ acts) {p n0 : Nat} (hC : Consumes cfg σ acts p n0)
    {j : Job} (hj : j ∈ (σ n0).jobs) {builder : ConsumerBuilder Unit} (hm : j.made = .consumer builder)
    (hc : j.client = some cfg.me) (he : j.ended = some (.ok ())) {v : MessageCommand}
    (hsub : Received ((σ n0).world.tx b).sent v) (hv : IsSubscribe v (UInt64.ofNat cfg.me)) (hpass : PassesOn σP bP i σ b cfg.me)
    -- the call
    {k n : Nat} {call : Job} (hk : (σP n).jobs[k]? = some call) (hcl : call.live = true) (hcd : ∀ m, actsP m ≠ .drop k) (hcf : FairTo cfgP σP actsP k)
    {V : Type} {serialize : V → Option Bytes} {xs : List V} (hcm : call.made = .call i (Session.sendAll serialize xs)) {x : V} (hx : x ∈ xs)
    {payload : Bytes} (hser : serialize x = some payload) {t : T} (ht : cfg.app.decode payload = some t) :
    ∃ id n' m w, .ok ⟨t, id⟩ ∈ (σ n').world.app.handedOut ∧ Received ((σ m).world.tx b).sent w ∧ IsAck w (UInt64.ofNat cfg.me) id := by
  obtain ⟨n', hn'⟩ := C149_send_all hP hbP hfitP hi ho hofP hwP hsP hreg hr h hpm ⟨hp.loops, hp.regs, hp.writes, hp.works⟩ hb hfit hof hs
    (Consumes.attended hP hbP hfitP hi ho h hp hb hfit hof hs hd hC hsub hv hpass) (hC.noBatches h (not_stopped (app_forever h) hp.loops)) hd hC.few
    (Consumes.asks hP hbP hfitP hi ho h hp hb hfit hof hs hd hC hsub hv hpass) hj hm hc he (hp.reads b) hsub hv hpass hk hcl hcd hcf hcm hx hser ht
  obtain ⟨id, hid⟩ := in_values hn'
  obtain ⟨_, m, w, h1, h2⟩ := C151_acknowledged hP hbP hfitP hi ho h hp hb hfit hof hs hd hC hsub hv hpass hid
  exact ⟨id, n', m, w, hid, h1, h2⟩

end

end Neutron.Props
