import Verif.Proof.Supply

/-!
# C148: a consumer whose broker serves its permits never runs dry

`Supplies`, `DeliverOnlySubscribed` and `KeepsAsking` are in `Spec/Supply.lean`.
-/

namespace Neutron.Props

open Neutron Neutron.App Neutron.World

variable {T : Type}

theorem yields_length {decode : Bytes → Option T} : ∀ {l : List Message}, (∀ x ∈ l, Consumer.isSingle x = true) →
    (l.flatMap (Consumer.yields decode)).length = l.length
  | [], _ => rfl
  | m :: l, h => by
    rw [List.flatMap_cons, List.length_append, yields_length fun x hx => h x (List.mem_cons_of_mem _ hx), List.length_cons]
    have := h m (by simp)
    cases m with
    | batch => cases this
    | single _ id p =>
      simp only [Consumer.yields]
      split <;> simp [Nat.add_comm]

/-- From when on what has been read is what the consumer has received and what is underway, and the connection stays. -/
theorem supplied_base {cfg : World.Cfg T} {σ : Nat → App.State T} {acts : Nat → App.Act} (h : App.Forever cfg σ acts)
    (hl : Sys.KeepsLooping (sysOf σ)) (hb : ∀ n, (sysOf σ n).nClients ≤ 2 ^ 64)
    (hfit : ∀ n, World.Fits (σ n).world) (hof : ∀ n, App.Offers (σ n))
    (hnb : NoBatches acts) (hd : DeliverOnlySubscribed σ acts) (hask : KeepsAsking σ acts)
    {n0 : Nat} (hi0 : cfg.me < (sysOf σ n0).nClients)
    {b : BrokerAddress} {v : MessageCommand} (hsub : Received ((σ n0).world.tx b).sent v) (hv : IsSubscribe v (UInt64.ofNat cfg.me)) :
    ∃ n1, Placed (σ n1).world cfg.me b ∧ (∀ n, n1 ≤ n → Attached cfg.me b (sysOf σ n)) ∧
      (∀ n, n1 ≤ n → received (sysOf σ n) cfg.me ++ underway (sysOf σ n) cfg.me b = readFor (σ n).world cfg.me b) ∧
      ∀ n, n1 ≤ n → (σ n).world.app.handedOut <+: (readFor (σ n).world cfg.me b).flatMap (Consumer.yields cfg.app.decode) := by
  have hns := never_stopped h hl
  have hF := consumer_forever h hns
  obtain ⟨_, _, hrun0⟩ := run_at h n0
  have hme : cfg.me < 2 ^ 64 := Nat.lt_of_lt_of_le hi0 (hb n0)
  have hpl0 : Placed (σ n0).world cfg.me b := (late_of (run_world hrun0) (hfit n0) (hb n0) hme hsub (.inr (.inl hv))).2
  obtain ⟨n1, hn1, hpl1, hnone⟩ := placed_first h hb hfit hof hd hme hpl0
  have hat : ∀ n, n1 ≤ n → Attached cfg.me b (sysOf σ n) := fun n hn =>
    attached_at h hl hb hfit hof hask (placed_to h hn hpl1)
  have hid : ∀ n, n1 ≤ n → received (sysOf σ n) cfg.me ++ underway (sysOf σ n) cfg.me b = readFor (σ n).world cfg.me b := by
    intro n hn
    obtain ⟨_, _, hr1⟩ := run_at h n1
    obtain ⟨as, hpath⟩ := world_path h (P := fun w => AttachedUntilStop cfg.me b w.sys) (n := n1) (fun m hm => .inl (hat m hm)) hn
    obtain ⟨_, _, _, _, _, k⟩ := reached_and_underway (run_world hr1) (me_exists h (hat n1 (Nat.le_refl _))) hnone hpath
    exact k (hns n)
  refine ⟨n1, hpl1, hat, hid, fun n hn => ?_⟩
  have := Consumer.prefix_of_inv (hF.run n) (Consumer.message_inv (hF.run n) (no_batches (cfg := cfg) hnb n))
  rw [delivered_received h hns (me_exists h (hat n hn))] at this
  refine this.trans ?_
  rw [← hid n hn, List.flatMap_append]
  exact List.prefix_append _ _

/-- **C148.**  A consumer's `connect` has returned `Ok` and the broker behind `b` has its subscription; brokers deliver only to consumers that
have subscribed; the application makes only the calls producers and consumers offer, no `next_batch` among them and never more than 251
receiving calls at once, and keeps asking; engine, connections and scheduler neglect nothing; the messages the broker sends the
consumer are single ones that can be decoded.  If the broker holds `M` messages for the consumer and sends the next one whenever it has
been given more permits than that, the application is handed (at least) `M` messages, the first ones the broker sent, in its order: the
consumer never runs out of permits, however large `M` is and whatever else the application, the other clients and the brokers do. -/
theorem C148_supplied {cfg : World.Cfg T} {σ : Nat → App.State T} {acts : Nat → App.Act} (h : App.Forever cfg σ acts)
    (hP : cfg.app.permits = 250) (hp : Sys.KeepWorking cfg.sys (sysOf σ) (roundsOf cfg σ acts)) (hb : ∀ n, (sysOf σ n).nClients ≤ 2 ^ 64)
    (hfit : ∀ n, World.Fits (σ n).world) (hof : ∀ n, App.Offers (σ n)) (hs : Served cfg σ acts cfg.me) (hA : App.Attended cfg σ acts)
    (hnb : NoBatches acts) (hd : DeliverOnlySubscribed σ acts) (hlive : ∀ n, (σ n).world.app.live ≤ 251) (hask : KeepsAsking σ acts)
    -- the consumer
    {n0 : Nat} {j : Job} (hj : j ∈ (σ n0).jobs) {builder : ConsumerBuilder Unit} (hm : j.made = .consumer builder)
    (hc : j.client = some cfg.me) (he : j.ended = some (.ok ()))
    -- its broker
    {b : BrokerAddress} (hfr : Sys.Fair cfg.sys (sysOf σ) (roundsOf cfg σ acts) (Sys.Act.servesReads b)) {v : MessageCommand}
    (hsub : Received ((σ n0).world.tx b).sent v) (hv : IsSubscribe v (UInt64.ofNat cfg.me))
    (hsingle : ∀ n, ∀ x ∈ readFor (σ n).world cfg.me b, Consumer.isSingle x = true ∧ Consumer.decodable cfg.app.decode x)
    {M : Nat} (hM : Supplies σ cfg.me b M) :
    ∃ m, M ≤ (σ m).world.app.handedOut.length ∧
      (σ m).world.app.handedOut <+: (readFor (σ m).world cfg.me b).flatMap (Consumer.yields cfg.app.decode) := by
  have hns := never_stopped h hp.loops
  have hF := consumer_forever h hns
  have hAt := fair_receiver h hns hA
  obtain ⟨_, _, hrun0⟩ := run_at h n0
  have hi0 := ((seen hrun0 _ hj).client cfg.me hc).1
  obtain ⟨n1, hpl1, hat, hid, hpref⟩ := supplied_base h hp.loops hb hfit hof hnb hd hask hi0 hsub hv
  have hdel : ∀ n, n1 ≤ n → Consumer.delivered (Consumer.history [] (onConsumer σ acts) n) = received (sysOf σ n) cfg.me :=
    fun n hn => delivered_received h hns (me_exists h (hat n hn))
  obtain ⟨m2, hm2, hd2 | ⟨i, k, hw⟩⟩ := Consumer.more_or_waits hF hAt (no_batches (cfg := cfg) hnb) (fun n => by
    obtain ⟨m, hm, i, t, c, ht, hst, hnd⟩ := hask n
    exact ⟨m, hm, i, c, ⟨t, ht, hst⟩, fun m' hm' ha => hnd m' hm' (on_other ha (by simp))⟩) (max n0 n1) M
  · exact ⟨m2, hd2, hpref m2 (by omega)⟩
  · -- a call waits forever: then everything has been read and handed out
    have hconst : ∀ n, m2 ≤ n → received (sysOf σ n) cfg.me = received (sysOf σ m2) cfg.me := by
      intro n hn
      rw [← hdel n (by omega), ← hdel m2 (by omega)]
      exact Consumer.none_delivered hF (fun m hm => (hw m hm).2) hn
    have hread : ∀ n, m2 ≤ n → readFor (σ n).world cfg.me b = received (sysOf σ m2) cfg.me := by
      intro n hn
      obtain ⟨m3, hm3, hpre⟩ := C143_messages (app_forever h) hp.loops (n := n)
        (fun m hm => round_path h (hat m (by omega)) (hat (m + 1) (by omega))) hfr
      rw [hconst n hn, hconst m3 (by omega)] at hpre
      have hnil : underway (sysOf σ n) cfg.me b = [] := by
        have := hpre.length_le
        simp at this
        exact this
      rw [← hid n (by omega), hnil, List.append_nil, hconst n hn]
    refine ⟨m2, Nat.le_of_not_lt fun hlt => ?_, hpref m2 (by omega)⟩
    obtain ⟨⟨t, ht, hst⟩, hpend⟩ := hw m2 (Nat.le_refl _)
    have hdd := hdel m2 (by omega)
    -- everything received has been handed out
    have hall : (σ m2).world.app.handedOut = (received (sysOf σ m2) cfg.me).flatMap (Consumer.yields cfg.app.decode) := by
      have hi := Consumer.message_inv (hF.run m2) (no_batches (cfg := cfg) hnb m2)
      have hh := Consumer.recv_holds (hF.run m2) ⟨t, ht, hst⟩
      obtain ⟨t', c, p, h1, h2, h3, h4⟩ := hi.held i hh
      rw [ht] at h1; cases h1
      rw [hst] at h2; cases h2
      have hp' : [] = p := h3.1.2
      subst hp'
      rw [← hdd, ← Consumer.received_delivered (hF.run m2), hpend, List.append_nil, ← h4, List.append_nil]
    have hlen : (received (sysOf σ m2) cfg.me).length < M := by
      have : (σ m2).world.app.handedOut.length = (received (sysOf σ m2) cfg.me).length := by
        rw [hall]
        refine yields_length fun x hx => (hsingle m2 x ?_).1
        rw [hread m2 (Nat.le_refl _)]; exact hx
      omega
    have hmore : (received (sysOf σ m2) cfg.me).length < (σ m2).world.app.grants := by
      rw [← hdd]
      refine Consumer.more_granted (Consumer.atMost_history hF hlive m2) (by rw [hP]; decide) (by rw [hP]; decide) (by rw [hP]; decide) ?_
        ⟨t, k, ht, hst⟩ hpend
      rw [hdd, ← hread m2 (Nat.le_refl _)]
      exact hsingle m2
    obtain ⟨m3, hm3, fs, g1, g2⟩ := eventually_given h hp hb hfit hof hs hP (placed_to h (by omega) hpl1) (hat m2 (by omega))
      (ended_job_to h (by omega : n0 ≤ m2) hj he) hm hc he
    obtain ⟨m4, hm4, hlt4⟩ := hM m3 (by rw [hread m3 hm3]; exact hlen) ⟨fs, g1, by rw [hread m3 hm3]; omega⟩
    rw [hread m3 hm3, hread m4 (by omega)] at hlt4
    omega

/-- A `consume` (or another receiving call) that is there from some time on keeps asking. -/
theorem C148_asks {cfg : World.Cfg T} {σ : Nat → App.State T} {acts : Nat → App.Act} (h : App.Forever cfg σ acts)
    (hl : Sys.KeepsLooping (sysOf σ)) (hA : App.Attended cfg σ acts) {i n1 : Nat}
    (hal : ∀ m, n1 ≤ m → (σ m).world.app.alive i) : KeepsAsking σ acts := by
  have hns := never_stopped h hl
  have hF := consumer_forever h hns
  intro n
  obtain ⟨m, hm, c, t, ht, hst⟩ := Consumer.loops hF (fair_receiver h hns hA) (n := max n n1) (fun m hm => hal m (by omega))
  refine ⟨m, by omega, i, t, c, ht, hst, fun m' hm' ha => ?_⟩
  exact not_dropped hF (n := m') (fun k hk => hal k (by omega)) m' (Nat.le_refl _) (on_app ha)

/-- **C148.**  Every permit the consumer has granted when `connect` has returned, or later, the broker behind the address of its
subscription has been given, some time or other. -/
theorem C148_granted {cfg : World.Cfg T} {σ : Nat → App.State T} {acts : Nat → App.Act} (h : App.Forever cfg σ acts)
    (hP : cfg.app.permits = 250) (hp : Sys.KeepWorking cfg.sys (sysOf σ) (roundsOf cfg σ acts)) (hb : ∀ n, (sysOf σ n).nClients ≤ 2 ^ 64)
    (hfit : ∀ n, World.Fits (σ n).world) (hof : ∀ n, App.Offers (σ n)) (hs : Served cfg σ acts cfg.me) (hask : KeepsAsking σ acts)
    {n0 : Nat} {j : Job} (hj : j ∈ (σ n0).jobs) {builder : ConsumerBuilder Unit} (hm : j.made = .consumer builder)
    (hc : j.client = some cfg.me) (he : j.ended = some (.ok ())) {b : BrokerAddress} {v : MessageCommand}
    (hsub : Received ((σ n0).world.tx b).sent v) (hv : IsSubscribe v (UInt64.ofNat cfg.me)) {n : Nat} (hn : n0 ≤ n) :
    ∃ m, n ≤ m ∧ Given (σ m).world b (UInt64.ofNat cfg.me) (σ n).world.app.grants := by
  obtain ⟨_, _, hrun0⟩ := run_at h n0
  have hi0 := ((seen hrun0 _ hj).client cfg.me hc).1
  have hme : cfg.me < 2 ^ 64 := Nat.lt_of_lt_of_le hi0 (hb n0)
  have hpl0 : Placed (σ n0).world cfg.me b := (late_of (run_world hrun0) (hfit n0) (hb n0) hme hsub (.inr (.inl hv))).2
  have hpl := placed_to h hn hpl0
  exact eventually_given h hp hb hfit hof hs hP hpl (attached_at h hp.loops hb hfit hof hask hpl) (ended_job_to h hn hj he) hm hc he

end Neutron.Props
