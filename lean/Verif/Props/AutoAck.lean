import Verif.Proof.AutoAck
import Verif.Props.Carried
import Verif.Props.ReceiveForeverAll
import Verif.Props.OnePlace
import Verif.Spec.Subscribed

/-!
# C147: with the auto-ack plugin every message is acknowledged
-/

namespace Neutron.Props

open Neutron Neutron.App Neutron.World Neutron.Sys Proto

variable {T : Type}

theorem keep_working {cfg : Sys.Cfg} {σ : Nat → Sys.State} {acts : Nat → List Sys.Act} (h : DoTheirPart cfg σ acts) : KeepWorking cfg σ acts :=
  ⟨h.loops, h.regs, h.writes, h.works⟩

theorem _root_.Neutron.App.CancelledFrom.mono {acts : Nat → App.Act} {i n m : Nat} (h : CancelledFrom acts i m) (hnm : n ≤ m) : CancelledFrom acts i n := by
  obtain ⟨m', h1, h2⟩ := h
  exact ⟨m', by omega, h2⟩

/-- **C147.** The auto-ack plugin always comes back: whenever a receiving call has given it a message, it returns, or that call is
dropped, if engine, connections and brokers do their part and the consumer's client is not starved. -/
theorem C147_comes_back {cfg : World.Cfg T} {σ : Nat → App.State T} {acts : Nat → App.Act} (h : App.Forever cfg σ acts)
    (hp : DoTheirPart cfg.sys (sysOf σ) (roundsOf cfg σ acts)) (hb : ∀ n, (sysOf σ n).nClients ≤ 2 ^ 64)
    (hs : Served cfg σ acts cfg.me) {p : Nat} (hlt : p < cfg.app.plugins) (hA : AutoAcks cfg σ acts p) : ComesBack σ acts p := by
  intro n i y hin
  have hm := not_stopped (app_forever h) hp.loops
  rcases hA.calls n i y hin with hc | ⟨k, m, hnm, hk⟩
  · exact .inr hc
  · rcases hA.waits m i y k hk with hc | ⟨hd, hf⟩
    · exact .inr (hc.mono hnm)
    · obtain ⟨n', hn', hst, hlen, hins⟩ := hk
      obtain ⟨j, hj, hmade, hlive⟩ := ack_job h hst hlen
      obtain ⟨j1, hj1, hmade1, hlive1⟩ := live_to h hd (show n' + 1 ≤ m + 1 by omega) hj
      have hret : Returns σ k (m + 1) := by
        refine returns_passed h hp hj1 (hlive1.trans hlive) hd hf (fun i' p' he => ?_) (fun i' hi' n1 hv => ?_)
        · rw [hmade1, hmade] at he
          cases he
          exact (C144_library (fun x : Bytes => some x) [] [] y.ack []).2.2.2.1
        · obtain ⟨m2, j2, e1, e2⟩ := hi'
          have hme : i' = cfg.me := by
            rcases Nat.lt_or_ge m2 (n' + 1) with hlt | hge
            · exfalso
              obtain ⟨j3, e3, e4⟩ := made_to h (show m2 ≤ n' by omega) e1
              have := (List.getElem?_eq_some_iff.mp e3).1
              omega
            · obtain ⟨j3, e3, e4, e5⟩ := live_to h hd hge hj
              rw [e1] at e3
              cases e3
              obtain ⟨_, _, hrun⟩ := run_at h m2
              have := (within hrun j2 (List.mem_of_getElem? e1) cfg.me (Session.ack y.ack) (e4.trans hmade)).1
              rw [e2] at this
              exact Option.some.inj this
          subst hme
          exact served_passes h hp.loops hb hs hv
      obtain ⟨m2, hm2, j2, o, e1, e2⟩ := hret
      rcases Consumer.until_or (Q := fun l => InPlugin (σ l) i p y)
          (E := fun l => (∃ r, acts l = .world (.app (.offer i r))) ∨ acts l = .world (.app (.cancel i))) hin
          (fun l hl hq he => plugin_kept h hm hlt hq (fun r e => he (.inl ⟨r, e⟩)) (fun e => he (.inr e))) with ⟨l, hl, _, he⟩ | hall
      · rcases he with ⟨r, he⟩ | he
        · exact .inl ⟨l, r, by omega, he⟩
        · exact .inr ⟨l, by omega, he⟩
      · have hack : AckOf cfg σ acts i p y k m2 := by
          refine ⟨n', by omega, hst, hlen, fun l h1 h2 => ?_⟩
          rcases Nat.le_total l m with hx | hx
          · exact hins l h1 hx
          · exact hall l (by omega)
        rcases hA.returns m2 i y k hack ⟨j2, o, e1, e2⟩ with hc | ⟨l, r, hl, he⟩
        · exact .inr (hc.mono (by omega))
        · exact .inl ⟨l, r, by omega, he⟩

/-- **C147.** So if every plugin of the consumer is an auto-ack plugin or otherwise always comes back, the plugins do not hold up the
one `consume` that is called on it and goes on. -/
theorem C147_plugins {cfg : World.Cfg T} {σ : Nat → App.State T} {acts : Nat → App.Act} (h : App.Forever cfg σ acts)
    (hl : KeepsLooping (sysOf σ)) (hback : ∀ p, p < cfg.app.plugins → ComesBack σ acts p)
    (hj : ∀ n, (σ n).world.app.tasks.map (·.job) <+: [.consume]) {n0 : Nat} (hi : ∀ m, n0 ≤ m → (σ m).world.app.alive 0) (i : Nat) :
    PluginsReturn cfg σ acts i := by
  have hm := not_stopped (app_forever h) hl
  intro hag n
  obtain ⟨m, hnm, t, y, k, ht, hst, hk⟩ := hag (max n n0)
  have hi0 : i = 0 := by
    obtain ⟨rest, hr⟩ := hj m
    have h1 := (List.getElem?_eq_some_iff.mp ht).1
    have h2 := congrArg List.length hr
    simp only [List.length_append, List.length_map, List.length_cons, List.length_nil] at h2
    omega
  subst hi0
  rcases hback k hk m 0 y ⟨t, ht, hst⟩ with ⟨l, r, hl', he⟩ | ⟨l, hl', he⟩
  · exact ⟨l, by omega, r, he⟩
  · exfalso
    have hs := (consumer_forever h hm).act (on_app he)
    have hal := hi (l + 1) (by omega)
    revert hs hal
    generalize (σ (l + 1)).world.app = s', (σ l).world.app = s
    intro hs hal
    cases hs with
    | cancel _ t' ht' =>
      obtain ⟨t'', h1, h2⟩ := hal
      have : some t'' = some { t' with stage := .ended } := by rw [← h1]; exact Consumer.upd_self ht'
      cases this
      exact h2 rfl

/-- **C147.** Whatever the auto-ack plugin has accepted has been acknowledged: it has called `ack` for it, and the call has returned `Ok`. -/
theorem C147_accepted {cfg : World.Cfg T} {σ : Nat → App.State T} {acts : Nat → App.Act} (h : App.Forever cfg σ acts)
    (hm : ∀ n, (sysOf σ n).mode ≠ .stopped) {p : Nat} (hA : AutoAcks cfg σ acts p) {i n : Nat} {y : Consumer.Received T}
    (ho : (i, p, y, .ok ()) ∈ (σ n).world.app.offers) : Acknowledged cfg σ acts i p y := by
  obtain ⟨m, _, hin, ha⟩ := answered_when h hm ho
  obtain ⟨k, j, h1, h2, h3⟩ := hA.result m i y _ hin ha
  exact ⟨m, k, j, h1, h2, h3⟩

/-- **C147.** What has been acknowledged by the plugin reaches a broker: an `ACK` of that consumer for that message is received, whole. -/
theorem C147_reaches {cfg : World.Cfg T} {σ : Nat → App.State T} {acts : Nat → App.Act} (h : App.Forever cfg σ acts)
    (hp : KeepWorking cfg.sys (sysOf σ) (roundsOf cfg σ acts)) (hb : ∀ n, (sysOf σ n).nClients ≤ 2 ^ 64)
    (hfit : ∀ n, World.Fits (σ n).world) (hs : Served cfg σ acts cfg.me) {i p : Nat} {y : Consumer.Received T}
    (ha : Acknowledged cfg σ acts i p y) : Reaches σ fun v => IsAck v (UInt64.ofNat cfg.me) y.ack := by
  obtain ⟨n, k, j, ⟨n', hn', hst, hlen, _⟩, hk, he⟩ := ha
  obtain ⟨j0, hj0, hmade, _⟩ := ack_job h hst hlen
  have hn1 : n' + 1 ≤ n := by
    rcases Nat.lt_or_ge n' n with hx | hx
    · exact hx
    · obtain rfl : n' = n := by omega
      have := (List.getElem?_eq_some_iff.mp hk).1
      omega
  obtain ⟨j1, hj1, hm1⟩ := made_to h hn1 hj0
  rw [hk] at hj1
  cases hj1
  obtain ⟨_, _, hrun⟩ := run_at h n
  have hj := List.mem_of_getElem? hk
  obtain ⟨hcl, hall⟩ := handed_by hrun (not_stopped (app_forever h) hp.loops n) hj (hm1.trans hmade)
    (C146_library (fun x : Bytes => some x) [] [] y.ack []).2.2.2.1 (.inl (by rw [he]; simp))
  obtain ⟨t, ht⟩ := hall _ (List.mem_singleton_self _)
  exact (C146_handed_over h hp hb hfit hs hj hcl ht rfl).imp fun _ => carries_ack

/-- **C147.** From the socket to the acknowledgement: a consumer with an auto-ack plugin (and other plugins that come back), on which one
`consume` is called that goes on, acknowledges every message that is read for it and can be decoded: the plugin's `ack` returns `Ok`, and
a broker receives an `ACK` of that consumer for that message — if engine, connections and brokers do their part, the scheduler neglects
neither the `consume` nor the consumer's client, and the consumer stays on its connection. -/
theorem C147_acknowledged {cfg : World.Cfg T} {σ : Nat → App.State T} {acts : Nat → App.Act} (h : App.Forever cfg σ acts)
    (hp : DoTheirPart cfg.sys (sysOf σ) (roundsOf cfg σ acts)) (hb : ∀ n, (sysOf σ n).nClients ≤ 2 ^ 64)
    (hfit : ∀ n, World.Fits (σ n).world) (hs : Served cfg σ acts cfg.me) {p : Nat} (hlt : p < cfg.app.plugins)
    (hA : AutoAcks cfg σ acts p) (hback : ∀ p', p' < cfg.app.plugins → p' ≠ p → ComesBack σ acts p')
    (hcalls : ∀ i, FairToReceiver cfg σ acts i) (hj : ∀ n, (σ n).world.app.tasks.map (·.job) <+: [.consume]) {b : BrokerAddress} {n0 : Nat}
    (hat : ∀ m, n0 ≤ m → Attached cfg.me b (sysOf σ m)) (hi : ∀ m, n0 ≤ m → (σ m).world.app.alive 0) {n : Nat} (hn : n0 ≤ n) {x : Message}
    (hx : x ∈ received (sysOf σ n) cfg.me ++ underway (sysOf σ n) cfg.me b) {y : Consumer.Received T}
    (hy : .ok y ∈ Consumer.yields cfg.app.decode x) :
    Acknowledged cfg σ acts 0 p y ∧ Reaches σ fun v => IsAck v (UInt64.ofNat cfg.me) y.ack := by
  have hatt : App.Attended cfg σ acts := by
    refine ⟨hcalls, C147_plugins h hp.loops (fun p' hp' => ?_) hj hi⟩
    by_cases he : p' = p
    · subst he; exact C147_comes_back h hp hb hs hp' hA
    · exact hback p' hp' he
  obtain ⟨m, _, ho⟩ := C145_socket_to_plugins h hp.loops hatt hj hat (hp.reads b) hi hn hx hy hlt
  have hack := C147_accepted h (not_stopped (app_forever h) hp.loops) hA ho
  exact ⟨hack, C147_reaches h (keep_working hp) hb hfit hs hack⟩

/-- **C147.** And if the application otherwise only makes the calls producers and consumers offer, the broker that receives the `ACK` is
the one the consumer has subscribed at. -/
theorem C147_there {cfg : World.Cfg T} {σ : Nat → App.State T} {acts : Nat → App.Act} (h : App.Forever cfg σ acts)
    (hb : ∀ n, (sysOf σ n).nClients ≤ 2 ^ 64) (hfit : ∀ n, World.Fits (σ n).world) (ho : ∀ n, App.Offers (σ n)) {b : BrokerAddress} {n : Nat}
    {s : MessageCommand} (hr : Received ((σ n).world.tx b).sent s) (hsub : IsSubscribe s (UInt64.ofNat cfg.me)) {id : MessageId}
    (ha : Reaches σ fun v => IsAck v (UInt64.ofNat cfg.me) id) :
    ∃ m v, Received ((σ m).world.tx b).sent v ∧ IsAck v (UInt64.ofNat cfg.me) id := by
  obtain ⟨m, b', v, hv, hav⟩ := ha
  refine ⟨max n m, v, ?_, hav⟩
  have h1 := received_to h (Nat.le_max_left n m) hr
  have h2 := received_to h (Nat.le_max_right n m) hv
  obtain ⟨as, log, hrun⟩ := run_at h (max n m)
  have hbb : b = b' := by
    refine C135_one_connection hrun (ho _) (hfit _) (hb _) h1 h2 (p := UInt64.ofNat cfg.me) (.inr (.inl hsub)) ?_
    obtain ⟨a1, a2, a3, a4, _⟩ := hav
    exact .inr (.inr (.inl ⟨a1, a2, a3, a4⟩))
  subst hbb
  exact h2

end Neutron.Props
