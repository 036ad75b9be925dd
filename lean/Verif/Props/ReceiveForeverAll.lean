import Verif.Proof.ReceiveForever

/-!
# C145, for everything: from the socket to the application, and to the plugins

`Attached` is that of `Props/Delivery.lean`: the consumer is registered with the engine, is on the connection of `b` and has not been
dropped, and the engine runs.
-/

namespace Neutron.Props

open Neutron Neutron.App Neutron.World

variable {T : Type}

section
variable {cfg : World.Cfg T} {σ : Nat → App.State T} {acts : Nat → App.Act}

theorem never_stopped (h : App.Forever cfg σ acts) (hl : Sys.KeepsLooping (sysOf σ)) (n : Nat) : (σ n).world.sys.mode ≠ .stopped :=
  Props.not_stopped (app_forever h) hl n

theorem me_exists (h : App.Forever cfg σ acts) {b : BrokerAddress} {n : Nat} (ha : Attached cfg.me b (sysOf σ n)) :
    cfg.me < (σ n).world.sys.nClients :=
  (Sys.wf (forever_reachable (app_forever h) n)).vecLt _ ha.1

/-- C145. From the socket to the application: while the consumer stays on the connection of `b` and a call (a `consume`, or a
`next_message` that waits) is there, everything read for it is handed to the application, in order - whatever else the application, the
other clients and the brokers do - if the engine keeps looping and neglects neither that connection nor the calls on the consumer. -/
theorem C145_socket_to_application (h : App.Forever cfg σ acts) (hl : Sys.KeepsLooping (sysOf σ)) (hA : App.Attended cfg σ acts)
    (hb : NoBatches acts) {b : BrokerAddress} {n0 : Nat} (hat : ∀ m, n0 ≤ m → Attached cfg.me b (sysOf σ m))
    (hfr : Sys.Fair cfg.sys (sysOf σ) (roundsOf cfg σ acts) (Sys.Act.servesReads b)) {i : Nat}
    (hi : ∀ m, n0 ≤ m → (σ m).world.app.alive i) {n : Nat} (hn : n0 ≤ n) :
    ∃ m, n ≤ m ∧ (received (sysOf σ n) cfg.me ++ underway (sysOf σ n) cfg.me b).flatMap (Consumer.yields cfg.app.decode) <+:
      (σ m).world.app.handedOut := by
  have hm := never_stopped h hl
  obtain ⟨m1, hm1, hp⟩ := C143_messages (app_forever h) hl (n := n) (fun m hnm => round_path h (hat m (by omega)) (hat (m + 1) (by omega))) hfr
  obtain ⟨m2, hm2, hq⟩ := C145_all_handed_out (consumer_forever h hm) (fair_receiver h hm hA) (no_batches (cfg := cfg) hb) (n0 := n0) hi m1
  refine ⟨m2, by omega, List.IsPrefix.trans ?_ hq⟩
  unfold Consumer.stream
  rw [delivered_received h hm (me_exists h (hat m1 (by omega)))]
  obtain ⟨d, hd⟩ := hp
  exact ⟨d.flatMap (Consumer.yields cfg.app.decode), by rw [← hd]; simp⟩

/-- C145. So whatever command is read from that socket: if it is a message for the consumer, the application gets it. -/
theorem C145_each_message (h : App.Forever cfg σ acts) (hl : Sys.KeepsLooping (sysOf σ)) (hA : App.Attended cfg σ acts)
    (hb : NoBatches acts) {b : BrokerAddress} {n0 : Nat} (hat : ∀ m, n0 ≤ m → Attached cfg.me b (sysOf σ m))
    (hfr : Sys.Fair cfg.sys (sysOf σ) (roundsOf cfg σ acts) (Sys.Act.servesReads b)) {i : Nat}
    (hi : ∀ m, n0 ≤ m → (σ m).world.app.alive i) {n : Nat} (hn : n0 ≤ n) {ans : Option Sys.Tok} (hp : acts n = .world (.poll b ans))
    {v : MessageCommand} (hv : (Framed.pollNext ((σ n).world.rx b).framed ((σ n).world.rx b).socket).1 = .item v) {x : Message}
    (hx : Inbound.ofCommand v = .ok (.message x)) (hid : x.consumerId = UInt64.ofNat cfg.me) :
    ∃ m, n ≤ m ∧ ∀ o, o ∈ Consumer.yields cfg.app.decode x → o ∈ (σ m).world.app.handedOut := by
  obtain ⟨m, hm, hpre⟩ := C145_socket_to_application h hl hA hb hat hfr hi (show n0 ≤ n + 1 by omega)
  refine ⟨m, by omega, fun o ho => hpre.subset (List.mem_flatMap.mpr ⟨x, List.mem_append_right _ ?_, ho⟩)⟩
  have hd := app_does (h.steps n)
  rw [hp] at hd
  simp only [App.does, World.does, hv, item, Option.toList_some, List.map_cons, List.map_nil, sysSteps] at hd
  cases hs : Sys.step cfg.sys (σ n).world.sys (.connRead b (.command v ans)) with
  | none => rw [hs] at hd; cases hd
  | some s1 =>
    rw [hs] at hd
    simp only [Option.some.injEq] at hd
    have hr := forever_reachable (app_forever h) n
    have hg : ((σ n).world.sys.conns b).alive = true ∧ b ∈ (σ n).world.sys.addrs := by
      have hs := h.steps n
      rw [hp] at hs
      obtain ⟨_, hw, _⟩ := step_some hs
      simp only [App.induced, worldSteps, World.step] at hw
      split at hw
      · rename_i w1 h1
        split at h1
        · rename_i hx
          simp [World.reading, World.running] at hx
          exact hx.1
        · cases h1
      · cases hw
    obtain ⟨s', e1, e2, _⟩ := C24_read (ans := ans) hr hg.1 hg.2 (never_stopped h hl n) hx
    rw [show sysOf σ n = (σ n).world.sys from rfl, hs] at e1
    cases e1
    unfold underway Sys.addressedTo sysOf
    rw [← hd, e2]
    have hid' : (s1.clients cfg.me).core.clientId = UInt64.ofNat cfg.me := by
      rw [hd]
      exact (Sys.wf (forever_reachable (app_forever h) (n + 1))).ids _ (me_exists h (hat (n + 1) (by omega)))
    rw [List.mem_filter]
    refine ⟨List.mem_filterMap.mpr ⟨⟨.message x, ans⟩, by simp, rfl⟩, ?_⟩
    rw [hid', hid]; simp

/-- C145. And if the only call ever made on the consumer is one `consume`, which goes on, every message in it is given to every plugin. -/
theorem C145_socket_to_plugins (h : App.Forever cfg σ acts) (hl : Sys.KeepsLooping (sysOf σ)) (hA : App.Attended cfg σ acts)
    (hb : ∀ n, (σ n).world.app.tasks.map (·.job) <+: [.consume]) {b : BrokerAddress} {n0 : Nat}
    (hat : ∀ m, n0 ≤ m → Attached cfg.me b (sysOf σ m))
    (hfr : Sys.Fair cfg.sys (sysOf σ) (roundsOf cfg σ acts) (Sys.Act.servesReads b))
    (hi : ∀ m, n0 ≤ m → (σ m).world.app.alive 0) {n : Nat} (hn : n0 ≤ n) {x : Message}
    (hx : x ∈ received (sysOf σ n) cfg.me ++ underway (sysOf σ n) cfg.me b) {y : Consumer.Received T}
    (hy : .ok y ∈ Consumer.yields cfg.app.decode x) {k : Nat} (hk : k < cfg.app.plugins) :
    ∃ m, n ≤ m ∧ (0, k, y, .ok ()) ∈ (σ m).world.app.offers := by
  have hm := never_stopped h hl
  obtain ⟨m1, hm1, hp⟩ := C143_messages (app_forever h) hl (n := n) (fun m hnm => round_path h (hat m (by omega)) (hat (m + 1) (by omega))) hfr
  have hF := consumer_forever h hm
  obtain ⟨m2, hm2, hq⟩ := C145_consume hF (fair_receiver h hm hA) (fun n => by rw [← Consumer.task_jobs (hF.run n)]; exact hb n) (n0 := n0) hi m1
  refine ⟨m2, by omega, hq y ?_ k hk⟩
  unfold Consumer.stream
  rw [delivered_received h hm (me_exists h (hat m1 (by omega)))]
  exact List.mem_flatMap.mpr ⟨x, hp.subset hx, hy⟩

end

end Neutron.Props
