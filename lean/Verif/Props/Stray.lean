import Verif.Proof.NoiseApp
import Verif.Props.Requests
import Verif.Proof.SysHonest
import Verif.Proof.SysService

/-!
# C152 Responses nobody waits for
-/

namespace Neutron.Props

open Neutron Neutron.App

variable {T : Type}

/-- If a response can complete a request, some request waits for it. -/
theorem awaited_of_resolve {cfg : Sys.Cfg} {s : Sys.State} (h : Sys.Reachable cfg s) {inb : Inbound} {t : Nat} {r : Sys.Resolver}
    (hr : s.resolver.tryResolve inb = some (t, r)) : Awaited s inb := by
  obtain ⟨k, hk, hf, _⟩ := Sys.tryResolve_some hr
  have hm := Sys.find_mem hf
  obtain ⟨i, out, h1, h2⟩ := (Sys.req h).waiting k t hm
  have hlt : t < s.issued.length := (List.getElem?_eq_some_iff.mp h1).1
  have hc := (C18_count h t hlt).1
  have hin : 0 < (s.resolver.map (·.2)).count t := List.count_pos_iff.mpr (List.mem_map.mpr ⟨_, hm, rfl⟩)
  simp only [Sys.whereabouts, List.count_append] at hc
  refine ⟨t, i, out, h1, ⟨hlt, ?_⟩, ?_, Sys.key_answers ((Sys.req h).issued t i out h1).2 h2 hk⟩
  · intro o ho
    have : 0 < (s.outcomes.map (·.1)).count t := List.count_pos_iff.mpr (List.mem_map.mpr ⟨_, ho, rfl⟩)
    omega
  · intro j hjn hj
    have : 0 < ((List.range s.nClients).flatMap (Sys.withClient s)).count t :=
      List.count_pos_iff.mpr (List.mem_flatMap.mpr ⟨j, List.mem_range.mpr hjn, hj⟩)
    omega

/-- Handling it changes nothing anybody looks at. -/
theorem stray_like {s : Sys.State} {b : BrokerAddress} {e : Sys.Event} {q : List Sys.Event}
    (hm : e.inb.isMessage = false) (v : Bool) (hr : s.resolver.tryResolve e.inb = none) (q' : List Sys.Event) (hq : q' = q) (e' : Sys.Event) :
    Sys.Like (Sys.managerSend (Sys.takeEvent s b e' q) e b v) (s.setConn b { s.conns b with outbox := q' }) := by
  subst hq
  unfold Sys.managerSend
  rw [show (Sys.takeEvent s b e' q').resolver = s.resolver from rfl, hr]
  unfold Sys.Like
  simp only [Sys.takeEvent, Sys.scrub, Sys.State.setConn, Sys.State.mk.injEq, true_and, and_true]
  refine ⟨funext fun i => ?_, funext fun c => ?_⟩
  · split
    · simp [Sys.scrubClient, hm, messageEvents]
    · rfl
  · split <;> rfl

/-- What the engine does with an event is all that happens. -/
theorem engIn_alike {cfg : World.Cfg T} {acts : List App.Act} {log : List World.Act} {x x' : State T} (h : Run cfg acts log x)
    {b : BrokerAddress} (hs : step cfg x (.world (.sys (.engIn b))) = some x') {u : Sys.State}
    (hl : ∀ s1, Sys.engIn x.world.sys b = some s1 → Sys.Like s1 u)
    (hin : (u.clients cfg.me).inbox = (x.world.sys.clients cfg.me).inbox) (hend : Sys.engineEnd u cfg.me = Sys.engineEnd x.world.sys cfg.me) :
    Alike cfg x' { x with world := { x.world with sys := u } } := by
  refine like_alike ⟨_, _, h.snoc hs⟩ ?_
  have hw := run_world h
  obtain ⟨_, _, hproj⟩ := World.proj hw
  obtain ⟨_, hws, hj⟩ := step_some hs
  simp only [App.induced, worldSteps] at hws
  split at hws
  · rename_i w1 h1
    cases hws
    simp only [World.step] at h1
    split at h1
    · rename_i hf
      have hserv : x.world.serving = none := by simpa [World.free, World.turn, World.engine] using hf
      split at h1
      · rename_i s1 h2
        have hl := hl s1 h2
        have hx := Option.some.inj h1
        obtain ⟨w', jobs'⟩ := x'
        simp only [] at hx hj
        subst hx
        refine ⟨hj, hl, ?_, rfl, rfl, rfl, hserv.symm, rfl, by show x.world.app.inbox = _; rw [hin]; exact hproj.inbox⟩
        have e1 := World.like_engineEnd hl cfg.me
        have e2 : Sys.engineEnd u cfg.me = x.world.app.isOpen := hend.trans hproj.isOpen.symm
        simp only [World.sync, Consumer.State.mk.injEq, true_and, and_true]
        exact e1.trans e2
      · cases h1
    · cases h1
  · cases hws

/-- A response nobody waits for - unasked, repeated, or late - has no effect, at any time: once the engine has handled it nobody can ever tell
that it had been there. -/
theorem C152_no_effect {cfg : World.Cfg T} {acts : List App.Act} {log : List World.Act} {x x' : State T} (h : Run cfg acts log x)
    {b : BrokerAddress} {e : Sys.Event} {q : List Sys.Event} (he : (x.world.sys.conns b).outbox = e :: q) (hm : ∀ m, e.inb ≠ .message m)
    (hp : e.inb ≠ .ping) (hn : ¬ Awaited x.world.sys e.inb) (hs : step cfg x (.world (.sys (.engIn b))) = some x') :
    Alike cfg x' (without x b) := by
  obtain ⟨_, _, hproj⟩ := World.proj (run_world h)
  refine engIn_alike h hs (u := (without x b).world.sys) ?_ rfl rfl
  intro s1 h2
  have hres : x.world.sys.resolver.tryResolve (Sys.adjust b e.inb) = none := by
    cases hr : x.world.sys.resolver.tryResolve (Sys.adjust b e.inb) with
    | none => rfl
    | some p =>
      obtain ⟨t, i, out, a1, a2, a3, a4⟩ := awaited_of_resolve ⟨_, hproj.sys⟩ hr
      exact absurd ⟨t, i, out, a1, a2, a3, (Sys.adjust_answers b e.inb out).mp a4⟩ hn
  have hmm : (Sys.adjust b e.inb).isMessage = false := by
    cases hi : e.inb with
    | message m => exact absurd hi (hm m)
    | _ => rfl
  have hh : Sys.handleInbound (Sys.takeEvent x.world.sys b e q) b e =
      (Sys.managerSend (Sys.takeEvent x.world.sys b e q) { e with inb := Sys.adjust b e.inb } b false, .ok ()) := by
    unfold Sys.handleInbound
    cases hi : e.inb with
    | ping => exact absurd hi hp
    | _ => rfl
  have hs1 : s1 = Sys.managerSend (Sys.takeEvent x.world.sys b e q) { e with inb := Sys.adjust b e.inb } b false := by
    simp only [Sys.engIn] at h2
    split at h2
    · simp only [he, hh, Sys.finish, Option.some.injEq] at h2
      exact h2.symm
    · cases h2
  subst hs1
  exact stray_like (e := { e with inb := Sys.adjust b e.inb }) hmm false hres _ (by rw [he]; rfl) e

/-- Nor does a message for a consumer that is not there on this broker: unknown, dropped, or on another broker. -/
theorem C152_misdirected {cfg : World.Cfg T} {acts : List App.Act} {log : List World.Act} {x x' : State T} (h : Run cfg acts log x)
    {b : BrokerAddress} {e : Sys.Event} {q : List Sys.Event} (he : (x.world.sys.conns b).outbox = e :: q) {m : Message} (hm : e.inb = .message m)
    (hn : NoConsumer x.world.sys b m.consumerId) (hs : step cfg x (.world (.sys (.engIn b))) = some x') :
    Alike cfg x' (without x b) := by
  obtain ⟨_, _, hproj⟩ := World.proj (run_world h)
  refine engIn_alike h hs (u := (without x b).world.sys) ?_ rfl rfl
  intro s1 h2
  obtain ⟨inb, rp⟩ := e
  simp only [] at hm
  subst hm
  have hres : x.world.sys.resolver.tryResolve (.message m) = none := by
    cases hr : x.world.sys.resolver.tryResolve (.message m) with
    | none => rfl
    | some p =>
      obtain ⟨t, i, out, a1, a2, a3, a4⟩ := awaited_of_resolve ⟨_, hproj.sys⟩ hr
      cases out <;> exact absurd a4 (by intro hf; exact hf)
  have hs1 : s1 = Sys.managerSend (Sys.takeEvent x.world.sys b ⟨.message m, rp⟩ q) ⟨.message m, rp⟩ b false := by
    simp only [Sys.engIn] at h2
    split at h2
    · simp only [he, Sys.handleInbound, Sys.adjust, Sys.finish, Option.some.injEq] at h2
      exact h2.symm
    · cases h2
  subst hs1
  unfold Sys.managerSend
  rw [show (Sys.takeEvent x.world.sys b ⟨.message m, rp⟩ q).resolver = x.world.sys.resolver from rfl, hres]
  unfold Sys.Like
  simp only [Sys.takeEvent, Sys.scrub, Sys.State.setConn, without, Sys.State.mk.injEq, true_and, and_true]
  refine ⟨funext fun i => ?_, funext fun c => ?_⟩
  · split
    · rename_i hc
      obtain ⟨h3, h4⟩ := hc
      simp only [Sys.recipients, List.mem_filter, Bool.and_eq_true, decide_eq_true_eq] at h3
      exact absurd (hn i h3.1 h3.2.1 (of_decide_eq_true h3.2.2)) h4
    · rfl
  · split
    · rw [he]; rfl
    · rfl

/-- A ping has one effect and no other: the connection it came from gets a `PONG` to write. -/
theorem C154_only_pong {cfg : World.Cfg T} {acts : List App.Act} {log : List World.Act} {x x' : State T} (h : Run cfg acts log x)
    {b : BrokerAddress} {e : Sys.Event} {q : List Sys.Event} (he : (x.world.sys.conns b).outbox = e :: q) (hp : e.inb = .ping)
    (ha : (x.world.sys.conns b).alive = true) (hs : step cfg x (.world (.sys (.engIn b))) = some x') :
    Alike cfg x' (withPong (without x b) b) := by
  refine engIn_alike h hs (u := (withPong (without x b) b).world.sys) ?_ rfl rfl
  intro s1 h2
  obtain ⟨inb, rp⟩ := e
  simp only [] at hp
  subst hp
  simp only [Sys.engIn] at h2
  split at h2
  · rename_i hc
    have hb : ¬ b ∉ x.world.sys.addrs := not_not_intro hc.2.1
    simp only [he, Sys.handleInbound, Sys.pushConn, Sys.takeEvent, Sys.State.setConn, hb, if_false, if_true, ha, not_true, Sys.finish, Option.some.injEq] at h2
    subst h2
    unfold Sys.Like
    simp only [Sys.scrub, Sys.State.setConn, withPong, without, if_true, Sys.State.mk.injEq, true_and, and_true]
    refine funext fun c => ?_
    split
    · rw [he, ha]; rfl
    · rfl
  · cases h2

/-- So whatever the application could go on to see without it, it can go on to see, and whatever it goes on to see, it could have seen without:
the results of its calls, what it receives, what is written to the sockets. -/
theorem C152_same_future {cfg : World.Cfg T} {acts : List App.Act} {log : List World.Act} {x x' : State T} (h : Run cfg acts log x)
    {b : BrokerAddress} {e : Sys.Event} {q : List Sys.Event} (he : (x.world.sys.conns b).outbox = e :: q) (hm : ∀ m, e.inb ≠ .message m)
    (hp : e.inb ≠ .ping) (hn : ¬ Awaited x.world.sys e.inb) (hs : step cfg x (.world (.sys (.engIn b))) = some x') :
    (∀ z, CanReach cfg (without x b) z → ∃ z', CanReach cfg x' z' ∧ Same z' z) ∧
    (∀ z', CanReach cfg x' z' → ∃ z, CanReach cfg (without x b) z ∧ Same z' z) := by
  obtain ⟨R, hR, hb⟩ := C152_no_effect h he hm hp hn hs
  have again : ∀ {a : App.Act} {k : Nat} {y u v : State T}, CanReach cfg y u → Repeat cfg a k u v → CanReach cfg y v := by
    intro a k y u v h1 h2
    induction h2 with
    | zero _ => exact h1
    | succ h3 _ ih => exact ih (.step h1 h3)
  constructor
  · intro z hz
    suffices ∃ z', CanReach cfg x' z' ∧ R z' z by
      obtain ⟨z', h1, h2⟩ := this
      exact ⟨z', h1, (hb _ _ h2).1⟩
    induction hz with
    | refl => exact ⟨x', .refl _, hR⟩
    | step _ h2 ih =>
      obtain ⟨z', h3, h4⟩ := ih
      obtain ⟨k, z'', h5, h6⟩ := (hb _ _ h4).2.2 _ _ h2
      exact ⟨z'', again h3 h5, h6⟩
  · intro z' hz
    suffices ∃ z, CanReach cfg (without x b) z ∧ R z' z by
      obtain ⟨z, h1, h2⟩ := this
      exact ⟨z, h1, (hb _ _ h2).1⟩
    clear hs
    induction hz with
    | refl => exact ⟨_, .refl _, hR⟩
    | step _ h2 ih =>
      obtain ⟨z, h3, h4⟩ := ih
      obtain ⟨k, z2, h5, h6⟩ := (hb _ _ h4).2.1 _ _ h2
      exact ⟨z2, again h3 h5, h6⟩

/-- "A broker's authentication challenge is answered": it never is, it has no effect whatever. -/
theorem C153_refuted {cfg : World.Cfg T} {acts : List App.Act} {log : List World.Act} {x x' : State T} (h : Run cfg acts log x)
    {b : BrokerAddress} {e : Sys.Event} {q : List Sys.Event} (he : (x.world.sys.conns b).outbox = e :: q) (hc : e.inb = .authChallengeRequest)
    (hs : step cfg x (.world (.sys (.engIn b))) = some x') : Alike cfg x' (without x b) := by
  refine C152_no_effect h he (by intro m hm; rw [hc] at hm; cases hm) (by rw [hc]; intro hm; cases hm) ?_ hs
  rintro ⟨t, i, out, _, _, _, ha⟩
  rw [hc] at ha
  cases out <;> exact ha

end Neutron.Props
