import Verif.Proof.ApartApp
import Verif.Props.Stray

/-!
# C157 Other consumers' messages
-/

namespace Neutron.Props

open Neutron Neutron.App

variable {T : Type}

/-- Handling a message for another consumer is, but for its channel, dropping it. -/
theorem other_like {cfg : World.Cfg T} {acts : List App.Act} {log : List World.Act} {x x' : State T} (h : Run cfg acts log x)
    {b : BrokerAddress} {e : Sys.Event} {q : List Sys.Event} (he : (x.world.sys.conns b).outbox = e :: q) {m : Message} (hm : e.inb = .message m)
    (hn : ¬ ((x.world.sys.clients cfg.me).broker = b ∧ (x.world.sys.clients cfg.me).core.clientId = m.consumerId))
    (hs : step cfg x (.world (.sys (.engIn b))) = some x') : @App.Apart.Like T ⟨cfg.me⟩ cfg x' (without x b) := by
  letI : Sys.Apart.Watch := ⟨cfg.me⟩
  obtain ⟨_, _, hproj⟩ := World.proj (run_world h)
  obtain ⟨_, hws, hj⟩ := step_some hs
  have hl : ∀ s1, Sys.engIn x.world.sys b = some s1 → Sys.Apart.Like s1 (without x b).world.sys := by
    intro s1 h2
    obtain ⟨inb, rp⟩ := e
    simp only [] at hm
    subst hm
    have hres : x.world.sys.resolver.tryResolve (.message m) = none := by
      cases hr : x.world.sys.resolver.tryResolve (.message m) with
      | none => rfl
      | some p =>
        obtain ⟨t, i, out, a1, a2, a3, a4⟩ := awaited_of_resolve ⟨_, hproj.sys⟩ hr
        cases out <;> exact absurd a4 (by intro hf; exact hf)
    have hs1 : s1 = Sys.managerSend (Sys.takeEvent x.world.sys b ⟨.message m, rp⟩ q) ⟨.message m, rp⟩ b false := by
      simp only [Sys.engIn] at h2
      split at h2
      · simp only [he, Sys.handleInbound, Sys.adjust, Sys.finish, Option.some.injEq] at h2
        exact h2.symm
      · cases h2
    subst hs1
    unfold Sys.managerSend
    rw [show (Sys.takeEvent x.world.sys b ⟨.message m, rp⟩ q).resolver = x.world.sys.resolver from rfl, hres]
    unfold Sys.Apart.Like
    simp only [Sys.takeEvent, Sys.Apart.scrub, Sys.State.setConn, without, Sys.State.mk.injEq, true_and, and_true]
    refine ⟨funext fun i => ?_, funext fun c => ?_⟩
    · split
      · rename_i hc
        obtain ⟨h3, h4⟩ := hc
        simp only [Sys.recipients, List.mem_filter, Bool.and_eq_true, decide_eq_true_eq] at h3
        have hi : i ≠ cfg.me := by
          rintro rfl
          exact hn ⟨h3.2.1, of_decide_eq_true h3.2.2⟩
        have hi' : ¬ i = Sys.Apart.Watch.me := hi
        simp [Sys.Apart.scrubClient, Sys.Apart.keep, hi']
      · rfl
    · split
      · rw [he]; rfl
      · rfl
  simp only [App.induced, worldSteps] at hws
  split at hws
  · rename_i w1 h1
    cases hws
    simp only [World.step] at h1
    split at h1
    · rename_i hf
      have hserv : x.world.serving = none := by simpa [World.free, World.turn, World.engine] using hf
      split at h1
      · rename_i s1 h2
        have hl := hl s1 h2
        have hx := Option.some.inj h1
        obtain ⟨w', jobs'⟩ := x'
        simp only [] at hx hj
        subst hx
        refine ⟨hj, rfl, hl, ?_, rfl, rfl, rfl, hserv.symm⟩
        have e1 := World.Apart.like_engineEnd hl cfg.me
        have e2 : (s1.clients cfg.me).inbox = ((without x b).world.sys.clients cfg.me).inbox := World.Apart.like_mine hl
        rw [show (without x b).world.sys.clients = x.world.sys.clients from rfl] at e2
        have e3 : Sys.engineEnd s1 cfg.me = x.world.app.isOpen := e1.trans hproj.isOpen.symm
        simp only [World.sync, e2, e3, without]
        have e4 := hproj.inbox
        cases happ : x.world.app
        rw [happ] at e4
        simp only [] at e4
        rw [e4]
      · cases h1
    · cases h1
  · cases hws

/-- Messages for another consumer do not affect this one, nor any call: once the engine has handled such a message, nobody but its consumer can
ever tell that it had been there. -/
theorem C157_unaffected {cfg : World.Cfg T} {acts : List App.Act} {log : List World.Act} {x x' : State T} (h : Run cfg acts log x)
    {b : BrokerAddress} {e : Sys.Event} {q : List Sys.Event} (he : (x.world.sys.conns b).outbox = e :: q) {m : Message} (hm : e.inb = .message m)
    (hn : ¬ ((x.world.sys.clients cfg.me).broker = b ∧ (x.world.sys.clients cfg.me).core.clientId = m.consumerId))
    (hs : step cfg x (.world (.sys (.engIn b))) = some x') : AlikeFor cfg x' (without x b) := 
  letI : Sys.Apart.Watch := ⟨cfg.me⟩
  App.Apart.like_alike ⟨_, _, h.snoc hs⟩ (other_like h he hm hn hs)

/-- The relation is kept when the same number of events is dropped on both sides. -/
theorem like_withoutFirst [Sys.Apart.Watch] {cfg : World.Cfg T} {x y : State T} (h : App.Apart.Like cfg x y) (n : Nat) (b : BrokerAddress) :
    App.Apart.Like cfg (withoutFirst n x b) (withoutFirst n y b) := by
  refine ⟨h.jobs, h.world.me, ?_, h.world.app, h.world.rx, h.world.tx, h.world.held, h.world.serving⟩
  have h1 := h.world.sys
  have h2 := h.world.conn b
  unfold Sys.Apart.Like at h1 ⊢
  simp only [withoutFirst, Sys.Apart.scrub_setConn, h1]
  congr 1
  simp only [Sys.Apart.scrubConn, Sys.ConnSt.mk.injEq] at h2 ⊢
  simp_all

theorem like_handles {cfg : World.Cfg T} {b : BrokerAddress} : ∀ {es q : List Sys.Event} {acts : List App.Act} {log : List World.Act} {x x' : State T},
    Run cfg acts log x → (x.world.sys.conns b).outbox = es ++ q →
    (∀ e ∈ es, ∃ m, e.inb = .message m ∧
      ¬ ((x.world.sys.clients cfg.me).broker = b ∧ (x.world.sys.clients cfg.me).core.clientId = m.consumerId)) →
    Handles cfg b es.length x x' → (∃ acts log, Run cfg acts log x') ∧ @App.Apart.Like T ⟨cfg.me⟩ cfg x' (withoutFirst es.length x b) := by
  letI : Sys.Apart.Watch := ⟨cfg.me⟩
  intro es
  induction es with
  | nil =>
    intro q acts log x x' h _ _ hs
    cases hs
    refine ⟨⟨_, _, h⟩, rfl, rfl, ?_, rfl, rfl, rfl, rfl, rfl⟩
    have : withoutFirst ([] : List Sys.Event).length x b = x := by
      obtain ⟨w, js⟩ := x
      obtain ⟨s⟩ := w
      simp only [withoutFirst, Sys.State.setConn, List.length_nil, List.drop_zero]
      congr 2
      cases s
      congr 1
      funext c
      split
      · rename_i hc; rw [hc]
      · rfl
    rw [this]
    exact rfl
  | cons e es ih =>
    intro q acts log x x' h ho hall hs
    obtain ⟨m, hm, hn⟩ := hall e (by simp)
    cases hs with
    | succ h1 h2 =>
      rename_i y
      have hl := other_like h (q := es ++ q) ho hm hn h1
      have hob : (y.world.sys.conns b).outbox = es ++ q := by
        have h3 := congrArg Sys.ConnSt.outbox (hl.world.conn b)
        simp only [Sys.Apart.sn_outbox, without, Sys.State.setConn, if_true, ho, List.cons_append, List.tail_cons] at h3
        exact h3
      have hbr : (y.world.sys.clients cfg.me).broker = (x.world.sys.clients cfg.me).broker := hl.world.sys.broker cfg.me
      have hco : (y.world.sys.clients cfg.me).core = (x.world.sys.clients cfg.me).core := hl.world.sys.core cfg.me
      obtain ⟨hr, hl2⟩ := ih (h.snoc h1) hob (by
        intro e' he'
        obtain ⟨m', h4, h5⟩ := hall e' (by simp [he'])
        exact ⟨m', h4, by rw [hbr, hco]; exact h5⟩) h2
      refine ⟨hr, ?_⟩
      have hl3 := like_withoutFirst hl es.length b
      have heq : withoutFirst es.length (without x b) b = withoutFirst (e :: es).length x b := by
        simp only [withoutFirst, without, Sys.State.setConn, if_true, List.length_cons]
        congr 2
        simp only [Sys.State.mk.injEq, true_and, and_true]
        funext c
        split
        · simp
        · rfl
      rw [heq] at hl3
      exact ⟨hl2.jobs.trans hl3.jobs, hl2.world.trans hl3.world⟩

/-- Nor can any number of them, however many the other consumers are sent before this one's next message. -/
theorem C157_backlog {cfg : World.Cfg T} {acts : List App.Act} {log : List World.Act} {x x' : State T} (h : Run cfg acts log x)
    {b : BrokerAddress} {es q : List Sys.Event} (he : (x.world.sys.conns b).outbox = es ++ q)
    (hn : ∀ e ∈ es, ∃ m, e.inb = .message m ∧
      ¬ ((x.world.sys.clients cfg.me).broker = b ∧ (x.world.sys.clients cfg.me).core.clientId = m.consumerId))
    (hs : Handles cfg b es.length x x') : AlikeFor cfg x' (withoutFirst es.length x b) :=
  letI : Sys.Apart.Watch := ⟨cfg.me⟩
  App.Apart.like_alike (like_handles h he hn hs).1 (like_handles h he hn hs).2

/-- So this consumer and all calls go on as if it had not been there: whatever they could come to see without it they can come to see with it,
and whatever they come to see with it they could have come to see without. -/
theorem C157_same_future {cfg : World.Cfg T} {acts : List App.Act} {log : List World.Act} {x x' : State T} (h : Run cfg acts log x)
    {b : BrokerAddress} {e : Sys.Event} {q : List Sys.Event} (he : (x.world.sys.conns b).outbox = e :: q) {m : Message} (hm : e.inb = .message m)
    (hn : ¬ ((x.world.sys.clients cfg.me).broker = b ∧ (x.world.sys.clients cfg.me).core.clientId = m.consumerId))
    (hs : step cfg x (.world (.sys (.engIn b))) = some x') :
    (∀ z, CanReach cfg (without x b) z → ∃ z', CanReach cfg x' z' ∧ SameFor cfg.me z' z) ∧
    (∀ z', CanReach cfg x' z' → ∃ z, CanReach cfg (without x b) z ∧ SameFor cfg.me z' z) := by
  obtain ⟨R, hR, hb⟩ := C157_unaffected h he hm hn hs
  constructor
  · intro z hz
    suffices ∃ z', CanReach cfg x' z' ∧ R z' z by
      obtain ⟨z', h1, h2⟩ := this
      exact ⟨z', h1, (hb _ _ h2).1⟩
    induction hz with
    | refl => exact ⟨x', .refl _, hR⟩
    | step _ h2 ih =>
      obtain ⟨z', h3, h4⟩ := ih
      rcases (hb _ _ h4).2.2 _ _ h2 with ⟨z'', h5, h6⟩ | ⟨_, h6⟩
      · exact ⟨z'', .step h3 h5, h6⟩
      · exact ⟨z', h3, h6⟩
  · intro z' hz
    suffices ∃ z, CanReach cfg (without x b) z ∧ R z' z by
      obtain ⟨z, h1, h2⟩ := this
      exact ⟨z, h1, (hb _ _ h2).1⟩
    clear hs
    induction hz with
    | refl => exact ⟨_, .refl _, hR⟩
    | step _ h2 ih =>
      obtain ⟨z, h3, h4⟩ := ih
      rcases (hb _ _ h4).2.1 _ _ h2 with ⟨z2, h5, h6⟩ | ⟨_, h6⟩
      · exact ⟨z2, .step h3 h5, h6⟩
      · exact ⟨z, h3, h6⟩

/-- Nor can it be told whether another consumer takes what is queued for it. -/
theorem C157_others_reading {cfg : World.Cfg T} {acts : List App.Act} {log : List World.Act} {x x' : State T} (h : Run cfg acts log x)
    {a : App.Act} (ha : OthersTake cfg.me a) (hs : step cfg x a = some x') : AlikeFor cfg x' x := by
  letI : Sys.Apart.Watch := ⟨cfg.me⟩
  obtain ⟨_, _, hproj⟩ := World.proj (run_world h)
  obtain ⟨i, hi, rfl⟩ := ha
  refine App.Apart.like_alike ⟨_, _, h.snoc hs⟩ ?_
  obtain ⟨_, hw, hj⟩ := step_some hs
  have hw1 : World.step cfg x.world (.sys (.clientNext i)) = some x'.world := by
    simp only [App.induced, worldSteps] at hw
    split at hw
    · rename_i h; rw [h]; exact hw
    · cases hw
  exact ⟨hj, (World.Apart.like_next rfl hproj.inbox hproj.isOpen hw1).2⟩

end Neutron.Props
