import Verif.Proof.Apart
import Verif.Proof.App

/-!
# The same for the consumer and the instance around it
-/

namespace Neutron.World.Apart

open Neutron App Sys.Apart

variable {T : Type} [Watch]

/-- Two worlds that differ only in the channels of other clients. -/
structure Like (cfg : Cfg T) (w v : World T) : Prop where
  me : Watch.me = cfg.me
  sys : Sys.Apart.Like w.sys v.sys
  app : w.app = v.app
  rx : w.rx = v.rx
  tx : w.tx = v.tx
  held : w.held = v.held
  serving : w.serving = v.serving

theorem Like.symm {cfg : Cfg T} {w v : World T} (h : Like cfg w v) : Like cfg v w :=
  ⟨h.me, h.sys.symm, h.app.symm, h.rx.symm, h.tx.symm, h.held.symm, h.serving.symm⟩

theorem Like.trans {cfg : Cfg T} {a b c : World T} (h : Like cfg a b) (h' : Like cfg b c) : Like cfg a c :=
  ⟨h.me, Eq.trans h.sys h'.sys, h.app.trans h'.app, h.rx.trans h'.rx, h.tx.trans h'.tx, h.held.trans h'.held, h.serving.trans h'.serving⟩

theorem Like.mode {cfg : Cfg T} {w v : World T} (h : Like cfg w v) : w.sys.mode = v.sys.mode := by
  have := congrArg Sys.State.mode h.sys; exact this

theorem Like.conn {cfg : Cfg T} {w v : World T} (h : Like cfg w v) (b : BrokerAddress) : scrubConn (w.sys.conns b) = scrubConn (v.sys.conns b) :=
  congrFun (congrArg Sys.State.conns h.sys) b

theorem Like.addrs {cfg : Cfg T} {w v : World T} (h : Like cfg w v) : w.sys.addrs = v.sys.addrs := by
  have := congrArg Sys.State.addrs h.sys; exact this

theorem like_engineEnd {s u : Sys.State} (h : Sys.Apart.Like s u) (i : Nat) : Sys.engineEnd s i = Sys.engineEnd u i := by
  rw [← scrub_engineEnd, ← scrub_engineEnd u, show scrub s = scrub u from h]

theorem like_mine {s u : Sys.State} (h : Sys.Apart.Like s u) : (s.clients Watch.me).inbox = (u.clients Watch.me).inbox := by
  have := congrArg Sys.ClientSt.inbox (h.clients Watch.me)
  simpa [keep] using this

theorem like_taken {s u : Sys.State} (h : Sys.Apart.Like s u) : (s.clients Watch.me).taken = (u.clients Watch.me).taken := by
  have := congrArg Sys.ClientSt.taken (h.clients Watch.me)
  simpa [keep] using this

theorem like_sync {cfg : Cfg T} {w v : World T} {s u : Sys.State} (me : Watch.me = cfg.me) (hs : Sys.Apart.Like s u) (app : w.app = v.app)
    (rx : w.rx = v.rx) (tx : w.tx = v.tx) (held : w.held = v.held) (serving : w.serving = v.serving) : Like cfg (sync cfg w s) (sync cfg v u) where
  me := me
  sys := hs
  app := by
    have h1 := like_mine hs
    rw [me] at h1
    simp only [sync, like_engineEnd hs, h1, app]
  rx := rx
  tx := tx
  held := held
  serving := serving

theorem like_sysSteps {cfg : Sys.Cfg} {as : List Sys.Act} (ha : ∀ i, .clientNext i ∈ as → i = Watch.me) : ∀ {s u s' : Sys.State},
    Sys.Apart.Like s u → sysSteps cfg s as = some s' → ∃ u', sysSteps cfg u as = some u' ∧ Sys.Apart.Like s' u' := by
  induction as with
  | nil => intro s u s' hl hs; cases hs; exact ⟨u, rfl, hl⟩
  | cons a as ih =>
    intro s u s' hl hs
    simp only [sysSteps] at hs ⊢
    cases h1 : Sys.step cfg s a with
    | none => simp [h1] at hs
    | some s1 =>
      simp only [h1] at hs
      obtain ⟨u1, h2, h3⟩ := Sys.Apart.like_step hl (fun i hi => ha i (by simp [hi])) h1
      simp only [h2]
      exact ih (fun i hi => ha i (List.mem_cons_of_mem _ hi)) h3 hs

theorem Like.running {cfg : Cfg T} {w v : World T} (h : Like cfg w v) (b : BrokerAddress) : running w b = running v b := by
  have h1 : (w.sys.conns b).alive = (v.sys.conns b).alive := by have := congrArg Sys.ConnSt.alive (h.conn b); exact this
  unfold World.running
  rw [h1, h.addrs]

theorem Like.reading {cfg : Cfg T} {w v : World T} (h : Like cfg w v) (b : BrokerAddress) : reading w b = reading v b := by
  unfold World.reading
  rw [h.running, h.held]

theorem Like.queue {cfg : Cfg T} {w v : World T} (h : Like cfg w v) (b : BrokerAddress) : (w.sys.conns b).queue = (v.sys.conns b).queue := by
  have := congrArg Sys.ConnSt.queue (h.conn b); exact this

theorem Like.clientQueue {cfg : Cfg T} {w v : World T} (h : Like cfg w v) (i : Nat) : (w.sys.clients i).queue = (v.sys.clients i).queue := by
  have := congrArg Sys.ClientSt.queue (h.sys.clients i); exact this

theorem Like.starting {cfg : Cfg T} {w v : World T} (h : Like cfg w v) (i : Nat) : (w.sys.clients i).starting = (v.sys.clients i).starting := by
  have := congrArg Sys.ClientSt.starting (h.sys.clients i); exact this

theorem Like.phase {cfg : Cfg T} {w v : World T} (h : Like cfg w v) (i : Nat) : (w.sys.clients i).phase = (v.sys.clients i).phase := by
  have := congrArg Sys.ClientSt.phase (h.sys.clients i); exact this

theorem Like.nClients {cfg : Cfg T} {w v : World T} (h : Like cfg w v) : w.sys.nClients = v.sys.nClients := by
  have := congrArg Sys.State.nClients h.sys; exact this

theorem Like.free {cfg : Cfg T} {w v : World T} (h : Like cfg w v) (a : Sys.Act) : free cfg w a = free cfg v a := by
  cases a <;> simp only [World.free, turn, h.serving, h.app]

theorem Like.own {cfg : Cfg T} {w v : World T} (h : Like cfg w v) (a : Consumer.Act) : own cfg w a = own cfg v a := by
  cases a <;> simp only [World.own, h.nClients, h.phase]

theorem Like.induced {cfg : Cfg T} {w v : World T} (h : Like cfg w v) (a : Consumer.Act) : induced cfg w a = induced cfg v a := by
  cases a <;> simp only [World.induced, h.app, h.starting]

/-- Of all clients the consumer's calls only take events from their own. -/
theorem induced_takes {cfg : Cfg T} {w : World T} {a : Consumer.Act} {i : Nat} (h : .clientNext i ∈ induced cfg w a) : i = cfg.me := by
  unfold World.induced at h
  repeat' split at h
  all_goals simp at h
  exact h

/-- Every action but another client's taking an event does the same in both worlds. -/
theorem like_plain {cfg : Cfg T} {w v w' : World T} (hl : Like cfg w v) {a : Act} (ha : ∀ i, a ≠ .sys (.clientNext i)) (hs : step cfg w a = some w') :
    ∃ v', step cfg v a = some v' ∧ Like cfg w' v' := by
  cases a with
  | arrive b r =>
    simp only [step, ← hl.addrs] at hs ⊢
    split at hs
    · rename_i hb
      cases hs
      rw [if_pos hb]
      exact ⟨_, rfl, hl.me, hl.sys, hl.app, by rw [hl.rx], hl.tx, hl.held, hl.serving⟩
    · cases hs
  | hold b =>
    simp only [step, ← hl.reading, ← hl.queue] at hs ⊢
    split at hs
    · rename_i hb
      cases hs
      rw [if_pos hb]
      exact ⟨_, rfl, hl.me, hl.sys, hl.app, hl.rx, hl.tx, by rw [hl.held], hl.serving⟩
    · cases hs
  | serve i =>
    simp only [step, ← hl.serving, ← hl.mode, ← hl.sys.vec, ← hl.addrs, ← hl.clientQueue] at hs ⊢
    split at hs
    · rename_i hb
      cases hs
      rw [if_pos hb]
      exact ⟨_, rfl, hl.me, hl.sys, hl.app, hl.rx, hl.tx, hl.held, rfl⟩
    · cases hs
  | poll b answers =>
    simp only [step, ← hl.reading, ← hl.rx] at hs ⊢
    split at hs
    · rename_i hb
      rw [if_pos hb]
      split at hs
      · rename_i s h1
        cases hs
        obtain ⟨u, h2, h3⟩ := like_sysSteps (by intro i hi; obtain ⟨x, _, hx⟩ := List.mem_map.mp hi; cases hx) hl.sys h1
        rw [h2]
        exact ⟨_, rfl, like_sync hl.me h3 hl.app rfl hl.tx hl.held hl.serving⟩
      · cases hs
    · cases hs
  | write b now io =>
    simp only [step, ← hl.running, ← hl.queue, ← hl.tx] at hs ⊢
    split at hs
    · rename_i hb
      rw [if_pos hb]
      cases hq : (w.sys.conns b).queue with
      | nil =>
        simp only [hq] at hs ⊢
        split at hs
        · rename_i s h1
          cases hs
          obtain ⟨u, h2, h3⟩ := Sys.Apart.like_step hl.sys (by intro i hi; cases hi) h1
          rw [h2]
          exact ⟨_, rfl, like_sync hl.me h3 hl.app hl.rx hl.tx hl.held hl.serving⟩
        · cases hs
      | cons c q =>
        simp only [hq] at hs ⊢
        split at hs
        · rename_i t r h0
          split at hs
          · rename_i s h1
            cases hs
            obtain ⟨u, h2, h3⟩ := Sys.Apart.like_step hl.sys (by intro i hi; cases hi) h1
            rw [h2]
            exact ⟨_, rfl, like_sync hl.me h3 hl.app hl.rx (by rw [hl.tx]) (by rw [hl.held]) hl.serving⟩
          · cases hs
        · cases hs
    · cases hs
  | sys a =>
    simp only [step, ← hl.free] at hs ⊢
    split at hs
    · rename_i hb
      rw [if_pos hb]
      split at hs
      · rename_i s h1
        cases hs
        obtain ⟨u, h2, h3⟩ := Sys.Apart.like_step hl.sys (by rintro i rfl; exact absurd rfl (ha i)) h1
        rw [h2]
        exact ⟨_, rfl, like_sync hl.me h3 hl.app hl.rx hl.tx hl.held (by rw [hl.serving])⟩
      · cases hs
    · cases hs
  | app a =>
    simp only [step, ← hl.own, ← hl.app, ← hl.induced] at hs ⊢
    split at hs
    · rename_i hb
      rw [if_pos hb]
      split at hs
      · rename_i app h1
        split at hs
        · rename_i s h2
          cases hs
          obtain ⟨u, h3, h4⟩ := like_sysSteps (fun i hi => (induced_takes hi).trans hl.me.symm) hl.sys h2
          simp only [h3]
          exact ⟨_, rfl, hl.me, h4, rfl, hl.rx, hl.tx, hl.held, hl.serving⟩
        · cases hs
      · cases hs
    · cases hs

/-- What is in the channels of other clients makes no difference to an instance. -/
theorem like_take {cfg : Sys.Cfg} {s s' : Sys.State} {c : Nat} (hc : c ≠ Watch.me) (hs : Sys.step cfg s (.clientNext c) = some s') :
    Sys.Apart.Like s' s := by
  simp only [Sys.step, Sys.clientNext] at hs
  split at hs
  · split at hs
    · cases hs
    · cases hs
      unfold Sys.Apart.Like
      rw [scrub_setClient]
      simp only [scrub, Sys.State.setClient, Sys.State.mk.injEq, true_and, and_true]
      funext j
      by_cases hj : j = c
      · subst hj
        rw [if_pos rfl]
        simp [scrubClient, keep, hc]
      · rw [if_neg hj]
  · cases hs

/-- Another client's taking an event makes no difference to the world. -/
theorem like_next {cfg : Cfg T} {w w' : World T} (hm : Watch.me = cfg.me) (hi : w.app.inbox = (w.sys.clients cfg.me).inbox.map (·.inb))
    (ho : w.app.isOpen = Sys.engineEnd w.sys cfg.me) {c : Nat} (hs : step cfg w (.sys (.clientNext c)) = some w') :
    c ≠ cfg.me ∧ Like cfg w' w := by
  have hc : c ≠ cfg.me := by
    rintro rfl
    simp [step, World.free] at hs
  refine ⟨hc, ?_⟩
  simp only [step] at hs
  split at hs
  · split at hs
    · rename_i s h1
      cases hs
      have hl := like_take (hm ▸ hc) h1
      refine ⟨hm, hl, ?_, rfl, rfl, rfl, rfl⟩
      have h2 := like_mine hl
      rw [hm] at h2
      simp only [sync, like_engineEnd hl, h2, ← hi, ← ho]
    · cases hs
  · cases hs

end Neutron.World.Apart
