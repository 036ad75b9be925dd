import Verif.Spec.AutoAck
import Verif.Proof.ReceiveForever
import Verif.Proof.Carried
import Verif.Proof.WorldLog

/-!
# Lemmas for C147
-/

namespace Neutron.Props

open Neutron Neutron.App Neutron.World Neutron.Sys

variable {T : Type}

/-- The job of a call that is never dropped stays there, with what it was made for. -/
theorem live_to {cfg : World.Cfg T} {σ : Nat → App.State T} {acts : Nat → App.Act} (h : App.Forever cfg σ acts) {k : Nat}
    (hd : ∀ m, acts m ≠ .drop k) {n m : Nat} (hnm : n ≤ m) {j : Job} (hk : (σ n).jobs[k]? = some j) :
    ∃ j', (σ m).jobs[k]? = some j' ∧ j'.made = j.made ∧ j'.live = j.live := by
  induction m with
  | zero => obtain rfl : n = 0 := by omega
            exact ⟨j, hk, rfl, rfl⟩
  | succ m ih =>
    by_cases he : n = m + 1
    · subst he; exact ⟨j, hk, rfl, rfl⟩
    · obtain ⟨j1, h1, h2, h2'⟩ := ih (by omega)
      by_cases hr : acts m = .run k
      · have hs := h.steps m
        rw [hr] at hs
        rw [(step_some hs).2.2]
        exact ⟨_, by simp [jobsAfter, h1]; rfl, (after_made _ _ _).1.trans h2, (after_made _ _ _).2.2.2.1.trans h2'⟩
      · exact ⟨j1, job_same (h.steps m) h1 hr (hd m), h2, h2'⟩

/-- The call the plugin makes is there from the next moment on. -/
theorem ack_job {cfg : World.Cfg T} {σ : Nat → App.State T} {acts : Nat → App.Act} (h : App.Forever cfg σ acts) {n k : Nat} {c : Start}
    (ha : acts n = .start c) (hk : (σ n).jobs.length = k) : ∃ j, (σ (n + 1)).jobs[k]? = some j ∧ j.made = c ∧ j.live = true := by
  have hs := h.steps n
  rw [ha] at hs
  rw [(step_some hs).2.2]
  refine ⟨c.job (σ n).world.sys, ?_, ?_, ?_⟩
  · subst hk; simp [jobsAfter]
  · cases c <;> rfl
  · cases c <;> rfl

/-- A call inside a plugin stays there until the plugin answers or the call is dropped. -/
theorem plugin_kept {cfg : World.Cfg T} {σ : Nat → App.State T} {acts : Nat → App.Act} (h : App.Forever cfg σ acts)
    (hm : ∀ n, (σ n).world.sys.mode ≠ .stopped) {n i p : Nat} {y : Consumer.Received T} (hp : p < cfg.app.plugins)
    (hin : InPlugin (σ n) i p y) (h1 : ∀ r, acts n ≠ .world (.app (.offer i r))) (h2 : acts n ≠ .world (.app (.cancel i))) :
    InPlugin (σ (n + 1)) i p y := by
  obtain ⟨t, ht, hst⟩ := hin
  have hF := consumer_forever h hm
  cases ha : onConsumer σ acts n with
  | none =>
    have := hF.idle ha
    unfold InPlugin
    rw [this]; exact ⟨t, ht, hst⟩
  | some a =>
    have hs := hF.act ha
    by_cases hr : a = .run i ∨ a = .refuse i
    · exfalso
      revert hs ht
      generalize (σ (n + 1)).world.app = s', (σ n).world.app = s
      intro ht hs
      rcases hr with rfl | rfl
      · cases hs with
        | loop _ t' ht' m k hc hk => rw [ht] at ht'; cases ht'; rw [hst] at hc; cases hc; exact hk hp
        | skip _ t' ht' _ hc => rw [ht] at ht'; cases ht'; rw [hst] at hc; cases hc
        | _ => simp_all
      · cases hs with
        | refuse _ t' ht' _ _ hc => rw [ht] at ht'; cases ht'; rw [hst] at hc; cases hc
    · refine ⟨t, Consumer.other_task hs ht (fun e => hr (.inl e)) (fun e => hr (.inr e)) (fun r e => ?_) (fun e => ?_), hst⟩
      · subst e; exact h1 r (on_other ha (by simp))
      · subst e; exact h2 (on_other ha (by simp))

/-- What a plugin has answered, it has answered while a receiving call was inside it. -/
theorem answered_when {cfg : World.Cfg T} {σ : Nat → App.State T} {acts : Nat → App.Act} (h : App.Forever cfg σ acts)
    (hm : ∀ n, (σ n).world.sys.mode ≠ .stopped) {n i p : Nat} {y : Consumer.Received T} {r : Outcome Unit}
    (ho : (i, p, y, r) ∈ (σ n).world.app.offers) :
    ∃ m, m < n ∧ InPlugin (σ m) i p y ∧ acts m = .world (.app (.offer i r)) := by
  have hF := consumer_forever h hm
  induction n with
  | zero =>
    have : (σ 0).world.app.offers = [] := by rw [h.start]; rfl
    rw [this] at ho; cases ho
  | succ n ih =>
    by_cases hold : (i, p, y, r) ∈ (σ n).world.app.offers
    · obtain ⟨m, h1, h2⟩ := ih hold; exact ⟨m, by omega, h2⟩
    · cases ha : onConsumer σ acts n with
      | none =>
        have := hF.idle ha
        rw [this] at ho; exact absurd ho hold
      | some a =>
        have hs := hF.act ha
        have key : InPlugin (σ n) i p y ∧ a = .offer i r := by
          unfold InPlugin
          revert hs ho hold
          generalize (σ (n + 1)).world.app = s', (σ n).world.app = s
          intro ho hold hs
          cases hs with
          | accepted i' t ht m k hc hk =>
            simp only [List.mem_append, List.mem_singleton] at ho
            rcases ho with ho | ho
            · exact absurd ho hold
            · cases ho; exact ⟨⟨t, ht, hc⟩, rfl⟩
          | rejected i' t ht m k hc hk r' hr =>
            simp only [List.mem_append, List.mem_singleton] at ho
            rcases ho with ho | ho
            · exact absurd ho hold
            · cases ho; exact ⟨⟨t, ht, hc⟩, rfl⟩
          | ret i' t ht o hc =>
            exfalso; apply hold
            revert ho
            unfold Consumer.finish
            repeat' split
            all_goals exact id
          | _ => exact absurd ho hold
        obtain ⟨k1, rfl⟩ := key
        exact ⟨n, by omega, k1, on_other ha (by simp)⟩

/-- What a broker has received it has received later, too. -/
theorem received_to {cfg : World.Cfg T} {σ : Nat → App.State T} {acts : Nat → App.Act} (h : App.Forever cfg σ acts) {n m : Nat} (hnm : n ≤ m)
    {b : BrokerAddress} {v : MessageCommand} (hr : Received ((σ n).world.tx b).sent v) : Received ((σ m).world.tx b).sent v := by
  induction m with
  | zero => obtain rfl : n = 0 := by omega
            exact hr
  | succ m ih =>
    by_cases he : n = m + 1
    · subst he; exact hr
    · obtain ⟨as, log, hrun⟩ := run_at h m
      obtain ⟨frames, ⟨hf, hb⟩, hv⟩ := ih (by omega)
      exact ⟨frames, ⟨hf, hb.trans (sent_mono (run_world hrun) (run_world (.snoc hrun (h.steps m))) b)⟩, hv⟩

end Neutron.Props
