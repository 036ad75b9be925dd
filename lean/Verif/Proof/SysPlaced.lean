import Verif.Proof.SysWait
import Verif.Proof.SysStop

/-!
# Every registered client's broker has a connection
-/

namespace Neutron.Sys

open Neutron

structure Placed (cfg : Cfg) (s : State) : Prop where
  home : s.mode ≠ .starting → s.mode ≠ .stopped → cfg.config.brokerAddress ∈ s.addrs
  broker : ∀ i, i ∈ s.vec → (s.clients i).broker ∈ s.addrs

theorem Placed.congr {cfg : Cfg} {s s' : State} (h : Placed cfg s) (hm : s'.mode = s.mode ∨ s'.mode = .stopped ∨ (s'.mode = .idle ∧
      s.mode ≠ .starting ∧ s.mode ≠ .stopped)) (ha : ∀ b, b ∈ s.addrs → b ∈ s'.addrs) (hv : s'.vec = s.vec)
    (hc : ∀ i, i ∈ s.vec → (s'.clients i).broker = (s.clients i).broker) : Placed cfg s' := by
  refine ⟨?_, ?_⟩
  · intro h1 h2
    rcases hm with hm | hm | ⟨_, h3, h4⟩
    · rw [hm] at h1 h2; exact ha _ (h.home h1 h2)
    · exact absurd hm h2
    · exact ha _ (h.home h3 h4)
  · intro i hi
    rw [hv] at hi
    rw [hc i hi]
    exact ha _ (h.broker i hi)

theorem Placed.stop {cfg : Cfg} {s : State} (h : Placed cfg s) : Placed cfg (stop s) :=
  h.congr (.inr (.inl rfl)) (fun _ h => h) rfl (fun _ _ => rfl)

theorem Placed.prep {cfg : Cfg} {s s3 : State} {i : Nat} {c c2 : Connect} {b : BrokerAddress} (h : Placed cfg s)
    (hp : Prep cfg s i c c2 b s3) : Placed cfg s3 := by
  obtain ⟨s2, hd, hb⟩ := hp
  have h2 : Placed cfg s2 := by
    rcases hd with rfl | ⟨_, rfl⟩
    · exact h
    · exact h.congr (.inl rfl) (fun x hx => by simp [dialed, hx]) rfl (fun _ _ => rfl)
  split
  · refine ⟨by simpa using h2.home, ?_⟩
    intro j hj
    simp only [moveClient_vec] at hj
    simp only [moveClient, moveClient_addrs]
    split
    · exact hb
    · exact h2.broker j hj
  · exact h2

theorem Placed.step {cfg : Cfg} {s s' : State} {a : Act} (hr : Reachable cfg s) (h : Placed cfg s) (hs : step cfg s a = some s') :
    Placed cfg s' := by
  have hw := wf hr
  have hst := step_cases hs
  clear hs
  cases hst with
  | startOk net hm s2 h2 =>
    rcases h2 with ⟨rfl, hb⟩ | ⟨hb, rfl⟩
    · exact ⟨fun _ _ => hb, h.broker⟩
    · refine ⟨fun _ _ => by simp [dialed], fun i hi => ?_⟩
      have := h.broker i hi
      simp only [dialed, List.mem_append]
      exact .inl this
  | startFail | outGone | inLost | regClosedStop | noConn | connectLost => exact h.stop
  | regFail i q hm hcc hq hl =>
    apply Placed.stop
    refine ⟨h.home, fun j hj => ?_⟩
    simp only [List.mem_append, List.mem_singleton] at hj
    simp only [setClient_clients]
    split
    · exact h.home (by rw [hm]; simp) (by rw [hm]; simp)
    · rename_i hji
      rcases hj with hj | hj
      · exact h.broker j hj
      · exact absurd hj hji
  | reg i q hm hcc hq hl =>
    refine ⟨h.home, fun j hj => ?_⟩
    simp only [List.mem_append, List.mem_singleton] at hj
    simp only [setClient_clients]
    split
    · exact h.home (by rw [hm]; simp) (by rw [hm]; simp)
    · rename_i hji
      rcases hj with hj | hj
      · exact h.broker j hj
      · exact absurd hj hji
  | out i auth net cmd q s' hm hv ha hq he =>
    have h1 : Placed cfg (takeCmd s i cmd q) := h.congr (.inl (by simp)) (by simp) (by simp) (fun j _ => by
      rw [takeCmd_clients]; split
      · rename_i hj; subst hj; rfl
      · rfl)
    cases he with
    | failed => exact h1.stop
    | lost c c2 b s3 hcc h2 hb hp => exact (h1.prep hp).stop
    | sent j hn hj ha hl => exact h1.congr (.inl rfl) (fun _ h => h) rfl (fun _ _ => rfl)
    | connecting c c2 b s3 j hcc h2 hb hp hj ha hl =>
      have h3 := h1.prep hp
      have hidle : s3.mode = .idle := by rw [hp.mode]; simpa using hm
      exact ⟨fun _ _ => h3.home (by rw [hidle]; simp) (by rw [hidle]; simp), fun k hk => h3.broker k hk⟩
  | inb b e q s' hm ha hv hq he =>
    have h1 : Placed cfg (takeEvent s b e q) := h.congr (.inl rfl) (fun _ h => h) rfl (fun _ _ => rfl)
    cases he with
    | pingFailed hping =>
      apply Placed.stop
      exact h1.congr (.inl rfl) (fun _ h => h) rfl (fun _ _ => rfl)
    | ping hping _ _ => exact h1.congr (.inl rfl) (fun _ h => h) rfl (fun _ _ => rfl)
    | other _ => exact h1.congr (.inl (by simp)) (by simp) (by simp) (fun j _ => by simp)
  | connectOk r b x e hm hf =>
    exact h.congr (.inr (.inr ⟨by simp, by simp [hm], by simp [hm]⟩)) (by simp) (by simp) (fun j _ => by simp)
  | cmdEnd b w hl ha hq hm => exact h.congr (.inl rfl) (fun _ h => h) rfl (fun _ _ => rfl)
  | cmdOk b c q hl ha hq => exact h.congr (.inl (by simp)) (by simp) (by simp) (fun j _ => by simp)
  | cmdFail b c q hl ha hq => exact h.congr (.inl (by simp)) (by simp) (by simp) (fun j _ => by simp)
  | cmdPanic b c q hl ha hq => exact h.congr (.inl (by simp)) (by simp) (by simp) (fun j _ => by simp)
  | newClient name hl =>
    refine h.congr (.inl rfl) (fun _ h => h) rfl (fun i hi => ?_)
    simp only [setClient_clients]
    split
    · rename_i hj; have := hw.vecLt i hi; omega
    · rfl
  | sendRegFail i | sendReg i | recvReply i | recvReplyFail i | cancelReg i | request i | oneway i | submit i | refuse i | clientNext i
  | dropClient i | freeQueue i =>
    refine h.congr (.inl rfl) (fun _ h => h) rfl (fun j _ => ?_)
    simp only [setClient_clients]
    split
    · rename_i hj; subst hj; rfl
    · rfl
  | regClosed | readSkip => exact h
  | _ => exact h.congr (.inl rfl) (fun _ h => h) rfl (fun _ _ => rfl)

theorem placed {cfg : Cfg} {s : State} (h : Reachable cfg s) : Placed cfg s :=
  h.induct ⟨by simp [init], by simp [init]⟩ fun _ _ _ hr hp hs => Placed.step hr hp hs

end Neutron.Sys
