import Verif.Proof.AppPlace
import Verif.Props.RequestIds
import Verif.Props.AppSend

/-!
# A producer or consumer stays on one connection: C135
-/

namespace Neutron.Props

open Neutron Neutron.World Proto

variable {T : Type}

/-- The producer or consumer a command names. -/
def namedBy : Outbound → Option UInt64
  | .producer p => some p.producerId
  | .subscribe p => some p.consumerId
  | .ack l => l.head?.map (·.consumerId)
  | .send m => some m.producerId
  | .flow f => some f.consumerId
  | _ => none

theorem named_of_command {now : UInt64} {out : Outbound} {v : MessageCommand} {p : UInt64} (ht : out.toCommand now = .ok v)
    (hv : NamesClient v p) : namedBy out = some p := by
  have no : ∀ ty f sub pl, v = ⟨baseCommand ty f sub, pl⟩ → ty = 5 ∨ ty = 4 ∨ ty = 10 ∨ ty = 6 ∨ ty = 11 := by
    intro ty f sub pl he
    rcases hv with h | h | h | h | h <;> have := h.1 <;> rw [he] at this <;> rw [commandType_base] at this <;> simp [this]
  cases out with
  | producer q =>
    cases ht
    rcases hv with ⟨h, m, h1, h2⟩ | ⟨h, _⟩ | ⟨h, _⟩ | ⟨h, _⟩ | ⟨h, _⟩
    · cases sub_base rfl (by decide) h1
      rw [u64_of rfl rfl] at h2
      rw [← h2]; rfl
    all_goals exact absurd ((commandType_base ..).symm.trans h) (by decide)
  | subscribe q =>
    cases ht
    rcases hv with ⟨h, _⟩ | ⟨h, m, h1, h2⟩ | ⟨h, _⟩ | ⟨h, _⟩ | ⟨h, _⟩
    rotate_left
    · cases sub_base rfl (by decide) h1
      rw [u64_of rfl rfl] at h2
      rw [← h2]; rfl
    all_goals exact absurd ((commandType_base ..).symm.trans h) (by decide)
  | ack a =>
    unfold Outbound.toCommand ackToCommand at ht
    cases a with
    | nil => cases ht
    | cons x a =>
      cases ht
      rcases hv with ⟨h, _⟩ | ⟨h, _⟩ | ⟨h, m, h1, h2⟩ | ⟨h, _⟩ | ⟨h, _⟩
      rotate_left 2
      · cases sub_base rfl (by decide) h1
        rw [u64_of rfl rfl] at h2
        rw [← h2]; rfl
      all_goals exact absurd ((commandType_base ..).symm.trans h) (by decide)
  | send m =>
    rw [show (Outbound.toCommand now _) = Send.toCommand now m from rfl, Send.toCommand_eq] at ht
    cases ht
    rcases hv with ⟨h, _⟩ | ⟨h, _⟩ | ⟨h, _⟩ | ⟨h, sub, h1, h2⟩ | ⟨h, _⟩
    rotate_left 3
    · unfold getMsg Send.asCommand baseCommand at h1
      rw [getF_mk _ _ _ rfl] at h1
      cases h1
      rw [← h2]
      exact congrArg some (u64_of rfl rfl).symm
    all_goals exact absurd ((commandType_base ..).symm.trans h) (by decide)
  | flow f =>
    cases ht
    rcases hv with ⟨h, _⟩ | ⟨h, _⟩ | ⟨h, _⟩ | ⟨h, _⟩ | ⟨h, m, h1, h2⟩
    rotate_left 4
    · cases sub_base rfl (by decide) h1
      rw [u64_of rfl rfl] at h2
      rw [← h2]; rfl
    all_goals exact absurd ((commandType_base ..).symm.trans h) (by decide)
  | _ => cases ht; exact absurd (no _ _ _ _ rfl) (by decide)

/-- A command naming a producer or consumer, among those a connection took, was passed on for that client. -/
theorem named_taken {cfg : Sys.Cfg} {s : Sys.State} (h : Sys.Reachable cfg s) {b : BrokerAddress} {c : Sys.ConnCmd} {p : UInt64}
    (hc : c ∈ (s.conns b).processed) (hm : namedBy c.out = some p) :
    ∃ (i : Nat) (cm : Sys.ClientCmd), i < s.nClients ∧ p = UInt64.ofNat i ∧ (b, cm) ∈ Sys.passedOn s.sent i ∧ Late cm.out := by
  have hs : (b, c) ∈ s.sent := by
    rw [← Sys.mem_sentTo, ← (Sys.conn h).accepted b, ((Sys.conn h).ok b).fifo]
    exact List.mem_append_left _ hc
  have hok := (Sys.cmd h).sentOk b c hs
  cases ho : c.origin with
  | none => rw [ho] at hok; rw [hok.1] at hm; cases hm
  | some x =>
    obtain ⟨i, cm⟩ := x
    rw [ho] at hok
    obtain ⟨h1, h2, h3⟩ := hok
    have hout : cm.out = c.out := by
      cases hcm : cm.out with
      | connect c0 => rw [hcm] at h3; obtain ⟨_, _, _, h4⟩ := h3; rw [h4] at hm; cases hm
      | _ => rw [hcm] at h3; exact h3.symm
    obtain ⟨core, call, k1, k2, k3⟩ := Sys.made_handled h h1 h2
    refine ⟨i, cm, h1, ?_, ?_, ?_⟩
    · rw [← hout, k2] at hm
      clear k2 k3 hout h3
      cases call <;> simp [Client.issue, namedBy, Send.producerId, k1] at hm <;> exact hm.symm
    · unfold Sys.passedOn
      rw [List.mem_filterMap]
      exact ⟨(b, c), hs, by simp [ho]⟩
    · rw [hout]
      cases hx : c.out <;> rw [hx] at hm <;> first | exact trivial | cases hm

/-- **C135.**  Everything that names a producer or consumer goes over one connection: if the application only makes the calls
producers and consumers offer, any two whole commands that name producer or consumer `p` (its registration, sends, acknowledgements,
permits) were sent on the same socket, however often `p`'s `connect` moved before it registered, and whatever else is going on. -/
theorem C135_one_connection {cfg : World.Cfg T} {acts : List App.Act} {log : List World.Act} {a : App.State T}
    (h : App.Run cfg acts log a) (ho : App.Offers a) (hv : Fits a.world) (hn : a.world.sys.nClients ≤ 2 ^ 64)
    {b b' : BrokerAddress} {v v' : MessageCommand} {p : UInt64} (hf : Received (a.world.tx b).sent v) (hf' : Received (a.world.tx b').sent v')
    (hp : NamesClient v p) (hp' : NamesClient v' p) : b = b' := by
  have hr := App.reachable h
  have hw := App.run_world h
  have find : ∀ {b : BrokerAddress} {v : MessageCommand}, Received (a.world.tx b).sent v → NamesClient v p →
      ∃ (i : Nat) (cm : Sys.ClientCmd), i < a.world.sys.nClients ∧ p = UInt64.ofNat i ∧ (b, cm) ∈ Sys.passedOn a.world.sys.sent i ∧ Late cm.out := by
    rintro b v ⟨fs, hb, hm⟩ hp
    obtain ⟨l, l1, l2, l3⟩ := received_of hw hv b hb
    rw [← l2] at hm
    obtain ⟨⟨c, v2⟩, hc, rfl⟩ := List.mem_map.mp hm
    obtain ⟨now, hnow⟩ := l3 _ hc
    exact named_taken hr (l1.subset (List.mem_map_of_mem hc)) (named_of_command hnow hp)
  obtain ⟨i, cm, h1, h2, h3, h4⟩ := find hf hp
  obtain ⟨i', cm', h1', h2', h3', h4'⟩ := find hf' hp'
  have hii : i = i' := by
    have := congrArg UInt64.toNat (h2.symm.trans h2')
    rw [UInt64.toNat_ofNat', UInt64.toNat_ofNat', Nat.mod_eq_of_lt (by omega), Nat.mod_eq_of_lt (by omega)] at this
    exact this
  subst hii
  exact Sys.route_one (App.settles h ho i h1) _ (passedOn_route hr hn h1 h3) _ (passedOn_route hr hn h1 h3') h4 h4'

end Neutron.Props
