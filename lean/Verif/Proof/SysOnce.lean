import Verif.Proof.SysHonest
import Verif.Proof.SysMade

/-!
# Every request is passed on at most once
-/

namespace Neutron.Sys

open Neutron

/-- Of two commands, not both belong to the same request. -/
def OtherTok (x y : ClientCmd) : Prop := ∀ t, x.tok = some t → y.tok ≠ some t

theorem once_client {cfg : Cfg} {s : State} (h : Reachable cfg s) : ∀ i, i < s.nClients →
    ((s.clients i).submitted ++ (s.clients i).starting).Pairwise OtherTok ∧
    ∀ cmd ∈ (s.clients i).submitted ++ (s.clients i).starting, ∀ t : Nat, cmd.tok = some t → t < s.issued.length := by
  refine h.induct (P := fun s => ∀ i, i < s.nClients → ((s.clients i).submitted ++ (s.clients i).starting).Pairwise OtherTok ∧
    ∀ cmd ∈ (s.clients i).submitted ++ (s.clients i).starting, ∀ t : Nat, cmd.tok = some t → t < s.issued.length)
    (fun i hi => absurd hi (Nat.not_lt_zero i)) ?_
  intro s a s' hr ih hs i hi
  have hmono : s.issued.length ≤ s'.issued.length := (issued_step hs).length_le
  rcases client_step hs hi with ⟨hi', hc⟩ | ⟨rfl, _, name, _, hc⟩
  · obtain ⟨h1, h2⟩ := ih i hi'
    cases hc with
    | same hc hst hsb hiss =>
      rw [hst, hsb]
      exact ⟨h1, fun cmd hm t ht => Nat.lt_of_lt_of_le (h2 cmd hm t ht) hmono⟩
    | began call ha hc hst hsb hiss =>
      rw [hst, hsb, ← List.append_assoc]
      refine ⟨?_, ?_⟩
      · rw [List.pairwise_append]
        refine ⟨h1, List.pairwise_singleton _ _, ?_⟩
        intro x hx y hy t ht hyt
        rw [List.mem_singleton] at hy
        subst hy
        have := h2 x hx t ht
        simp only at hyt
        split at hyt
        · cases hyt; exact Nat.lt_irrefl _ this
        · cases hyt
      · intro cmd hm t ht
        rcases List.mem_append.mp hm with hm | hm
        · exact Nat.lt_of_lt_of_le (h2 cmd hm t ht) hmono
        · rw [List.mem_singleton] at hm
          subst hm
          simp only at ht
          split at ht
          · rename_i hex
            cases ht
            rw [hiss, if_pos hex]; simp
          · cases ht
    | submitted k cmd ha hk hc hst hsb hiss =>
      rw [hst, hsb]
      have hperm : ((s.clients i).submitted ++ [cmd] ++ (s.clients i).starting.eraseIdx k).Perm
          ((s.clients i).submitted ++ (s.clients i).starting) := by
        rw [List.append_assoc]
        refine List.Perm.append_left _ ?_
        obtain ⟨hlt, hget⟩ := List.getElem?_eq_some_iff.mp hk
        have hd : (s.clients i).starting = (s.clients i).starting.take k ++ cmd :: (s.clients i).starting.drop (k + 1) := by
          rw [← hget, ← List.drop_eq_getElem_cons hlt, List.take_append_drop]
        rw [List.eraseIdx_eq_take_drop_succ]
        conv => rhs; rw [hd]
        rw [List.singleton_append]; exact List.perm_middle.symm
      refine ⟨?_, fun c hm t ht => Nat.lt_of_lt_of_le (h2 c (hperm.mem_iff.mp hm) t ht) hmono⟩
      refine (List.Perm.pairwise_iff ?_ hperm).mpr h1
      intro x y hxy t ht hy
      exact hxy t hy ht
    | refused k cmd ha hk hc hst hsb hiss =>
      rw [hst, hsb]
      have hsub : ((s.clients i).submitted ++ (s.clients i).starting.eraseIdx k).Sublist
          ((s.clients i).submitted ++ (s.clients i).starting) := List.Sublist.append (List.Sublist.refl _) (List.eraseIdx_sublist ..)
      exact ⟨h1.sublist hsub, fun c hm t ht => Nat.lt_of_lt_of_le (h2 c (hsub.subset hm) t ht) hmono⟩
  · rw [hc]; simp

/-- The request a command on its way belongs to. -/
def tokOf (c : ConnCmd) : Option Tok := c.origin.bind (·.2.tok)

/-- Over all connections, no request is passed on twice. -/
theorem once {cfg : Cfg} {s : State} (h : Reachable cfg s) (hn : s.nClients ≤ 2 ^ 64) :
    s.sent.Pairwise fun p q => ∀ t, tokOf p.2 = some t → tokOf q.2 ≠ some t := by
  have hcl : ∀ i, i < s.nClients → (passedOn s.sent i).Pairwise fun p q => OtherTok p.2 q.2 := by
    intro i hi
    have h1 := (once_client h i hi).1
    have h2 : ((passedOn s.sent i).map (·.2)).Sublist ((s.clients i).submitted ++ (s.clients i).starting) := by
      refine List.Sublist.trans ?_ (List.sublist_append_left _ _)
      refine (((cmd h).routed hn i hi).map _).sublist.trans ?_
      rw [routeAll_map_snd]
      exact ((List.prefix_append ..).trans ((cmd h).submitted i hi)).sublist
    exact List.pairwise_map.mp (h1.sublist h2)
  rw [List.pairwise_iff_getElem]
  intro n n' hln hln' hlt t ht ht'
  have get : ∀ p ∈ s.sent, tokOf p.2 = some t → ∃ i cm, p.2.origin = some (i, cm) ∧ cm.tok = some t ∧ i < s.nClients ∧
      ∃ out, s.issued[(t : Nat)]? = some (i, out) := by
    intro p hp hpt
    unfold tokOf at hpt
    cases ho : p.2.origin with
    | none => rw [ho] at hpt; simp at hpt
    | some x =>
      obtain ⟨i, cm⟩ := x
      rw [ho] at hpt
      have := (cmd h).sentOk p.1 p.2 hp
      rw [ho] at this
      exact ⟨i, cm, rfl, hpt, this.1, cm.out, (taken h i this.1 cm this.2.1 t hpt).1⟩
  obtain ⟨i, cm, h1, h2, h3, o, h4⟩ := get _ (List.getElem_mem hln) ht
  obtain ⟨i', cm', h1', h2', h3', o', h4'⟩ := get _ (List.getElem_mem hln') ht'
  rw [h4] at h4'
  simp only [Option.some.injEq, Prod.mk.injEq] at h4'
  obtain ⟨rfl, rfl⟩ := h4'
  have hp := hcl i h3
  unfold passedOn at hp
  rw [List.pairwise_filterMap, List.pairwise_iff_getElem] at hp
  have := hp n n' hln hln' hlt (s.sent[n].1, cm) (by simp [h1]) (s.sent[n'].1, cm') (by simp [h1'])
  exact this t h2 h2'

end Neutron.Sys
