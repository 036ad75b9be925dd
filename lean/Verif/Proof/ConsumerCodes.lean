import Verif.Proof.ConsumerStream

/-!
# The receiving calls satisfy the logic of `ConsumerStream`
-/

namespace Neutron.Consumer

open Neutron
open scoped List

variable {T : Type}

theorem mapM_cons' {α β : Type} (f : α → Option β) (a : α) (l : List α) :
    (a :: l).mapM f = (f a).bind fun b => (l.mapM f).bind fun bs => some (b :: bs) := by
  rw [List.mapM_cons]; rfl

theorem mapM_some {α β : Type} (f : α → Option β) (l : List α) (bs : List β) (h : l.mapM f = some bs) :
    (∀ a ∈ l, (f a).isSome) ∧ bs.length = l.length ∧ ∀ (n : Nat) (g : β → Nat → Received T),
      (l.zipIdx n).filterMap (fun x => (f x.1).map fun t => g t x.2) = bs.mapIdx fun i t => g t (n + i) := by
  induction l generalizing bs with
  | nil =>
    cases h
    simp
  | cons a l ih =>
    rw [mapM_cons'] at h
    cases ha : f a with
    | none => simp [ha] at h
    | some b =>
      cases hl : l.mapM f with
      | none => simp [ha, hl] at h
      | some bs' =>
        simp only [ha, hl, Option.bind_some, Option.some.injEq] at h
        subst h
        obtain ⟨h1, h2, h3⟩ := ih bs' hl
        refine ⟨by simpa [ha] using h1, by simp [h2], ?_⟩
        intro n g
        rw [List.zipIdx_cons, List.filterMap_cons]
        simp only [ha, Option.map_some]
        rw [h3 (n + 1) g, List.mapIdx_cons]
        simp [Nat.add_assoc, Nat.add_comm 1]

theorem mapM_none {α β : Type} (f : α → Option β) (l : List α) (h : l.mapM f = none) : ∃ a ∈ l, f a = none := by
  induction l with
  | nil => cases h
  | cons a l ih =>
    rw [mapM_cons'] at h
    cases ha : f a with
    | none => exact ⟨a, by simp, ha⟩
    | some b =>
      cases hl : l.mapM f with
      | none =>
        obtain ⟨x, hx, h⟩ := ih hl
        exact ⟨x, by simp [hx], h⟩
      | some bs' => simp [ha, hl] at h

/-- What one event holds, as the code unpacks it and as the application should see it. -/
theorem unpack_yields (decode : Bytes → Option T) (m : Message) :
    (∃ r rs, unpack decode m = .ok (r :: rs) ∧ yields decode m = (r :: rs).map .ok ∧ decodable decode m ∧ filled m ∧
      (r :: rs).length = weight m) ∨
    (unpack decode m = .ok [] ∧ yields decode m = [.panic] ∧ ¬ filled m) ∨
    (unpack decode m = .err .deserializationFailed ∧ yields decode m = [.err .deserializationFailed] ∧ ¬ decodable decode m ∧
      isSingle m = true) ∨
    (unpack decode m = .panic ∧ yields decode m = [.panic] ∧ ¬ decodable decode m ∧ isSingle m = false) := by
  cases m with
  | single c id p =>
    cases h : decode p with
    | some t => exact .inl ⟨⟨t, id⟩, [], by simp [unpack, yields, h, decodable, filled, weight]⟩
    | none => exact .inr (.inr (.inl (by simp [unpack, yields, h, decodable, isSingle])))
  | batch c id ps =>
    cases h : ps.mapM fun p => decode p.payload with
    | none =>
      obtain ⟨p, hp, hn⟩ := mapM_none _ _ h
      refine .inr (.inr (.inr ⟨by simp [unpack, h], ?_, ?_, rfl⟩))
      · rw [yields, if_neg]
        rintro ⟨_, h2⟩
        have := h2 p hp
        rw [hn] at this
        cases this
      · intro h2
        have := h2 p hp
        rw [hn] at this
        cases this
    | some ts =>
      obtain ⟨h1, h2, h3⟩ := mapM_some (T := T) _ _ _ h
      cases ts with
      | nil =>
        have : ps = [] := by simpa using h2.symm
        refine .inr (.inl ⟨by simp [unpack, h], ?_, ?_⟩)
        · rw [yields, if_neg (by simp [this])]
        · simp [filled, this]
      | cons t ts =>
        have hps : ps ≠ [] := by rintro rfl; simp at h2
        refine .inl ⟨⟨t, withBatchIndex 0 id⟩, ts.mapIdx fun i t => ⟨t, withBatchIndex (i + 1) id⟩, ?_, ?_, h1, hps, ?_⟩
        · simp [unpack, h, List.mapIdx_cons]
        · rw [yields, if_pos ⟨hps, h1⟩]
          have := h3 0 (fun t i => ⟨t, withBatchIndex i id⟩)
          simp only [Nat.zero_add] at this
          rw [this]
          simp [List.mapIdx_cons]
        · simpa [weight] using h2

theorem pops_nil {α : Type} (n : Nat) : pops n ([] : List α) = ([], []) := by cases n <;> rfl

theorem pops_single {α : Type} (n : Nat) (x : α) : pops (n + 1) [x] = ([], [x]) := by simp [pops, pops_nil]

theorem pops_perm {α : Type} (n : Nat) (v : List α) : (pops n v).2 ++ (pops n v).1 ~ v := by
  induction n generalizing v with
  | zero => simp [pops]
  | succ n ih =>
    unfold pops
    cases h : v.getLast? with
    | none => simp
    | some x =>
      have hv : v = v.dropLast ++ [x] := by
        rw [List.getLast?_eq_some_iff] at h
        obtain ⟨ys, rfl⟩ := h
        simp
      simp only
      conv_rhs => rw [hv]
      rw [List.cons_append]
      exact ((ih v.dropLast).cons x).trans (List.perm_append_comm (l₁ := [x]))

theorem pops_length {α : Type} (n : Nat) (v : List α) : (pops n v).2.length = min n v.length := by
  induction n generalizing v with
  | zero => simp [pops]
  | succ n ih =>
    unfold pops
    cases h : v.getLast? with
    | none =>
      have : v = [] := by simpa using h
      simp [this]
    | some x =>
      have : v ≠ [] := by rintro rfl; cases h
      have hl : 0 < v.length := List.length_pos_iff.mpr this
      simp only [List.length_cons, ih, List.length_dropLast]
      omega

theorem pops_rest {α : Type} (n : Nat) (v : List α) (h : (pops n v).2.length ≠ n) : (pops n v).1 = [] := by
  have h1 := pops_length n v
  have h2 := (pops_perm n v).length_eq
  rw [List.length_append] at h2
  apply List.length_eq_zero_iff.mp
  omega

section
variable {R : List (Outcome (Received T)) → List (Outcome (Received T)) → Prop} {B : List (Received T) → Prop}
  {M : Message → Prop} {y : Message → List (Outcome (Received T))}

theorem pre_checkAndFlow (cfg : Cfg T) (k : Code T) (h : Pre R B M y k) : Pre R B M y (checkAndFlow cfg k) := by
  intro n
  dsimp only
  split
  · exact ⟨h, rfl⟩
  · exact h

/-- `next_message` never loses, repeats or reorders anything. -/
theorem pre_nextMessage (cfg : Cfg T) : Pre Eq (fun _ => True) M (yields cfg.decode) (nextMessage cfg) := by
  apply pre_checkAndFlow
  intro b _
  cases b with
  | cons m rest => simp [Held, handed]
  | nil =>
    refine ⟨⟨rfl, rfl⟩, fun m _ => ?_, by simp [Held, handed]⟩
    rcases unpack_yields cfg.decode m with ⟨r, rs, h1, h2, _⟩ | ⟨h1, h2, _⟩ | ⟨h1, h2, _⟩ | ⟨h1, h2, _⟩ <;>
      simp [h1, h2, Held, handed]

/-- On single messages no call does, and none leaves anything in the buffer. -/
theorem pre_single (cfg : Cfg T) (j : Job) : Pre Eq (fun b => b = []) (fun m => isSingle m = true) (yields cfg.decode) (j.code cfg) := by
  have hm : Pre Eq (fun b => b = []) (fun m => isSingle m = true) (yields cfg.decode) (nextMessage cfg) := by
    apply pre_checkAndFlow
    rintro b rfl
    refine ⟨⟨rfl, rfl⟩, fun m hm => ?_, by simp [Held, handed]⟩
    rcases unpack_yields cfg.decode m with ⟨r, rs, h1, h2, _, _, h6⟩ | ⟨h1, h2, h3⟩ | ⟨h1, h2, _⟩ | ⟨h1, h2, _, h4⟩
    · have : rs = [] := by
        cases m with
        | single => simpa [weight] using h6
        | batch => cases hm
      subst this
      simp [h1, h2, Held, handed]
    · cases m with
      | single => exact (h3 trivial).elim
      | batch => cases hm
    · simp [h1, h2, Held, handed]
    · rw [hm] at h4; cases h4
  cases j with
  | message => exact hm
  | consume => exact hm
  | batch n =>
    apply pre_checkAndFlow
    rintro b rfl
    dsimp only
    rw [pops_nil]
    refine ⟨rfl, ?_⟩
    cases n with
    | zero => simp [Held, handed]
    | succ n =>
      refine ⟨⟨rfl, rfl⟩, fun m hm => ?_, by simp [Held, handed]⟩
      rcases unpack_yields cfg.decode m with ⟨r, rs, h1, h2, _, _, h6⟩ | ⟨h1, h2, h3⟩ | ⟨h1, h2, _⟩ | ⟨h1, h2, _, h4⟩
      · have : rs = [] := by
          cases m with
          | single => simpa [weight] using h6
          | batch => cases hm
        subst this
        simp [h1, h2, Held, handed, pops_single]
      · cases m with
        | single => exact (h3 trivial).elim
        | batch => cases hm
      · simp [h1, h2, Held, handed]
      · rw [hm] at h4; cases h4

/-- No call ever repeats a message or makes one up. -/
theorem pre_subperm (cfg : Cfg T) (j : Job) : Pre List.Subperm (fun _ => True) (fun _ => True) (yields cfg.decode) (j.code cfg) := by
  have hm : Pre List.Subperm (fun _ => True) (fun _ => True) (yields cfg.decode) (nextMessage cfg) := by
    apply pre_checkAndFlow
    intro b _
    cases b with
    | cons m rest => simp only [List.map_cons, Held, handed, List.map_nil, List.cons_append, List.nil_append, true_and]; exact List.Subperm.refl _
    | nil =>
      refine ⟨⟨rfl, List.nil_subperm⟩, fun m _ => ?_, by simp [Held, handed]⟩
      rcases unpack_yields cfg.decode m with ⟨r, rs, h1, h2, _⟩ | ⟨h1, h2, _⟩ | ⟨h1, h2, _⟩ | ⟨h1, h2, _⟩ <;>
        (simp [h1, h2, Held, handed]; try exact List.Subperm.refl _)
  cases j with
  | message => exact hm
  | consume => exact hm
  | batch n =>
    apply pre_checkAndFlow
    intro b _
    refine ⟨trivial, ?_⟩
    have hp : (pops n b).2.map Outcome.ok ++ (pops n b).1.map .ok ~ b.map .ok := by
      rw [← List.map_append]; exact (pops_perm n b).map _
    split
    · exact hp.subperm
    · rename_i hne
      refine ⟨?_, fun m _ => ?_, ?_⟩
      · exact ⟨pops_rest n b hne, List.nil_subperm⟩
      · rcases unpack_yields cfg.decode m with ⟨r, rs, h1, h2, _⟩ | ⟨h1, h2, _⟩ | ⟨h1, h2, _⟩ | ⟨h1, h2, _⟩
        · simp only [h1, h2, Held, handed]
          rw [pops_rest n b hne] at hp ⊢
          simp only [List.map_nil, List.append_nil, List.map_append] at hp ⊢
          have hq := (pops_perm (n - (pops n b).2.length) (r :: rs)).map (Outcome.ok (α := Received T))
          rw [List.map_append] at hq
          exact hp.subperm.append
            ((List.sublist_append_left _ _).subperm.trans hq.subperm)
        · simp only [h1, h2, Held, handed, pops_nil, List.append_nil]
          exact hp.subperm.trans (List.sublist_append_left _ _).subperm
        · simp only [h1, h2, Held, handed]
          exact List.perm_append_comm.subperm.trans ((List.subperm_append_right _).mpr
            ((List.sublist_append_right _ _).subperm.trans hp.subperm))
        · simp only [h1, h2, Held, handed]
          exact List.perm_append_comm.subperm.trans ((List.subperm_append_right _).mpr
            ((List.sublist_append_right _ _).subperm.trans hp.subperm))
      · simp only [Held, handed, List.nil_append]
        exact (List.sublist_append_right _ _).subperm.trans hp.subperm
end

end Neutron.Consumer
