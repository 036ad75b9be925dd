import Verif.Spec.Proto

/-! # Required fields -/

namespace Neutron.Proto

theorem initVals_iff {S : Schema} {d : FieldDesc} : ∀ {vs : List Val}, initVals S d vs = true ↔ ∀ v ∈ vs, initVal S d v = true
  | [] => by simp [initVals]
  | v :: vs => by simp [initVals, initVals_iff (vs := vs)]

theorem initMsg_iff {S : Schema} : ∀ {ds : List FieldDesc} {m : Msg}, initMsg S ds m = true ↔
    ∀ (i : Nat) (d : FieldDesc), ds[i]? = some d → (d.label = .required → (m[i]?).getD [] ≠ []) ∧ initVals S d ((m[i]?).getD []) = true
  | [], m => by cases m <;> simp [initMsg]
  | d :: ds, [] => by
    simp only [initMsg, Bool.and_eq_true, bne_iff_ne, initMsg_iff (ds := ds) (m := [])]
    constructor
    · rintro ⟨h1, h2⟩ i e hi
      cases i with
      | zero => cases hi; exact ⟨fun h => absurd h h1, by simp [initVals]⟩
      | succ i => exact h2 i e (by simpa using hi)
    · intro h
      refine ⟨fun hl => (h 0 d rfl).1 hl rfl, fun i e hi => h (i + 1) e (by simpa using hi)⟩
  | d :: ds, vs :: m => by
    simp only [initMsg, Bool.and_eq_true, Bool.or_eq_true, bne_iff_ne, Bool.not_eq_true', List.isEmpty_eq_false_iff, initMsg_iff (ds := ds) (m := m)]
    constructor
    · rintro ⟨⟨h1, h2⟩, h3⟩ i e hi
      cases i with
      | zero => cases hi; exact ⟨fun h => h1.resolve_left (fun hn => hn h), h2⟩
      | succ i => exact h3 i e (by simpa using hi)
    · intro h
      refine ⟨⟨?_, (h 0 d rfl).2⟩, fun i e hi => h (i + 1) e (by simpa using hi)⟩
      by_cases hl : d.label = .required
      · exact Or.inr ((h 0 d rfl).1 hl)
      · exact Or.inl hl

/-- `is_initialized` says what it should. -/
theorem hasRequired_iff (S : Schema) (t : MsgTy) (m : Msg) : initMsg S (S t) m = true ↔ HasRequired S t m := by
  constructor
  · intro h
    have key : ∀ (n : Nat) (t : MsgTy) (m : Msg), sizeOf m < n → initMsg S (S t) m = true → HasRequired S t m := by
      intro n
      induction n with
      | zero => intro t m hn; omega
      | succ n ih =>
        intro t m hn h
        rw [initMsg_iff] at h
        refine .mk (fun i d hd hl => (h i d hd).1 hl) (fun i d t' m' hd hk hm => ?_)
        have h2 := initVals_iff.mp (h i d hd).2 _ hm
        rw [initVal] at h2
        simp only [hk] at h2
        refine ih t' m' ?_ h2
        cases hi : m[i]? with
        | none => rw [hi] at hm; cases hm
        | some vs =>
          rw [hi] at hm
          have e1 := List.sizeOf_lt_of_mem (List.mem_of_getElem? hi)
          have e2 : sizeOf (Val.msg m') < sizeOf vs := List.sizeOf_lt_of_mem hm
          have e3 : sizeOf (Val.msg m') = 1 + sizeOf m' := by simp
          omega
    exact key _ t m (Nat.lt_succ_self _) h
  · intro h
    induction h with
    | mk required nested ih =>
      rw [initMsg_iff]
      intro i d hd
      refine ⟨required i d hd, initVals_iff.mpr fun v hv => ?_⟩
      cases v with
      | msg m' =>
        rw [initVal]
        split
        · rename_i t' hk
          exact ih i d t' m' hd hk hv
        · rfl
      | _ => rw [initVal]; simp

end Neutron.Proto
