import Verif.Model.Message
import Verif.Proof.Codec
import Verif.Proof.ProtoTyped

/-! # Messages built with setters: well-typedness, required fields, getters -/

namespace Neutron

open Proto

theorem wtFields_map (sub : MsgTy → Msg → Bool) (ds : List FieldDesc) (g : FieldDesc → List Val) :
    wtFields sub ds (ds.map g) = ds.all (fun d => wtField sub d (g d)) := by
  induction ds with
  | nil => rfl
  | cons d ds ih => simp [wtFields, ih]

theorem initMsg_map (S : Schema) (ds : List FieldDesc) (g : FieldDesc → List Val) :
    initMsg S ds (ds.map g) = ds.all (fun d => (d.label != .required || !(g d).isEmpty) && initVals S d (g d)) := by
  induction ds with
  | nil => simp [initMsg]
  | cons d ds ih => simp [initMsg, ih]

theorem lookup_mem {fs : List (Nat × List Val)} {n : Nat} {vs : List Val} (h : fs.lookup n = some vs) : (n, vs) ∈ fs := by
  induction fs with
  | nil => simp at h
  | cons p fs ih =>
    obtain ⟨a, b⟩ := p
    rw [List.lookup_cons] at h
    split at h
    · rename_i he; simp at he h; subst he; subst h; simp
    · exact List.mem_cons_of_mem _ (ih h)

theorem find_unique {ds : List FieldDesc} (hd : goodFields ds = true) {d d0 : FieldDesc} (h : d ∈ ds)
    (h0 : ds.find? (fun e => e.num == d.num) = some d0) : d = d0 := by
  have hn : (ds.map (·.num)).Nodup := by
    simp only [goodFields, Bool.and_eq_true, decide_eq_true_eq] at hd
    exact hd.2
  have hm := List.mem_of_find?_eq_some h0
  have hp := List.find?_some h0
  have he : d0.num = d.num := by simpa using hp
  have := List.pairwise_map.mp hn
  clear h0 hp hd
  induction ds with
  | nil => simp at h
  | cons e ds ih =>
    rw [List.pairwise_cons] at this
    rcases List.mem_cons.mp h with h' | h' <;> rcases List.mem_cons.mp hm with hm' | hm'
    · rw [h', hm']
    · subst h'; exact absurd he.symm (this.1 d0 hm')
    · subst hm'; exact absurd he (this.1 d h')
    · exact ih h' (by simp at hn; exact hn.2) hm' this.2

/-- A property of every field of a built message follows from the fields that were set and the ones left unset. -/
theorem all_set (t : MsgTy) (fs : List (Nat × List Val)) (P : FieldDesc → List Val → Bool)
    (h0 : ∀ d ∈ pulsar t, fs.lookup d.num = none → P d [] = true)
    (h1 : ∀ p ∈ fs, ∃ d0, (pulsar t).find? (fun e => e.num == p.1) = some d0 ∧ P d0 p.2 = true) :
    (pulsar t).all (fun d => P d ((fs.lookup d.num).getD [])) = true := by
  rw [List.all_eq_true]
  intro d hd
  cases hl : fs.lookup d.num with
  | none => simpa using h0 d hd hl
  | some vs =>
    obtain ⟨d0, hf, hp⟩ := h1 _ (lookup_mem hl)
    have := find_unique (pulsar_good t) hd hf
    subst this
    simpa using hp

theorem mk_wellTyped (k : Nat) (t : MsgTy) (fs : List (Nat × List Val))
    (h1 : ∀ p ∈ fs, ∃ d0, (pulsar t).find? (fun e => e.num == p.1) = some d0 ∧ wtField (wellTyped pulsar k) d0 p.2 = true) :
    wellTyped pulsar (k + 1) t (mkMsg t fs) = true := by
  unfold mkMsg
  simp only [wellTyped]
  rw [wtFields_map]
  exact all_set t fs _ (fun d _ _ => by simp [wtField]) h1

theorem mk_init (t : MsgTy) (fs : List (Nat × List Val))
    (h0 : (pulsar t).all (fun d => d.label != .required || fs.any (fun p => p.1 == d.num)) = true)
    (h1 : ∀ p ∈ fs, ∃ d0, (pulsar t).find? (fun e => e.num == p.1) = some d0 ∧ p.2 ≠ [] ∧ initVals pulsar d0 p.2 = true) :
    initMsg pulsar (pulsar t) (mkMsg t fs) = true := by
  unfold mkMsg
  rw [initMsg_map]
  refine all_set t fs (fun d vs => (d.label != .required || !vs.isEmpty) && initVals pulsar d vs) ?_ ?_
  · intro d hd hl
    rw [List.all_eq_true] at h0
    have h := h0 d hd
    have hn : fs.any (fun p => p.1 == d.num) = false := by
      rw [List.any_eq_false]
      intro p hp hc
      have := List.lookup_eq_none_iff.mp hl p hp
      simp at this hc
      omega
    rw [hn, Bool.or_false] at h
    simp [h, initVals]
  · intro p hp
    obtain ⟨d0, h2, h3, h4⟩ := h1 p hp
    refine ⟨d0, h2, ?_⟩
    simp [h4, h3]

theorem lookupF_map (ds : List FieldDesc) (fs : List (Nat × List Val)) (n : Nat) :
    lookupF ds (ds.map fun d => (fs.lookup d.num).getD []) n =
      if ds.any (fun d => d.num == n) then (fs.lookup n).getD [] else [] := by
  induction ds with
  | nil => simp [lookupF]
  | cons d ds ih =>
    simp only [List.map_cons, lookupF, List.any_cons]
    by_cases h : d.num = n
    · simp [h]
    · rw [if_neg h, ih]; simp [h]

/-- Getter after setters. -/
theorem getF_mk (t : MsgTy) (fs : List (Nat × List Val)) (n : Nat)
    (h : (pulsar t).any (fun d => d.num == n) = true) : getF t (mkMsg t fs) n = (fs.lookup n).getD [] := by
  unfold getF mkMsg
  rw [lookupF_map, if_pos h]

theorem wt_u64 (sub : MsgTy → Msg → Bool) (n : Nat) (l : Label) (x : UInt64) : wtField sub ⟨n, l, .u64⟩ (vU64 x) = true := by
  have := x.toNat_lt
  simp [wtField, vU64, wtVal]; omega

theorem wt_str (sub : MsgTy → Msg → Bool) (n : Nat) (l : Label) (x : String) : wtField sub ⟨n, l, .str⟩ (vStr x) = true := by
  simp [wtField, vStr, wtVal]

theorem wt_bytes (sub : MsgTy → Msg → Bool) (n : Nat) (l : Label) (x : Bytes) : wtField sub ⟨n, l, .byt⟩ (vBytes x) = true := by
  simp [wtField, vBytes, wtVal]

theorem wt_i32 (sub : MsgTy → Msg → Bool) (n : Nat) (l : Label) (x : Int) (h : -2147483648 ≤ x ∧ x < 2147483648) :
    wtField sub ⟨n, l, .i32⟩ [.int x] = true := by
  simp [wtField, wtVal, h]

theorem wt_enum (sub : MsgTy → Msg → Bool) (n : Nat) (l : Label) (x : Int) (h : -2147483648 ≤ x ∧ x < 2147483648) :
    wtField sub ⟨n, l, .enum⟩ [.int x] = true := by
  simp [wtField, wtVal, h]

theorem wt_u32 (sub : MsgTy → Msg → Bool) (n : Nat) (l : Label) (x : UInt32) :
    wtField sub ⟨n, l, .u32⟩ [.int x.toNat] = true := by
  have := x.toNat_lt
  simp [wtField, wtVal]; omega

theorem wt_msg (sub : MsgTy → Msg → Bool) (n : Nat) (l : Label) (t : MsgTy) (m : Msg) (h : sub t m = true) :
    wtField sub ⟨n, l, .msg t⟩ (vMsg m) = true := by
  simp [wtField, vMsg, wtVal, h]

theorem asI32_range (n : Nat) : -2147483648 ≤ asI32 n ∧ asI32 n < 2147483648 := by
  unfold asI32 signed32; dsimp only; split <;> omega

theorem asI32_small {n : Nat} (h : n < 2147483648) : asI32 n = n := by
  unfold asI32 signed32; dsimp only; split <;> omega

theorem init_int (S : Schema) (d : FieldDesc) (x : Int) : initVals S d [.int x] = true := by simp [initVals, initVal]
theorem init_u64 (S : Schema) (d : FieldDesc) (x : UInt64) : initVals S d (vU64 x) = true := by simp [vU64, initVals, initVal]
theorem init_str (S : Schema) (d : FieldDesc) (x : String) : initVals S d (vStr x) = true := by simp [vStr, initVals, initVal]
theorem init_bytes (S : Schema) (d : FieldDesc) (x : Bytes) : initVals S d (vBytes x) = true := by
  simp [vBytes, initVals, initVal]
theorem init_msg (S : Schema) (n : Nat) (l : Label) (t : MsgTy) (m : Msg) (h : initMsg S (S t) m = true) :
    initVals S ⟨n, l, .msg t⟩ (vMsg m) = true := by simp [vMsg, initVals, initVal, h]

/-- A command with one well-typed, initialised sub-command. -/
theorem base_ok (k : Nat) (ty : Int) (field : Nat) (sub : Msg) (t : MsgTy) (hty : -2147483648 ≤ ty ∧ ty < 2147483648)
    (hf : (pulsar .baseCommand).find? (fun e => e.num == field) = some ⟨field, .optional, .msg t⟩)
    (hwt : wellTyped pulsar k t sub = true) (hin : initMsg pulsar (pulsar t) sub = true) :
    wellTyped pulsar (k + 1) .baseCommand (baseCommand ty field sub) = true ∧
    initMsg pulsar (pulsar .baseCommand) (baseCommand ty field sub) = true := by
  constructor
  · refine mk_wellTyped k _ _ ?_
    intro p hp
    simp only [List.mem_cons, List.not_mem_nil, or_false] at hp
    rcases hp with rfl | rfl
    · exact ⟨_, rfl, wt_enum _ _ _ _ hty⟩
    · exact ⟨_, hf, wt_msg _ _ _ _ _ hwt⟩
  · refine mk_init _ _ ?_ ?_
    · generalize field = f; simp [pulsar]
    · intro p hp
      simp only [List.mem_cons, List.not_mem_nil, or_false] at hp
      rcases hp with rfl | rfl
      · exact ⟨_, rfl, by simp, init_int _ _ _⟩
      · exact ⟨_, hf, by simp [vMsg], init_msg _ _ _ _ _ hin⟩

theorem base_type (ty : Int) (field : Nat) (sub : Msg) : commandType (baseCommand ty field sub) = ty := by
  unfold commandType baseCommand
  rw [getF_mk _ _ _ (by decide)]
  rfl

theorem base_sub (ty : Int) (field : Nat) (sub : Msg) (h1 : field ≠ 1)
    (h : (pulsar .baseCommand).any (fun d => d.num == field) = true) :
    getMsg .baseCommand (baseCommand ty field sub) field = some sub := by
  unfold getMsg baseCommand
  rw [getF_mk _ _ _ h]
  have : (field == 1) = false := by simpa using h1
  simp [List.lookup, this, vMsg, msgOf]

end Neutron
