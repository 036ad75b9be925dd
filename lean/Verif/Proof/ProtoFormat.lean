import Verif.Spec.ProtoFormat
import Verif.Proof.ProtoWire
import Verif.Proof.Required
import Mathlib.Data.List.Forall2
import Mathlib.Tactic.NormNum

/-!
# The parser of `Model/ProtoWire.lean` reads exactly the encodings of `Spec/ProtoFormat.lean`
-/

namespace Neutron.Proto.Format

open Neutron

/-! ## Varints -/

theorem digits_pos {bs : Bytes} {n : Nat} (h : Digits bs n) : 1 ≤ bs.length := by cases h <;> simp

theorem readVarintF_of {bs : Bytes} {n : Nat} (h : Digits bs n) : ∀ k rest, bs.length ≤ k → readVarintF k (bs ++ rest) = some (n, rest) := by
  induction h with
  | last b h =>
    intro k rest hk
    cases k with
    | zero => simp at hk
    | succ k => simp [readVarintF, h]
  | more b bs v h hv ih =>
    intro k rest hk
    cases k with
    | zero => simp at hk
    | succ k =>
      have : ¬ b.toNat < 128 := by omega
      have hb : b.toNat < 256 := b.toNat_lt
      simp only [List.cons_append, readVarintF, this, if_false]
      rw [ih k rest (by simpa using hk)]
      simp only [Option.some.injEq, Prod.mk.injEq, and_true]
      omega

theorem of_readVarintF : ∀ (k : Nat) (bs : Bytes) (n : Nat) (r : Bytes), readVarintF k bs = some (n, r) →
    ∃ vb, bs = vb ++ r ∧ Digits vb n ∧ vb.length ≤ k := by
  intro k
  induction k with
  | zero => intro bs n r h; simp [readVarintF] at h
  | succ k ih =>
    intro bs n r h
    cases bs with
    | nil => simp [readVarintF] at h
    | cons b bs =>
      simp only [readVarintF] at h
      split at h
      · rename_i hb; cases h; exact ⟨[b], rfl, .last b hb, by simp⟩
      · rename_i hb
        cases hr : readVarintF k bs with
        | none => simp [hr] at h
        | some x =>
          obtain ⟨v, r'⟩ := x
          simp only [hr, Option.some.injEq, Prod.mk.injEq] at h
          obtain ⟨rfl, rfl⟩ := h
          obtain ⟨vb, rfl, hd, hl⟩ := ih _ _ _ hr
          have hb2 : b.toNat < 256 := b.toNat_lt
          have : b.toNat - 128 = b.toNat % 128 := by omega
          rw [this]
          exact ⟨b :: vb, rfl, .more b vb v (by omega) hd, by simpa using hl⟩

theorem readVarint_iff {bs : Bytes} {v : Nat} {r : Bytes} : readVarint bs = some (v, r) ↔ ∃ vb, bs = vb ++ r ∧ IsVarint vb v := by
  unfold readVarint
  constructor
  · intro h
    cases hr : readVarintF 10 bs with
    | none => simp [hr] at h
    | some x =>
      obtain ⟨n, r'⟩ := x
      simp only [hr, Option.some.injEq, Prod.mk.injEq] at h
      obtain ⟨rfl, rfl⟩ := h
      obtain ⟨vb, hb, hd, hl⟩ := of_readVarintF _ _ _ _ hr
      exact ⟨vb, hb, n, hd, hl, by norm_num⟩
  · rintro ⟨vb, rfl, n, hd, hl, rfl⟩
    rw [readVarintF_of hd 10 r hl]

theorem isVarint_pos {bs : Bytes} {v : Nat} (h : IsVarint bs v) : 1 ≤ bs.length := by
  obtain ⟨n, hd, _⟩ := h; exact digits_pos hd

theorem isVarint_lt {bs : Bytes} {v : Nat} (h : IsVarint bs v) : v < 2 ^ 64 := by
  obtain ⟨n, _, _, rfl⟩ := h; exact Nat.mod_lt _ (by norm_num)

/-! ## Fixed-size numbers -/

theorem readLe32_iff {bs : Bytes} {v : Nat} {r : Bytes} :
    readLe32 bs = some (v, r) ↔ ∃ vb, bs = vb ++ r ∧ vb.length = 4 ∧ LittleEndian vb v := by
  constructor
  · intro h
    match bs, h with
    | a :: b :: c :: d :: r', h =>
      simp only [readLe32, Option.some.injEq, Prod.mk.injEq] at h
      obtain ⟨rfl, rfl⟩ := h
      exact ⟨[a, b, c, d], rfl, rfl, .cons _ _ _ (.cons _ _ _ (.cons _ _ _ (.cons _ _ _ .nil)))⟩
  · rintro ⟨vb, rfl, hl, hv⟩
    match vb, hl, hv with
    | [a, b, c, d], _, .cons _ _ _ (.cons _ _ _ (.cons _ _ _ (.cons _ _ _ .nil))) => rfl

theorem readLe64_iff {bs : Bytes} {v : Nat} {r : Bytes} :
    readLe64 bs = some (v, r) ↔ ∃ vb, bs = vb ++ r ∧ vb.length = 8 ∧ LittleEndian vb v := by
  constructor
  · intro h
    match bs, h with
    | a :: b :: c :: d :: e :: f :: g :: i :: r', h =>
      simp only [readLe64, Option.some.injEq, Prod.mk.injEq] at h
      obtain ⟨rfl, rfl⟩ := h
      exact ⟨[a, b, c, d, e, f, g, i], rfl, rfl, .cons _ _ _ (.cons _ _ _ (.cons _ _ _ (.cons _ _ _ (.cons _ _ _ (.cons _ _ _ (.cons _ _ _
        (.cons _ _ _ .nil)))))))⟩
  · rintro ⟨vb, rfl, hl, hv⟩
    match vb, hl, hv with
    | [a, b, c, d, e, f, g, i], _, .cons _ _ _ (.cons _ _ _ (.cons _ _ _ (.cons _ _ _ (.cons _ _ _ (.cons _ _ _ (.cons _ _ _
        (.cons _ _ _ .nil))))))) => rfl

/-! ## Fields -/

theorem readRaw_iff {bs : Bytes} {f : Nat × Raw} {r : Bytes} : readRaw bs = some (f, r) ↔ ∃ fb, bs = fb ++ r ∧ IsField fb f := by
  constructor
  · intro h
    unfold readRaw at h
    cases hr : readVarint bs with
    | none => simp [hr] at h
    | some x =>
      obtain ⟨tag, r1⟩ := x
      simp only [hr] at h
      obtain ⟨tb, rfl, ht⟩ := readVarint_iff.mp hr
      split at h
      · rename_i htag
        cases hb : readBody (tag % 8) r1 with
        | none => simp [hb] at h
        | some y =>
          obtain ⟨raw, r2⟩ := y
          simp only [hb, Option.some.injEq, Prod.mk.injEq] at h
          obtain ⟨rfl, rfl⟩ := h
          have hT : ∀ wt, tag % 8 = wt → IsTag tb (tag / 8) wt := by
            intro wt hwt
            have : tag / 8 * 8 + wt = tag := by omega
            refine ⟨by rw [this]; exact ht, by omega, by rw [this]; norm_num; exact htag.1⟩
          unfold readBody at hb
          split at hb
          · rename_i hw
            cases hv : readVarint r1 with
            | none => simp [hv] at hb
            | some z =>
              obtain ⟨v, r3⟩ := z
              simp only [hv, Option.map_some, Option.some.injEq, Prod.mk.injEq] at hb
              obtain ⟨rfl, rfl⟩ := hb
              obtain ⟨vb, rfl, hv'⟩ := readVarint_iff.mp hv
              exact ⟨tb ++ vb, by simp, .varint (hT _ hw) hv'⟩
          · split at hb
            · rename_i hw
              cases hv : readLe64 r1 with
              | none => simp [hv] at hb
              | some z =>
                obtain ⟨v, r3⟩ := z
                simp only [hv, Option.map_some, Option.some.injEq, Prod.mk.injEq] at hb
                obtain ⟨rfl, rfl⟩ := hb
                obtain ⟨vb, rfl, hl, hv⟩ := readLe64_iff.mp hv
                exact ⟨tb ++ vb, by simp, .fixed64 (hT _ hw) hl hv⟩
            · split at hb
              · rename_i hw
                cases hv : readVarint r1 with
                | none => simp [hv] at hb
                | some z =>
                  obtain ⟨n, r3⟩ := z
                  simp only [hv] at hb
                  split at hb
                  · rename_i hn
                    simp only [Option.some.injEq, Prod.mk.injEq] at hb
                    obtain ⟨rfl, rfl⟩ := hb
                    obtain ⟨lb, rfl, hv'⟩ := readVarint_iff.mp hv
                    refine ⟨tb ++ lb ++ r3.take n, by simp, .len (hT _ hw) ?_⟩
                    rw [List.length_take, Nat.min_eq_left hn]; exact hv'
                  · cases hb
              · split at hb
                · rename_i hw
                  cases hv : readLe32 r1 with
                  | none => simp [hv] at hb
                  | some z =>
                    obtain ⟨v, r3⟩ := z
                    simp only [hv, Option.map_some, Option.some.injEq, Prod.mk.injEq] at hb
                    obtain ⟨rfl, rfl⟩ := hb
                    obtain ⟨vb, rfl, hl, hv⟩ := readLe32_iff.mp hv
                    exact ⟨tb ++ vb, by simp, .fixed32 (hT _ hw) hl hv⟩
                · cases hb
      · cases h
  · rintro ⟨fb, rfl, h⟩
    have key : ∀ {tb body : Bytes} {num wt : Nat} {raw : Raw}, IsTag tb num wt → wt < 8 → readBody wt (body ++ r) = some (raw, r) →
        readRaw (tb ++ body ++ r) = some ((num, raw), r) := by
      intro tb body num wt raw ⟨h1, h2, h3⟩ hwt hb
      unfold readRaw
      rw [List.append_assoc, readVarint_iff.mpr ⟨tb, rfl, h1⟩]
      have hmod : (num * 8 + wt) % 8 = wt := by omega
      have hdiv : (num * 8 + wt) / 8 = num := by omega
      have hlt : num * 8 + wt < 4294967296 := by norm_num at h3; exact h3
      simp only [hmod, hdiv, hb]
      rw [if_pos ⟨hlt, by omega⟩]
    cases h with
    | varint ht hv =>
      refine key ht (by omega) ?_
      simp only [readBody, if_true]
      rw [readVarint_iff.mpr ⟨_, rfl, hv⟩]; rfl
    | fixed64 ht hl hv =>
      refine key ht (by omega) ?_
      simp only [readBody]
      rw [readLe64_iff.mpr ⟨_, rfl, hl, hv⟩]; rfl
    | @len tb lb data num ht hl =>
      have := key (body := lb ++ data) (raw := .len data) ht (by omega) ?_
      · simpa using this
      · simp only [readBody]
        rw [List.append_assoc, readVarint_iff.mpr ⟨lb, rfl, hl⟩]
        simp
    | fixed32 ht hl hv =>
      refine key ht (by omega) ?_
      simp only [readBody]
      rw [readLe32_iff.mpr ⟨_, rfl, hl, hv⟩]; rfl

theorem isField_pos {fb : Bytes} {f : Nat × Raw} (h : IsField fb f) : 1 ≤ fb.length := by
  have tag : ∀ {tb : Bytes} {n w : Nat}, IsTag tb n w → 1 ≤ tb.length := fun h => isVarint_pos h.1
  cases h with
  | varint ht _ => have := tag ht; simp only [List.length_append]; omega
  | fixed64 ht _ _ => have := tag ht; simp only [List.length_append]; omega
  | len ht _ => have := tag ht; simp only [List.length_append]; omega
  | fixed32 ht _ _ => have := tag ht; simp only [List.length_append]; omega

theorem readRaws_iff {bs : Bytes} {fs : List (Nat × Raw)} : readRaws bs = some fs ↔ IsFields bs fs := by
  have fwd : ∀ k bs fs, readRawsF k bs = some fs → IsFields bs fs := by
    intro k
    induction k with
    | zero =>
      intro bs fs h
      cases bs with
      | nil => simp only [readRawsF, Option.some.injEq] at h; subst h; exact .nil
      | cons b bs => simp [readRawsF] at h
    | succ k ih =>
      intro bs fs h
      cases bs with
      | nil => simp only [readRawsF, Option.some.injEq] at h; subst h; exact .nil
      | cons b bs =>
        simp only [readRawsF] at h
        cases hr : readRaw (b :: bs) with
        | none => simp [hr] at h
        | some x =>
          obtain ⟨f, r⟩ := x
          simp only [hr] at h
          cases hs : readRawsF k r with
          | none => simp [hs] at h
          | some fs' =>
            simp only [hs, Option.map_some, Option.some.injEq] at h
            subst h
            obtain ⟨fb, he, hf⟩ := readRaw_iff.mp hr
            rw [he]
            exact .cons hf (ih _ _ hs)
  have bwd : ∀ bs fs, IsFields bs fs → ∀ k, bs.length ≤ k → readRawsF k bs = some fs := by
    intro bs fs h
    induction h with
    | nil => intro k _; cases k <;> rfl
    | @cons fb bs f fs hf _ ih =>
      intro k hk
      have hp := isField_pos hf
      rw [List.length_append] at hk
      cases k with
      | zero => omega
      | succ k =>
        have hr : readRaw (fb ++ bs) = some (f, bs) := readRaw_iff.mpr ⟨fb, rfl, hf⟩
        cases hfb : fb ++ bs with
        | nil => rw [List.append_eq_nil_iff] at hfb; rw [hfb.1] at hp; simp at hp
        | cons b rest =>
          rw [hfb] at hr
          simp only [readRawsF, hr, ih k (by omega), Option.map_some]
  exact ⟨fwd _ _ _, fun h => bwd _ _ h _ (Nat.le_refl _)⟩

theorem readPacked_iff {bs : Bytes} {vs : List Nat} : readPackedF bs.length bs = some vs ↔ IsPacked bs vs := by
  have fwd : ∀ k bs vs, readPackedF k bs = some vs → IsPacked bs vs := by
    intro k
    induction k with
    | zero =>
      intro bs fs h
      cases bs with
      | nil => simp only [readPackedF, Option.some.injEq] at h; subst h; exact .nil
      | cons b bs => simp [readPackedF] at h
    | succ k ih =>
      intro bs fs h
      cases bs with
      | nil => simp only [readPackedF, Option.some.injEq] at h; subst h; exact .nil
      | cons b bs =>
        simp only [readPackedF] at h
        cases hr : readVarint (b :: bs) with
        | none => simp [hr] at h
        | some x =>
          obtain ⟨f, r⟩ := x
          simp only [hr] at h
          cases hs : readPackedF k r with
          | none => simp [hs] at h
          | some fs' =>
            simp only [hs, Option.map_some, Option.some.injEq] at h
            subst h
            obtain ⟨fb, he, hf⟩ := readVarint_iff.mp hr
            rw [he]
            exact .cons hf (ih _ _ hs)
  have bwd : ∀ bs fs, IsPacked bs fs → ∀ k, bs.length ≤ k → readPackedF k bs = some fs := by
    intro bs fs h
    induction h with
    | nil => intro k _; cases k <;> rfl
    | @cons fb bs f fs hf _ ih =>
      intro k hk
      have hp := isVarint_pos hf
      rw [List.length_append] at hk
      cases k with
      | zero => omega
      | succ k =>
        have hr : readVarint (fb ++ bs) = some (f, bs) := readVarint_iff.mpr ⟨fb, rfl, hf⟩
        cases hfb : fb ++ bs with
        | nil => rw [List.append_eq_nil_iff] at hfb; rw [hfb.1] at hp; simp at hp
        | cons b rest =>
          rw [hfb] at hr
          simp only [readPackedF, hr, ih k (by omega), Option.map_some]
  exact ⟨fwd _ _ _, fun h => bwd _ _ h _ (Nat.le_refl _)⟩

/-! ## Numbers and strings -/

theorem ofVarint_iff {k : Kind} {v : Nat} (hv : v < 2 ^ 64) {x : Val} : ofVarint k v = some x ↔ ∃ n, x = .int n ∧ Number k v n := by
  have h63 : (2 : Int) ^ 63 = 9223372036854775808 := by norm_num
  have h64 : (2 : Int) ^ 64 = 18446744073709551616 := by norm_num
  have h31 : (2 : Int) ^ 31 = 2147483648 := by norm_num
  have h32 : (2 : Int) ^ 32 = 4294967296 := by norm_num
  have hN32 : (2 : Nat) ^ 32 = 4294967296 := by norm_num
  have hN64 : (2 : Nat) ^ 64 = 18446744073709551616 := by norm_num
  rw [hN64] at hv
  have s32 : ∀ n : Int, signed32 v = n ↔ (-2 ^ 31 ≤ n ∧ n < 2 ^ 31 ∧ n % 2 ^ 32 = (v : Int) % 2 ^ 32) := by
    intro n
    rw [h31, h32]
    unfold signed32
    simp only
    constructor
    · intro h
      split at h <;> subst h <;> refine ⟨?_, ?_, ?_⟩ <;> omega
    · intro h
      split <;> omega
  have s64 : ∀ n : Int, signed64 v = n ↔ (-2 ^ 63 ≤ n ∧ n < 2 ^ 63 ∧ n % 2 ^ 64 = (v : Int) % 2 ^ 64) := by
    intro n
    rw [h63, h64]
    unfold signed64
    constructor
    · intro h
      split at h <;> subst h <;> refine ⟨?_, ?_, ?_⟩ <;> omega
    · intro h
      split <;> omega
  cases k with
  | u64 =>
    simp only [ofVarint, Option.some.injEq]
    constructor
    · rintro rfl; exact ⟨_, rfl, .u64 v⟩
    · rintro ⟨n, rfl, h⟩; cases h; rfl
  | u32 =>
    simp only [ofVarint, Option.some.injEq]
    constructor
    · rintro rfl; exact ⟨_, rfl, by have := Number.u32 v; rw [hN32] at this; exact this⟩
    · rintro ⟨n, rfl, h⟩; cases h; rw [hN32]
  | i64 =>
    simp only [ofVarint, Option.some.injEq]
    constructor
    · rintro rfl
      obtain ⟨h1, h2, h3⟩ := (s64 _).mp rfl
      exact ⟨_, rfl, .i64 v _ h1 h2 h3⟩
    · rintro ⟨n, rfl, h⟩
      cases h with
      | i64 _ _ h1 h2 h3 => rw [(s64 n).mpr ⟨h1, h2, h3⟩]
  | i32 =>
    simp only [ofVarint, Option.some.injEq]
    constructor
    · rintro rfl
      obtain ⟨h1, h2, h3⟩ := (s32 _).mp rfl
      exact ⟨_, rfl, .i32 v _ h1 h2 h3⟩
    · rintro ⟨n, rfl, h⟩
      cases h with
      | i32 _ _ h1 h2 h3 => rw [(s32 n).mpr ⟨h1, h2, h3⟩]
  | enum =>
    simp only [ofVarint, Option.some.injEq]
    constructor
    · rintro rfl
      obtain ⟨h1, h2, h3⟩ := (s32 _).mp rfl
      exact ⟨_, rfl, .enum v _ h1 h2 h3⟩
    · rintro ⟨n, rfl, h⟩
      cases h with
      | enum _ _ h1 h2 h3 => rw [(s32 n).mpr ⟨h1, h2, h3⟩]
  | bool =>
    simp only [ofVarint, Option.some.injEq]
    constructor
    · rintro rfl
      split
      · rename_i h; subst h; exact ⟨0, rfl, .false⟩
      · rename_i h; exact ⟨1, rfl, .true v h⟩
    · rintro ⟨n, rfl, h⟩
      cases h with
      | true _ h => rw [if_neg h]
      | false => rfl
  | dbl => exact ⟨fun h => by simp [ofVarint] at h, fun ⟨_, _, h⟩ => by cases h⟩
  | str => exact ⟨fun h => by simp [ofVarint] at h, fun ⟨_, _, h⟩ => by cases h⟩
  | byt => exact ⟨fun h => by simp [ofVarint] at h, fun ⟨_, _, h⟩ => by cases h⟩
  | msg t => exact ⟨fun h => by simp [ofVarint] at h, fun ⟨_, _, h⟩ => by cases h⟩

theorem ofVarint_numeric {k : Kind} (h : numeric k = true) (v : Nat) : ∃ n, ofVarint k v = some (.int n) := by
  cases k <;> simp [numeric] at h <;> exact ⟨_, rfl⟩

theorem ofVarint_none {k : Kind} (v : Nat) : ofVarint k v = none ↔ numeric k = false := by
  cases k <;> simp [ofVarint, numeric]

theorem number_numeric {k : Kind} {v : Nat} {n : Int} (h : Number k v n) : numeric k = true := by cases h <;> rfl

theorem utf8?_iff {b : Bytes} {s : String} : utf8? b = some s ↔ b = utf8 s := by
  constructor
  · intro h
    unfold utf8? String.fromUTF8? at h
    split at h
    · rename_i hv
      simp only [Option.some.injEq] at h
      subst h
      show b = (⟨b.toArray⟩ : ByteArray).data.toList
      simp
    · cases h
  · rintro rfl; exact utf8_utf8 s

/-! ## What a field says -/

/-- The values contributed, `none` if the parser fails. -/
def conv : Conv → Option (List Val)
  | .skip => some []
  | .fail => none
  | .vals vs => some vs

/-- Varints are 64-bit patterns. -/
def Wide : Raw → Prop
  | .varint v => v < 2 ^ 64
  | _ => True

theorem isField_wide {fb : Bytes} {f : Nat × Raw} (h : IsField fb f) : Wide f.2 := by
  cases h with
  | varint _ hv => exact isVarint_lt hv
  | _ => trivial

theorem isFields_wide {bs : Bytes} {fs : List (Nat × Raw)} (h : IsFields bs fs) : ∀ f ∈ fs, Wide f.2 := by
  induction h with
  | nil => intro f hf; cases hf
  | cons h _ ih =>
    intro f hf
    rcases List.mem_cons.mp hf with rfl | hf
    · exact isField_wide h
    · exact ih f hf

theorem isPacked_lt {bs : Bytes} {vs : List Nat} (h : IsPacked bs vs) : ∀ v ∈ vs, v < 2 ^ 64 := by
  induction h with
  | nil => intro f hf; cases hf
  | cons h _ ih =>
    intro f hf
    rcases List.mem_cons.mp hf with rfl | hf
    · exact isVarint_lt h
    · exact ih f hf

theorem packed_vals {k : Kind} (hk : numeric k = true) {vs : List Nat} (hv : ∀ v ∈ vs, v < 2 ^ 64) {ws : List Val} :
    vs.filterMap (ofVarint k) = ws ↔ ∃ ns, List.Forall₂ (Number k) vs ns ∧ ws = ns.map .int := by
  induction vs generalizing ws with
  | nil =>
    constructor
    · rintro rfl; exact ⟨[], .nil, rfl⟩
    · rintro ⟨ns, h, rfl⟩; cases h; rfl
  | cons v vs ih =>
    obtain ⟨n, hn⟩ := ofVarint_numeric hk v
    have hN := (ofVarint_iff (hv v (by simp))).mp hn
    obtain ⟨n', he, hN⟩ := hN
    cases he
    rw [List.filterMap_cons_some hn]
    constructor
    · rintro rfl
      obtain ⟨ns, h1, h2⟩ := (ih (fun w hw => hv w (List.mem_cons_of_mem _ hw))).mp rfl
      exact ⟨n :: ns, .cons hN h1, by rw [h2]; rfl⟩
    · rintro ⟨ns, h, rfl⟩
      cases h with
      | @cons _ n2 _ ns h1 h2 =>
        have : ofVarint k v = some (.int n2) := (ofVarint_iff (hv v (by simp))).mpr ⟨_, rfl, h1⟩
        rw [hn] at this
        cases this
        rw [(ih (fun w hw => hv w (List.mem_cons_of_mem _ hw))).mpr ⟨ns, h2, rfl⟩]
        rfl

theorem says_iff {sub : MsgTy → Bytes → Option Msg} {Sub : MsgTy → Bytes → Msg → Prop} (hs : ∀ t b m, sub t b = some m ↔ Sub t b m)
    {d : FieldDesc} {r : Raw} (hw : Wide r) {ws : List Val} : conv (interp sub d r) = some ws ↔ Says Sub d r ws := by
  cases r with
  | varint v =>
    simp only [interp]
    cases ho : ofVarint d.kind v with
    | none =>
      have hn := (ofVarint_none v).mp ho
      simp only [conv, Option.some.injEq]
      constructor
      · rintro rfl; exact .notVarint hn
      · intro h
        cases h with
        | number h => rw [number_numeric h] at hn; cases hn
        | notVarint _ => rfl
    | some x =>
      obtain ⟨n, rfl, hN⟩ := (ofVarint_iff hw).mp ho
      simp only [conv, Option.some.injEq]
      constructor
      · rintro rfl; exact .number hN
      · intro h
        cases h with
        | number h =>
          have := (ofVarint_iff hw).mpr ⟨_, rfl, h⟩
          rw [ho] at this; cases this; rfl
        | notVarint h => rw [number_numeric hN] at h; cases h
  | fixed64 v =>
    cases hk : d.kind <;> simp only [interp, hk, conv, Option.some.injEq] <;>
    constructor <;> first
      | (rintro rfl; exact .double hk)
      | (rintro rfl; exact .notDouble (by rw [hk]; simp))
      | (intro h; cases h with
          | double h => first | rfl | (rw [hk] at h; cases h)
          | notDouble h => first | rfl | exact absurd hk h)
  | fixed32 v =>
    simp only [interp, conv, Option.some.injEq]
    constructor
    · rintro rfl; exact .notFixed32
    · intro h; cases h; rfl
  | len b =>
    have num : numeric d.kind = true → (conv (interp sub d (.len b)) = some ws ↔ Says Sub d (.len b) ws) := by
      intro hk
      have hi : interp sub d (.len b) = if d.label = .repeated then
          match readPackedF b.length b with
          | some vs => .vals (vs.filterMap (ofVarint d.kind))
          | none => .fail
        else .skip := by
        cases hd : d.kind <;> rw [hd] at hk <;> simp [numeric] at hk <;> simp only [interp, hd] <;> rfl
      rw [hi]
      split
      · rename_i hr
        constructor
        · intro h
          cases hp : readPackedF b.length b with
          | none => simp [hp, conv] at h
          | some vs =>
            simp only [hp, conv, Option.some.injEq] at h
            have hP := readPacked_iff.mp hp
            obtain ⟨ns, h1, rfl⟩ := (packed_vals hk (isPacked_lt hP)).mp h
            exact .packed hk hr hP h1
        · intro h
          cases h with
          | string h => rw [h] at hk; cases hk
          | bytes h => rw [h] at hk; cases hk
          | message h _ => rw [h] at hk; cases hk
          | packed _ _ hP hn =>
            rw [readPacked_iff.mpr hP]
            simp only [conv, Option.some.injEq]
            exact (packed_vals hk (isPacked_lt hP)).mpr ⟨_, hn, rfl⟩
          | notPacked _ h => exact absurd hr h
          | notLen h => rw [h] at hk; cases hk
      · rename_i hr
        simp only [conv, Option.some.injEq]
        constructor
        · rintro rfl; exact .notPacked hk hr
        · intro h
          cases h with
          | string h => rw [h] at hk; cases hk
          | bytes h => rw [h] at hk; cases hk
          | message h _ => rw [h] at hk; cases hk
          | packed _ h _ _ => exact absurd h hr
          | notPacked _ h => rfl
          | notLen h => rw [h] at hk
    by_cases hk : numeric d.kind = true
    · exact num hk
    · cases hd : d.kind with
      | str =>
        simp only [interp, hd]
        constructor
        · intro h
          cases hu : utf8? b with
          | none => simp [hu, Conv.ofOption, conv] at h
          | some s =>
            simp only [hu, Option.map_some, Conv.ofOption, conv, Option.some.injEq] at h
            subst h
            rw [utf8?_iff.mp hu]
            exact .string hd
        · intro h
          cases h with
          | string _ => simp [utf8_utf8, Conv.ofOption, conv]
          | bytes h => rw [h] at hd; cases hd
          | message h _ => rw [h] at hd; cases hd
          | packed h _ _ _ => exact absurd h hk
          | notPacked h _ => exact absurd h hk
          | notLen h => rw [h] at hd; cases hd
      | byt =>
        simp only [interp, hd, conv, Option.some.injEq]
        constructor
        · rintro rfl; exact .bytes hd
        · intro h
          cases h with
          | string h => rw [h] at hd; cases hd
          | bytes h => rfl
          | message h _ => rw [h] at hd; cases hd
          | packed h _ _ _ => exact absurd h hk
          | notPacked h _ => exact absurd h hk
          | notLen h => rw [h] at hd; cases hd
      | dbl =>
        simp only [interp, hd, conv, Option.some.injEq]
        constructor
        · rintro rfl; exact .notLen hd
        · intro h
          cases h with
          | string h => rw [h] at hd; cases hd
          | bytes h => rw [h] at hd; cases hd
          | message h _ => rw [h] at hd; cases hd
          | packed h _ _ _ => exact absurd h hk
          | notPacked h _ => exact absurd h hk
          | notLen h => rfl
      | msg t =>
        simp only [interp, hd]
        constructor
        · intro h
          cases hu : sub t b with
          | none => simp [hu, Conv.ofOption, conv] at h
          | some m =>
            simp only [hu, Option.map_some, Conv.ofOption, conv, Option.some.injEq] at h
            subst h
            exact .message hd ((hs _ _ _).mp hu)
        · intro h
          cases h with
          | string h => rw [h] at hd; cases hd
          | bytes h => rw [h] at hd; cases hd
          | @message t' _ m h hm =>
            rw [hd] at h; cases h
            rw [(hs _ _ _).mpr hm]
            rfl
          | packed h _ _ _ => exact absurd h hk
          | notPacked h _ => exact absurd h hk
          | notLen h => rw [h] at hd; cases hd
      | _ => rw [hd] at hk; simp [numeric] at hk

/-! ## Column by column -/

/-- One field's column of the parser's fold. -/
def putCol (sub : MsgTy → Bytes → Option Msg) (d : FieldDesc) (vs : List Val) (f : Nat × Raw) : Option (List Val) :=
  if d.num = f.1 then
    match interp sub d f.2 with
    | .skip => some vs
    | .fail => none
    | .vals ws => some (if d.label = .repeated then vs ++ ws else ws)
  else some vs

def putCols (sub : MsgTy → Bytes → Option Msg) (d : FieldDesc) : List Val → List (Nat × Raw) → Option (List Val)
  | vs, [] => some vs
  | vs, f :: fs =>
    match putCol sub d vs f with
    | some vs' => putCols sub d vs' fs
    | none => none

theorem putRaw_cons {sub : MsgTy → Bytes → Option Msg} {d : FieldDesc} {ds : List FieldDesc} (hd : ∀ e ∈ ds, e.num ≠ d.num)
    {vs : List Val} {m : Msg} {f : Nat × Raw} {m' : Msg} :
    putRaw sub (d :: ds) (vs :: m) f = some m' ↔
      ∃ vs' m'', m' = vs' :: m'' ∧ putCol sub d vs f = some vs' ∧ putRaw sub ds m f = some m'' := by
  obtain ⟨num, raw⟩ := f
  simp only [putRaw, putCol]
  split
  · rename_i hn
    rw [putRaw_unknown sub ds m (num, raw) (fun e he => by simpa [hn] using hd e he)]
    cases interp sub d raw with
    | skip => simp [eq_comm]
    | fail => simp
    | vals ws => simp [eq_comm]
  · cases putRaw sub ds m (num, raw) with
    | none => simp
    | some m2 => simp [eq_comm]

theorem putRaws_cons {sub : MsgTy → Bytes → Option Msg} {d : FieldDesc} {ds : List FieldDesc} (hd : ∀ e ∈ ds, e.num ≠ d.num)
    {fs : List (Nat × Raw)} {vs : List Val} {m m' : Msg} :
    putRaws sub (d :: ds) (vs :: m) fs = some m' ↔
      ∃ vs' m'', m' = vs' :: m'' ∧ putCols sub d vs fs = some vs' ∧ putRaws sub ds m fs = some m'' := by
  induction fs generalizing vs m with
  | nil => simp [putRaws, putCols, eq_comm]
  | cons f fs ih =>
    constructor
    · intro h
      simp only [putRaws] at h
      cases hp : putRaw sub (d :: ds) (vs :: m) f with
      | none => simp [hp] at h
      | some m1 =>
        obtain ⟨vs1, m2, rfl, h1, h2⟩ := (putRaw_cons hd).mp hp
        simp only [hp] at h
        obtain ⟨vs', m'', rfl, h3, h4⟩ := ih.mp h
        exact ⟨vs', m'', rfl, by simp only [putCols, h1, h3], by simp only [putRaws, h2, h4]⟩
    · rintro ⟨vs', m'', rfl, h1, h2⟩
      simp only [putCols] at h1
      simp only [putRaws] at h2
      cases hc : putCol sub d vs f with
      | none => simp [hc] at h1
      | some vs1 =>
        cases hp : putRaw sub ds m f with
        | none => simp [hp] at h2
        | some m1 =>
          simp only [hc] at h1
          simp only [hp] at h2
          simp only [putRaws, (putRaw_cons hd).mpr ⟨vs1, m1, rfl, hc, hp⟩]
          exact ih.mpr ⟨vs', m'', rfl, h1, h2⟩

/-- What the parser makes of a column it starts with `vs`. -/
theorem says_singular {Sub : MsgTy → Bytes → Msg → Prop} {d : FieldDesc} (hr : d.label ≠ .repeated) {r : Raw} {ws : List Val}
    (h : Says Sub d r ws) : ws = [] ∨ ∃ x, ws = [x] := by
  cases h with
  | packed _ h _ _ => exact absurd h hr
  | _ => first | exact .inl rfl | exact .inr ⟨_, rfl⟩

theorem interp_says {sub : MsgTy → Bytes → Option Msg} {Sub : MsgTy → Bytes → Msg → Prop} (hs : ∀ t b m, sub t b = some m ↔ Sub t b m)
    {d : FieldDesc} {r : Raw} (hw : Wide r) (hr : d.label ≠ .repeated) {ws : List Val} (h : interp sub d r = .vals ws) : ∃ x, ws = [x] := by
  have : Says Sub d r ws := (says_iff hs hw).mp (by rw [h]; rfl)
  rcases says_singular hr this with rfl | h2
  · exfalso
    cases r with
    | varint v =>
      simp only [interp] at h
      cases ho : ofVarint d.kind v <;> simp [ho] at h
    | fixed64 v => simp only [interp] at h; split at h <;> simp at h
    | fixed32 v => simp [interp] at h
    | len b =>
      simp only [interp] at h
      split at h
      · cases hu : utf8? b <;> simp [hu, Conv.ofOption] at h
      · simp at h
      · rename_i t _
        cases hu : sub t b <;> simp [hu, Conv.ofOption] at h
      · simp at h
      · rw [if_neg hr] at h; cases h
  · exact h2

theorem putCols_iff {sub : MsgTy → Bytes → Option Msg} {Sub : MsgTy → Bytes → Msg → Prop} (hs : ∀ t b m, sub t b = some m ↔ Sub t b m)
    {d : FieldDesc} {fs : List (Nat × Raw)} (hw : ∀ f ∈ fs, Wide f.2) {vs ws : List Val} :
    putCols sub d vs fs = some ws ↔ ∃ said : List (List Val), List.Forall₂ (Says Sub d) (occurrences fs d.num) said ∧
      ws = if d.label = .repeated then vs ++ said.flatten else (if said.flatten = [] then vs else said.flatten.getLast?.toList) := by
  induction fs generalizing vs with
  | nil =>
    simp only [putCols, occurrences, List.filterMap_nil, Option.some.injEq]
    constructor
    · rintro rfl; exact ⟨[], .nil, by simp⟩
    · rintro ⟨said, h, rfl⟩; cases h; simp
  | cons f fs ih =>
    have hwf := hw f (by simp)
    have hwt : ∀ g ∈ fs, Wide g.2 := fun g hg => hw g (List.mem_cons_of_mem _ hg)
    by_cases hn : f.1 = d.num
    · have ho : occurrences (f :: fs) d.num = f.2 :: occurrences fs d.num := by simp [occurrences, hn]
      rw [ho]
      simp only [putCols, putCol, hn, if_true]
      constructor
      · intro h
        cases hi : interp sub d f.2 with
        | fail => simp [hi] at h
        | skip =>
          simp only [hi] at h
          obtain ⟨said, h1, h2⟩ := (ih hwt).mp h
          exact ⟨[] :: said, .cons ((says_iff hs hwf).mp (by rw [hi]; rfl)) h1, by simpa using h2⟩
        | vals us =>
          simp only [hi] at h
          obtain ⟨said, h1, h2⟩ := (ih hwt).mp h
          refine ⟨us :: said, .cons ((says_iff hs hwf).mp (by rw [hi]; rfl)) h1, ?_⟩
          rw [h2]
          by_cases hr : d.label = .repeated
          · simp [hr]
          · obtain ⟨x, rfl⟩ := interp_says hs hwf hr hi
            simp only [hr, if_false, List.flatten_cons, List.singleton_append, List.cons_ne_nil]
            cases hf : said.flatten with
            | nil => simp
            | cons y ys => simp [List.getLast?_cons_cons]
      · rintro ⟨said, h1, h2⟩
        cases h1 with
        | @cons _ us _ said hu h1 =>
          have hc := (says_iff hs hwf).mpr hu
          cases hi : interp sub d f.2 with
          | fail => simp [hi, conv] at hc
          | skip =>
            simp only [hi, conv, Option.some.injEq] at hc
            subst hc
            exact (ih hwt).mpr ⟨said, h1, by simpa using h2⟩
          | vals us' =>
            simp only [hi, conv, Option.some.injEq] at hc
            subst hc
            refine (ih hwt).mpr ⟨said, h1, ?_⟩
            rw [h2]
            by_cases hr : d.label = .repeated
            · simp [hr]
            · obtain ⟨x, rfl⟩ := interp_says hs hwf hr hi
              simp only [hr, if_false, List.flatten_cons, List.singleton_append, List.cons_ne_nil]
              cases hf : said.flatten with
              | nil => simp
              | cons y ys => simp [List.getLast?_cons_cons]
    · have ho : occurrences (f :: fs) d.num = occurrences fs d.num := by simp [occurrences, hn]
      rw [ho]
      simp only [putCols, putCol, if_neg (Ne.symm hn)]
      exact ih hwt

theorem putRaws_iff {sub : MsgTy → Bytes → Option Msg} {Sub : MsgTy → Bytes → Msg → Prop} (hs : ∀ t b m, sub t b = some m ↔ Sub t b m)
    {fs : List (Nat × Raw)} (hw : ∀ f ∈ fs, Wide f.2) {ds : List FieldDesc} (hd : (ds.map (·.num)).Nodup) {m : Msg} :
    putRaws sub ds (ds.map fun _ => []) fs = some m ↔ List.Forall₂ (FieldIs Sub fs) ds m := by
  induction ds generalizing m with
  | nil =>
    have : putRaws sub [] [] fs = some [] := by
      induction fs with
      | nil => rfl
      | cons f fs ih => simp only [putRaws, putRaw]; exact ih (fun g hg => hw g (List.mem_cons_of_mem _ hg))
    rw [List.map_nil, this]
    constructor
    · intro h; cases h; exact .nil
    · intro h; cases h; rfl
  | cons d ds ih =>
    rw [List.map_cons, List.nodup_cons] at hd
    have hne : ∀ e ∈ ds, e.num ≠ d.num := fun e he hc => hd.1 (List.mem_map.mpr ⟨e, he, hc⟩)
    rw [List.map_cons, putRaws_cons hne]
    constructor
    · rintro ⟨vs, m', rfl, h1, h2⟩
      obtain ⟨said, h3, h4⟩ := (putCols_iff hs hw).mp h1
      refine .cons ⟨said, h3, ?_⟩ ((ih hd.2).mp h2)
      rw [h4]
      split
      · simp
      · split
        · rename_i he; simp [he]
        · rfl
    · intro h
      cases h with
      | @cons _ vs _ m' h1 h2 =>
        obtain ⟨said, h3, h4⟩ := h1
        refine ⟨vs, m', rfl, (putCols_iff hs hw).mpr ⟨said, h3, ?_⟩, (ih hd.2).mpr h2⟩
        rw [h4]
        split
        · simp
        · split
          · rename_i he; simp [he]
          · rfl

/-- The parser accepts exactly the encodings, and reads the message they encode. -/
theorem decodeF_iff {S : Schema} (hS : goodSchema S) (k : Nat) : ∀ (t : MsgTy) (bs : Bytes) (m : Msg),
    decodeF S k t bs = some m ↔ Encodes S k t bs m := by
  induction k with
  | zero => intro t bs m; simp [decodeF, Encodes]
  | succ k ih =>
    intro t bs m
    have hd : ((S t).map (·.num)).Nodup := by
      have := hS t
      simp only [goodFields, Bool.and_eq_true, decide_eq_true_eq] at this
      exact this.2
    simp only [decodeF, Encodes]
    constructor
    · intro h
      cases hr : readRaws bs with
      | none => simp [hr] at h
      | some fs =>
        have hF := readRaws_iff.mp hr
        simp only [hr] at h
        exact ⟨fs, hF, (putRaws_iff ih (isFields_wide hF) hd).mp h⟩
    · rintro ⟨fs, hF, h⟩
      rw [readRaws_iff.mpr hF]
      exact (putRaws_iff ih (isFields_wide hF) hd).mpr h

theorem parse_iff (S : Schema) (hS : goodSchema S) (t : MsgTy) (bs : Bytes) (m : Msg) :
    parseFromBytes S t bs = some m ↔ Encodes S maxDepth t bs m ∧ HasRequired S t m := by
  rw [← hasRequired_iff]
  unfold parseFromBytes
  rw [← decodeF_iff hS]
  cases hd : decodeF S maxDepth t bs with
  | none => simp
  | some m' =>
    simp only [Option.some.injEq]
    constructor
    · intro h
      split at h
      · rename_i hi; cases h; exact ⟨rfl, hi⟩
      · cases h
    · rintro ⟨rfl, hi⟩; rw [if_pos hi]

end Neutron.Proto.Format
