import Verif.Model.Crc

/-! # CRC-32C: test vectors, linearity and burst detection -/

namespace Neutron.Crc

/-- RFC 3720 / the standard check value: CRC-32C("123456789") = 0xE3069283. -/
example : crc32c [0x31, 0x32, 0x33, 0x34, 0x35, 0x36, 0x37, 0x38, 0x39] = 0xE3069283 := by decide +kernel

/-- RFC 3720 B.4: 32 bytes of zeroes give 0x8A9136AA. -/
example : crc32c (List.replicate 32 0) = 0x8A9136AA := by decide +kernel

theorem bit_xor (a b : BitVec 32) : bit (a ^^^ b) = bit a ^^^ bit b := by
  unfold bit
  rw [BitVec.getLsbD_xor]
  have hs : (a ^^^ b) >>> 1 = (a >>> 1) ^^^ (b >>> 1) := by
    ext i hi; simp
  rw [hs]
  cases a.getLsbD 0 <;> cases b.getLsbD 0 <;> simp
  · rw [BitVec.xor_assoc]
  · rw [BitVec.xor_assoc, BitVec.xor_assoc, BitVec.xor_comm poly]
  · ext i hi
    simp
    cases a.getLsbD (1 + i) <;> cases b.getLsbD (1 + i) <;> cases poly[i] <;> rfl

/-- Undoing one bit of division. -/
def unbit (t : BitVec 32) : BitVec 32 := if t.getLsbD 31 then ((t ^^^ poly) <<< 1) ||| 1#32 else t <<< 1

theorem poly_msb : poly.getLsbD 31 = true := by decide

theorem unbit_bit (s : BitVec 32) : unbit (bit s) = s := by
  unfold bit
  cases h : s.getLsbD 0
  · simp only [Bool.false_eq_true, if_false]
    unfold unbit
    rw [if_neg (by simp)]
    ext i hi
    by_cases h0 : i = 0
    · subst h0; simp [BitVec.getLsbD_eq_getElem] at h ⊢; simp [h]
    · simp [h0]
      rw [show 1 + (i - 1) = i by omega, BitVec.getLsbD_eq_getElem]
  · simp only [if_true]
    unfold unbit
    rw [if_pos (by rw [BitVec.getLsbD_xor, poly_msb]; simp)]
    ext i hi
    by_cases h0 : i = 0
    · subst h0; simp [BitVec.getLsbD_eq_getElem] at h ⊢; simp [h]
    · simp [h0]
      rw [show 1 + (i - 1) = i by omega, BitVec.getLsbD_eq_getElem]

theorem bit_inj {a b : BitVec 32} (h : bit a = bit b) : a = b := by
  rw [← unbit_bit a, h, unbit_bit]

theorem bits8_inj {a b : BitVec 32} (h : bits8 a = bits8 b) : a = b := by
  unfold bits8 at h
  exact bit_inj (bit_inj (bit_inj (bit_inj (bit_inj (bit_inj (bit_inj (bit_inj h)))))))

theorem bits8_xor (a b : BitVec 32) : bits8 (a ^^^ b) = bits8 a ^^^ bits8 b := by
  simp [bits8, bit_xor]

theorem xor_right_inj {a b c : BitVec 32} (h : a ^^^ c = b ^^^ c) : a = b := by
  have := congrArg (· ^^^ c) h
  simpa [BitVec.xor_assoc] using this

theorem step_state_inj {a b : BitVec 32} {x : UInt8} (h : step a x = step b x) : a = b :=
  xor_right_inj (bits8_inj h)

theorem run_append (s : BitVec 32) (a b : Bytes) : run s (a ++ b) = run (run s a) b := by
  simp [run, List.foldl_append]

theorem run_state_inj {a b : BitVec 32} {bs : Bytes} (h : run a bs = run b bs) : a = b := by
  induction bs generalizing a b with
  | nil => simpa [run] using h
  | cons x bs ih => exact step_state_inj (ih h)

/-- Eight bits of division just shift when the low eight bits are zero. -/
theorem bits8_shift' (x : BitVec 32) (h : ∀ i, i < 8 → x.getLsbD i = false) : bits8 x = x >>> 8 := by
  have hb : ∀ (y : BitVec 32), y.getLsbD 0 = false → bit y = y >>> 1 := by
    intro y hy; unfold bit; rw [hy]; simp
  unfold bits8
  have key : ∀ k, k < 8 → bit (x >>> k) = x >>> (k + 1) := by
    intro k hk
    rw [hb (x >>> k) (by simp [h k hk]), ← BitVec.shiftRight_add]
  have h0 : bit x = x >>> 1 := by simpa using key 0 (by omega)
  rw [h0, key 1 (by omega), key 2 (by omega), key 3 (by omega), key 4 (by omega), key 5 (by omega), key 6 (by omega),
    key 7 (by omega)]

/-- The little-endian word of up to four bytes, as it is xored into the register. -/
def word : Bytes → BitVec 32
  | [] => 0#32
  | b :: bs => b.toBitVec.zeroExtend 32 ^^^ (word bs <<< 8)

/-- `n` bytes worth of division. -/
def divs : Nat → BitVec 32 → BitVec 32
  | 0, s => s
  | n + 1, s => divs n (bits8 s)

theorem divs_inj {n : Nat} {a b : BitVec 32} (h : divs n a = divs n b) : a = b := by
  induction n generalizing a b with
  | zero => exact h
  | succ n ih => exact bits8_inj (ih h)

/-- The top `32 - 8 k` bits of a word of at most `4 - k` bytes survive being shifted. -/
theorem word_lt (bs : Bytes) (k : Nat) (h : bs.length ≤ k) (i : Nat) (hi : 8 * k ≤ i) : (word bs).getLsbD i = false := by
  induction bs generalizing k i with
  | nil => simp [word]
  | cons b bs ih =>
    cases k with
    | zero => simp at h
    | succ k =>
      simp only [List.length_cons] at h
      simp only [word, BitVec.getLsbD_xor, BitVec.getLsbD_shiftLeft]
      rw [ih k (by omega) (i - 8) (by omega)]
      simp
      intro _
      exact BitVec.getLsbD_of_ge _ _ (by omega)

theorem bits8_word_shift (bs : Bytes) (h : bs.length ≤ 3) : bits8 (word bs <<< 8) = word bs := by
  rw [bits8_shift' _ (by intro i hi; simp; omega)]
  ext i hi
  simp
  by_cases h24 : i < 24
  · simp [show 8 + i < 32 by omega, BitVec.getLsbD_eq_getElem hi]
  · have := word_lt bs 3 h i (by omega)
    rw [BitVec.getLsbD_eq_getElem hi] at this
    simp [this]; omega

theorem run_word (s : BitVec 32) (bs : Bytes) (h : bs.length ≤ 4) : run s bs = divs bs.length (s ^^^ word bs) := by
  induction bs generalizing s with
  | nil => simp [run, divs, word]
  | cons b bs ih =>
    simp only [List.length_cons] at h
    have : run s (b :: bs) = run (step s b) bs := rfl
    rw [this, ih _ (by omega)]
    simp only [List.length_cons, divs]
    congr 1
    unfold step
    rw [word, bits8_xor, bits8_xor, bits8_xor, bits8_word_shift bs (by omega), BitVec.xor_assoc]

theorem word_inj {a b : Bytes} (hl : a.length = b.length) (h4 : a.length ≤ 4) (h : word a = word b) : a = b := by
  induction a generalizing b with
  | nil => cases b with
    | nil => rfl
    | cons _ _ => simp at hl
  | cons x a ih => cases b with
    | nil => simp at hl
    | cons y b =>
      simp only [List.length_cons, Nat.add_right_cancel_iff] at hl
      simp only [List.length_cons] at h4
      simp only [word] at h
      have hxy : x = y := by
        apply UInt8.toBitVec_inj.mp
        ext i hi
        have := congrArg (fun w : BitVec 32 => w.getLsbD i) h
        simp [hi, show i < 32 by omega] at this
        simpa using this
      subst hxy
      have hw : word a = word b := by
        have h2 : word a <<< 8 = word b <<< 8 := by
          have h3 : word a <<< 8 ^^^ x.toBitVec.zeroExtend 32 = word b <<< 8 ^^^ x.toBitVec.zeroExtend 32 := by
            rw [BitVec.xor_comm, h, BitVec.xor_comm]
          exact xor_right_inj h3
        ext i hi
        by_cases h24 : i < 24
        · have := congrArg (fun w : BitVec 32 => w.getLsbD (i + 8)) h2
          simp [show i + 8 < 32 by omega, show ¬ i + 8 < 8 by omega] at this
          exact this
        · have ha := word_lt a 3 (by omega) i (by omega)
          have hb := word_lt b 3 (by omega) i (by omega)
          rw [BitVec.getLsbD_eq_getElem hi] at ha hb
          rw [ha, hb]
      rw [ih hl (by omega) hw]

/-- Replacing at most four consecutive bytes by different ones changes the checksum. -/
theorem crc_burst (pre a b post : Bytes) (hl : a.length = b.length) (h4 : a.length ≤ 4) (hne : a ≠ b) :
    crc32c (pre ++ a ++ post) ≠ crc32c (pre ++ b ++ post) := by
  intro h
  unfold crc32c at h
  have h1 := xor_right_inj (BitVec.eq_of_toNat_eq h)
  rw [run_append, run_append, run_append, run_append] at h1
  have h2 := run_state_inj h1
  rw [run_word _ a h4, run_word _ b (hl ▸ h4), hl] at h2
  have h3 := divs_inj h2
  rw [BitVec.xor_comm, BitVec.xor_comm _ (word b)] at h3
  exact hne (word_inj hl h4 (xor_right_inj h3))

theorem crc32c_lt (bs : Bytes) : crc32c bs < 4294967296 := BitVec.isLt _

end Neutron.Crc
