import Verif.Proof.CodecEdge
import Verif.Proof.Framed

/-! # Readable frames -/

namespace Neutron.Framed

open Frame Proto

theorem readBe32_iff {src r : Bytes} {n : Nat} : readBe32 src = some (n, r) ↔ src = be32 n ++ r ∧ n < 4294967296 := by
  constructor
  · intro h
    match src, h with
    | a :: b :: c :: d :: t, h =>
      simp only [readBe32, Option.some.injEq, Prod.mk.injEq] at h
      have := a.toNat_lt; have := b.toNat_lt; have := c.toNat_lt; have := d.toNat_lt
      refine ⟨?_, by omega⟩
      obtain ⟨h1, rfl⟩ := h
      unfold be32
      rw [← h1]
      simp only [List.cons_append, List.nil_append, List.cons.injEq, and_true]
      refine ⟨?_, ?_, ?_, ?_⟩ <;> apply UInt8.toNat_inj.mp <;> simp <;> omega
  · rintro ⟨rfl, h⟩
    exact readBe32_be32 _ _ h

theorem readBe16_iff {src r : Bytes} : (∃ n, readBe16 src = some (n, r)) ↔ ∃ b : Bytes, b.length = 2 ∧ src = b ++ r := by
  constructor
  · rintro ⟨n, h⟩
    match src, h with
    | a :: b :: t, h =>
      simp only [readBe16, Option.some.injEq, Prod.mk.injEq] at h
      exact ⟨[a, b], rfl, by rw [← h.2]; rfl⟩
  · rintro ⟨b, h, rfl⟩
    match b, h with
    | [a, b], _ => exact ⟨_, rfl⟩

theorem readBe32_any {src r : Bytes} : (∃ n, readBe32 src = some (n, r)) ↔ ∃ b : Bytes, b.length = 4 ∧ src = b ++ r := by
  constructor
  · rintro ⟨n, h⟩
    exact ⟨be32 n, be32_length n, (readBe32_iff.mp h).1⟩
  · rintro ⟨b, h, rfl⟩
    match b, h with
    | [a, b, c, d], _ => exact ⟨_, rfl⟩

theorem takeN_iff {n : Nat} {src a b : Bytes} : takeN n src = some (a, b) ↔ src = a ++ b ∧ a.length = n := by
  constructor
  · intro h
    unfold takeN at h
    split at h
    · cases h; simp; omega
    · cases h
  · rintro ⟨rfl, rfl⟩
    exact takeN_append _ _

theorem isMessage_iff {t : MsgTy} {bs : Bytes} : (∃ m, IsMessage t bs m) ↔ parseFromBytes pulsar t bs ≠ none := by
  constructor
  · rintro ⟨m, hm⟩; rw [hm.parse]; simp
  · intro h
    cases hp : parseFromBytes pulsar t bs with
    | none => exact absurd hp h
    | some m => exact ⟨m, isMessage_of hp⟩

/-- The decoder's idea of a malformed frame is the negation of the specification's idea of a readable one. -/
theorem malformed_iff (body : Bytes) : Codec.Malformed body ↔ ¬ Readable body := by
  constructor
  · rintro h ⟨cmd, rest, rfl, hlen, hm, hp⟩
    have hr : readBe32 (be32 cmd.length ++ cmd ++ rest) = some (cmd.length, cmd ++ rest) := by
      rw [List.append_assoc]; exact readBe32_be32 _ _ hlen
    rcases h with h | ⟨n, r, h1, h2⟩
    · simp only [List.length_append, be32_length] at h; omega
    · rw [hr] at h1
      cases h1
      rcases h2 with h2 | h2 | ⟨magic, b1, checksum, b2, mdSize, b3, md, data, e1, e2, e3, e4, e5⟩
      · simp at h2
      · rw [List.take_left] at h2
        exact isMessage_iff.mp hm h2
      · rw [List.drop_left] at e1
        obtain ⟨mb, hmb, rfl⟩ := readBe16_iff.mp ⟨_, e1⟩
        obtain ⟨cb, hcb, rfl⟩ := readBe32_any.mp ⟨_, e2⟩
        obtain ⟨rfl, hs⟩ := readBe32_iff.mp e3
        obtain ⟨rfl, rfl⟩ := takeN_iff.mp e4
        exact isMessage_iff.mp (hp mb cb md data (by simp) hmb hcb hs) e5
  · intro h
    refine Classical.byContradiction fun hn => h ?_
    unfold Codec.Malformed at hn
    simp only [not_or] at hn
    obtain ⟨hl, hn⟩ := hn
    cases hr : readBe32 body with
    | none => exact absurd (readBe32_none.mp hr) hl
    | some x =>
      obtain ⟨n, r⟩ := x
      obtain ⟨rfl, hlt⟩ := readBe32_iff.mp hr
      have h1 : ¬ r.length < n := fun h => hn ⟨n, r, hr, Or.inl h⟩
      have h2 : ¬ parseFromBytes pulsar .baseCommand (r.take n) = none := fun h => hn ⟨n, r, hr, Or.inr (Or.inl h)⟩
      have hlen : (r.take n).length = n := by simp; omega
      refine ⟨r.take n, r.drop n, ?_, by omega, isMessage_iff.mpr h2, ?_⟩
      · rw [hlen, List.append_assoc, List.take_append_drop]
      · intro magic checksum md data he hm hc hml
        refine isMessage_iff.mpr fun h3 => hn ⟨n, r, hr, Or.inr (Or.inr ?_)⟩
        obtain ⟨k, hk⟩ := readBe16_iff.mpr ⟨magic, hm, show r.drop n = magic ++ (checksum ++ (be32 md.length ++ (md ++ data))) by simpa using he⟩
        obtain ⟨c, hcc⟩ := readBe32_any.mpr ⟨checksum, hc, show checksum ++ (be32 md.length ++ (md ++ data)) = _ from rfl⟩
        exact ⟨k, _, c, _, md.length, _, md, data, hk, hcc, readBe32_be32 _ _ hml, takeN_append _ _, h3⟩

/-- Exactly when decoding panics. -/
theorem decode_panic_iff (src : Bytes) :
    Codec.decode src = .panic ↔ ∃ body rest, src = be32 body.length ++ body ++ rest ∧ body.length < 4294967296 ∧ ¬ Readable body := by
  rw [Codec.decode_panic_iff]
  constructor
  · rintro ⟨n, r, h1, h2, h3⟩
    obtain ⟨rfl, hlt⟩ := readBe32_iff.mp h1
    have hlen : (r.take n).length = n := by simp; omega
    exact ⟨r.take n, r.drop n, by rw [hlen, List.append_assoc, List.take_append_drop], by omega, (malformed_iff _).mp h3⟩
  · rintro ⟨body, rest, rfl, h1, h2⟩
    refine ⟨body.length, body ++ rest, by rw [List.append_assoc]; exact readBe32_be32 _ _ h1, by simp, ?_⟩
    rw [List.take_left]
    exact (malformed_iff _).mpr h2

end Neutron.Framed
