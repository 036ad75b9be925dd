import Verif.Proof.Codec

/-! # The codec outside its comfortable range: oversized frames, malformed frames -/

namespace Neutron.Codec

open Proto Frame

theorem addU32_release (a b : Nat) : addU32 false a b = .ok ((a + b) % 4294967296) := by
  unfold addU32
  split
  · rw [Nat.mod_eq_of_lt (by assumption)]
  · simp

theorem subU32_release (a b : Nat) (_ha : a < 4294967296) (_hb : b ≤ 4294967296) :
    ∃ d, subU32 false a b = .ok d ∧ d % 4294967296 = (a + 4294967296 - b) % 4294967296 := by
  unfold subU32
  split
  · exact ⟨_, rfl, by omega⟩
  · exact ⟨_, by simp, rfl⟩

theorem be32_congr {a b : Nat} (h : a % 4294967296 = b % 4294967296) : be32 a = be32 b := by
  rw [← be32_mod a, ← be32_mod b, h]

/-- Without overflow checks the encoder always writes the layout, with every size field reduced modulo 2^32. -/
theorem encode_release (item : MessageCommand) (cmd : Bytes) (pl : Option (Bytes × Bytes))
    (hs : Serialises item cmd pl) : encode false item = .ok (layout cmd pl) := by
  obtain ⟨command, payload⟩ := item
  obtain ⟨hc, hp⟩ := hs
  simp only at hc hp
  unfold encode
  simp only [hc, Outcome.unwrap_some, Outcome.bind_ok, write_length hc]
  cases payload with
  | none =>
    cases pl with
    | some x => simp at hp
    | none =>
      simp only [Option.isSome_none, Bool.false_eq_true, if_false, addU32_release, Outcome.bind_ok]
      obtain ⟨d, hd, hd'⟩ := subU32_release ((((asU32 cmd.length + 0) % 4294967296 + 0) % 4294967296 + 8) % 4294967296) 4
        (by omega) (by omega)
      rw [hd]
      simp only [Outcome.bind_ok, Outcome.pure_eq, layout]
      have h1 : be32 d = be32 (4 + cmd.length) := be32_congr (by unfold asU32 at hd'; omega)
      have h2 : be32 (asU32 cmd.length) = be32 cmd.length := be32_mod _
      rw [h1, h2]
  | some p =>
    cases pl with
    | none => simp at hp
    | some x =>
      obtain ⟨md, data⟩ := x
      simp only at hp
      obtain ⟨hm, rfl⟩ := hp
      simp only [Option.isSome_some, if_true, write_length hm, addU32_release, Outcome.bind_ok]
      obtain ⟨d, hd, hd'⟩ := subU32_release ((((asU32 cmd.length + asU32 md.length) % 4294967296 + asU32 p.data.length)
        % 4294967296 + 18) % 4294967296) 4 (by omega) (by omega)
      rw [hd]
      simp only [Outcome.bind_ok, encodePayload_eq p md hm, Outcome.pure_eq, layout]
      have h1 : be32 d = be32 (4 + cmd.length + 2 + 4 + (4 + md.length + p.data.length)) :=
        be32_congr (by unfold asU32 at hd'; omega)
      have h2 : be32 (asU32 cmd.length) = be32 cmd.length := be32_mod _
      rw [h1, h2]
      simp

theorem addU32_or (a b : Nat) : addU32 true a b = .panic ∨ addU32 true a b = addU32 false a b := by
  unfold addU32; split <;> simp

theorem subU32_or (a b : Nat) : subU32 true a b = .panic ∨ subU32 true a b = subU32 false a b := by
  unfold subU32; split <;> simp

theorem bind_or {α β : Type} {x y : Outcome α} {f g : α → Outcome β} (h : x = .panic ∨ x = y)
    (hf : ∀ a, f a = .panic ∨ f a = g a) : (x >>= f) = .panic ∨ (x >>= f) = (y >>= g) := by
  rcases h with rfl | rfl
  · exact Or.inl rfl
  · cases x with
    | ok a => exact hf a
    | err e => exact Or.inr rfl
    | panic => exact Or.inr rfl

/-- With overflow checks the encoder writes the same bytes or panics. -/
theorem encode_debug (item : MessageCommand) (cmd : Bytes) (pl : Option (Bytes × Bytes))
    (hs : Serialises item cmd pl) : encode true item = .panic ∨ encode true item = .ok (layout cmd pl) := by
  rw [← encode_release item cmd pl hs]
  obtain ⟨hc, -⟩ := hs
  unfold encode
  simp only [hc, Outcome.unwrap_some, Outcome.bind_ok]
  exact bind_or (addU32_or _ _) fun _ => bind_or (addU32_or _ _) fun _ => bind_or (addU32_or _ _) fun _ =>
    bind_or (subU32_or _ _) fun _ => Or.inr rfl

theorem takeN_none {n : Nat} {bs : Bytes} : takeN n bs = none ↔ bs.length < n := by
  unfold takeN; split <;> simp <;> omega

theorem takeN_le {n : Nat} {bs : Bytes} (h : n ≤ bs.length) : takeN n bs = some (bs.take n, bs.drop n) := by
  unfold takeN; rw [if_pos h]

theorem readBe32_append {n : Nat} {src r : Bytes} (h : readBe32 src = some (n, r)) :
    ∃ a b c d, src = a :: b :: c :: d :: r ∧ ∀ t, readBe32 (a :: b :: c :: d :: t) = some (n, t) := by
  match src, h with
  | a :: b :: c :: d :: t, h =>
    simp only [readBe32, Option.some.injEq, Prod.mk.injEq] at h
    refine ⟨a, b, c, d, by rw [h.2], fun t => ?_⟩
    simp only [readBe32, h.1]

theorem unwrap_bind_panic {α β : Type} {o : Option α} {f : α → Outcome β} :
    (Outcome.unwrap o >>= f) = .panic ↔ o = none ∨ ∃ a, o = some a ∧ f a = .panic := by
  cases o with
  | none => simp
  | some a => simp

theorem bind_pure_panic {α β : Type} {o : Outcome α} {f : α → β} : (o >>= fun a => pure (f a)) = .panic ↔ o = .panic := by
  cases o <;> simp

theorem payloadFrame_some {bytes : Bytes} {rest : Bytes} {p : PayloadFrame} :
    payloadFrame bytes = some (rest, p) ↔ ∃ m b1 c b2 s b3 md, readBe16 bytes = some (m, b1) ∧ readBe32 b1 = some (c, b2) ∧
      readBe32 b2 = some (s, b3) ∧ takeN s b3 = some (md, rest) ∧ p = ⟨m, c, s, md⟩ := by
  unfold payloadFrame
  simp only [Option.bind_eq_bind, Option.bind_eq_some_iff, Prod.exists, Option.pure_def, Option.some.injEq, Prod.mk.injEq]
  constructor
  · rintro ⟨m, b1, h1, c, b2, h2, s, b3, h3, md, r, h4, rfl, rfl⟩
    exact ⟨m, b1, c, b2, s, b3, md, h1, h2, h3, h4, rfl⟩
  · rintro ⟨m, b1, c, b2, s, b3, md, h1, h2, h3, h4, rfl⟩
    exact ⟨m, b1, h1, c, b2, h2, s, b3, h3, md, rest, h4, rfl, rfl⟩

/-- What is wrong with the contents (everything after the total size) of a complete frame: no room for the command size; the
command size points past the end; the command is not valid protobuf; or a payload section is present (magic, checksum,
metadata size, that many bytes) whose metadata is not valid protobuf. -/
def Malformed (body : Bytes) : Prop :=
  body.length < 4 ∨
  ∃ cmdSize rest, readBe32 body = some (cmdSize, rest) ∧
    (rest.length < cmdSize ∨
     parseFromBytes pulsar .baseCommand (rest.take cmdSize) = none ∨
     ∃ magic b1 checksum b2 mdSize b3 md data, readBe16 (rest.drop cmdSize) = some (magic, b1) ∧
       readBe32 b1 = some (checksum, b2) ∧ readBe32 b2 = some (mdSize, b3) ∧ takeN mdSize b3 = some (md, data) ∧
       parseFromBytes pulsar .messageMetadata md = none)

theorem decodeFrame_panic (a b c d : UInt8) (body : Bytes) :
    decodeFrame (a :: b :: c :: d :: body) = .panic ↔ Malformed body := by
  unfold decodeFrame commandFrame
  have h0 : readBe32 (a :: b :: c :: d :: body) = some (_, body) := rfl
  rw [h0]
  simp only [Outcome.unwrap_some, Outcome.bind_ok]
  unfold Malformed
  cases hr : readBe32 body with
  | none => simp [readBe32_none.mp hr]
  | some x =>
    obtain ⟨n, rest⟩ := x
    have h4 : ¬ body.length < 4 := by
      intro h; rw [readBe32_none.mpr h] at hr; simp at hr
    simp only [Outcome.unwrap_some, Outcome.bind_ok, h4, false_or, Option.some.injEq, Prod.mk.injEq]
    by_cases hlen : n ≤ rest.length
    · rw [takeN_le hlen]
      simp only [Outcome.unwrap_some, Outcome.bind_ok, Outcome.pure_eq]
      rw [unwrap_bind_panic]
      constructor
      · rintro (h | ⟨m, hm, h⟩)
        · exact ⟨n, rest, ⟨rfl, rfl⟩, Or.inr (Or.inl h)⟩
        · refine ⟨n, rest, ⟨rfl, rfl⟩, Or.inr (Or.inr ?_)⟩
          by_cases he : (rest.drop n).isEmpty = true
          · simp [he] at h
          · simp only [he, Bool.false_eq_true, if_false] at h
            cases hpf : payloadFrame (rest.drop n) with
            | none => simp [hpf] at h
            | some y =>
              obtain ⟨r2, p⟩ := y
              simp only [hpf] at h
              rw [unwrap_bind_panic] at h
              rcases h with h | ⟨a, _, h⟩
              · obtain ⟨mg, b1, c, b2, s, b3, md, h1, h2, h3, h4, rfl⟩ := payloadFrame_some.mp hpf
                exact ⟨mg, b1, c, b2, s, b3, md, r2, h1, h2, h3, h4, h⟩
              · simp at h
      · rintro ⟨n', rest', ⟨rfl, rfl⟩, h | h | ⟨mg, b1, c, b2, s, b3, md, r2, h1, h2, h3, h4, h5⟩⟩
        · omega
        · exact Or.inl h
        · cases hm : parseFromBytes pulsar .baseCommand (rest.take n) with
          | none => exact Or.inl rfl
          | some m =>
            refine Or.inr ⟨m, rfl, ?_⟩
            have hne : (rest.drop n).isEmpty = false := by
              cases hd : rest.drop n with
              | nil => rw [hd] at h1; simp [readBe16] at h1
              | cons _ _ => rfl
            have hpf := payloadFrame_some.mpr ⟨mg, b1, c, b2, s, b3, md, h1, h2, h3, h4, rfl⟩
            simp only [hne, hpf, Bool.false_eq_true, if_false]
            rw [unwrap_bind_panic]
            exact Or.inl h5
    · have : takeN n rest = none := takeN_none.mpr (by omega)
      rw [this]
      simp only [Outcome.unwrap_none, Outcome.bind_panic, true_iff]
      exact ⟨n, rest, ⟨rfl, rfl⟩, Or.inl (by omega)⟩

/-- Exactly when decoding panics. -/
theorem decode_panic_iff (src : Bytes) :
    decode src = .panic ↔ ∃ n r, readBe32 src = some (n, r) ∧ n ≤ r.length ∧ Malformed (r.take n) := by
  unfold decode
  cases hr : readBe32 src with
  | none => simp
  | some x =>
    obtain ⟨n, r⟩ := x
    obtain ⟨a, b, c, d, rfl, hread⟩ := readBe32_append hr
    simp only [Option.some.injEq, Prod.mk.injEq, List.length_cons, List.take_succ_cons, List.drop_succ_cons]
    by_cases hle : n + 4 ≤ r.length + 1 + 1 + 1 + 1
    · rw [if_pos hle]
      rw [show (fun message => (pure (some (message, List.drop n r)) : Outcome _)) =
        fun message => pure ((fun m => some (m, List.drop n r)) message) from rfl, bind_pure_panic, decodeFrame_panic]
      constructor
      · intro h; exact ⟨n, r, ⟨rfl, rfl⟩, by omega, h⟩
      · rintro ⟨n', r', ⟨rfl, rfl⟩, -, h⟩; exact h
    · rw [if_neg hle]
      simp only [reduceCtorEq, false_iff]
      rintro ⟨n', r', ⟨rfl, rfl⟩, h, -⟩
      omega

theorem unwrap_ne_err {α : Type} (o : Option α) (e : NeutronError) : Outcome.unwrap o ≠ .err e := by cases o <;> simp

theorem bind_ne_err {α β : Type} {x : Outcome α} {f : α → Outcome β} (hx : ∀ e, x ≠ .err e) (hf : ∀ a e, f a ≠ .err e) :
    ∀ e, (x >>= f) ≠ .err e := by
  intro e
  cases x with
  | ok a => exact hf a e
  | err e' => exact absurd rfl (hx e')
  | panic => simp

theorem decode_no_err (src : Bytes) (e : NeutronError) : decode src ≠ .err e := by
  unfold decode
  split
  · simp
  · dsimp only
    split
    · refine bind_ne_err ?_ (by simp) e
      unfold decodeFrame commandFrame
      refine bind_ne_err ?_ fun a => ?_
      · exact bind_ne_err (unwrap_ne_err _) fun _ => bind_ne_err (unwrap_ne_err _) fun _ =>
          bind_ne_err (unwrap_ne_err _) fun _ => by simp
      · dsimp only
        refine bind_ne_err (unwrap_ne_err _) fun _ => ?_
        split
        · simp
        · exact bind_ne_err (unwrap_ne_err _) (by simp)
    · simp

end Neutron.Codec
