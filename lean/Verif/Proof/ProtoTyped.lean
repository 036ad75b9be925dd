import Verif.Proof.ProtoWire

/-! # Whatever the protobuf parser returns is a value the generated Rust types can hold -/

namespace Neutron.Proto

def Raw.inRange : Raw → Prop
  | .varint n => n < 18446744073709551616
  | .fixed64 n => n < 18446744073709551616
  | _ => True

theorem readVarint_lt {bs : Bytes} {v : Nat} {r : Bytes} (h : readVarint bs = some (v, r)) : v < 18446744073709551616 := by
  unfold readVarint at h
  split at h
  · simp only [Option.some.injEq, Prod.mk.injEq] at h; omega
  · simp at h

theorem readLe64_lt {bs : Bytes} {v : Nat} {r : Bytes} (h : readLe64 bs = some (v, r)) : v < 18446744073709551616 := by
  unfold readLe64 at h
  split at h
  · rename_i a b c d e f g i rest
    simp only [Option.some.injEq, Prod.mk.injEq] at h
    have := a.toNat_lt; have := b.toNat_lt; have := c.toNat_lt; have := d.toNat_lt
    have := e.toNat_lt; have := f.toNat_lt; have := g.toNat_lt; have := i.toNat_lt
    omega
  · simp at h

theorem readBody_inRange {wt : Nat} {bs : Bytes} {raw : Raw} {r : Bytes} (h : readBody wt bs = some (raw, r)) :
    raw.inRange := by
  unfold readBody at h
  split at h
  · cases hv : readVarint bs with
    | none => simp [hv] at h
    | some x =>
      obtain ⟨v, r'⟩ := x
      simp [hv] at h
      rw [← h.1]; exact readVarint_lt hv
  · split at h
    · cases hv : readLe64 bs with
      | none => simp [hv] at h
      | some x =>
        obtain ⟨v, r'⟩ := x
        simp [hv] at h
        rw [← h.1]; exact readLe64_lt hv
    · split at h
      · split at h
        · split at h
          · simp at h; rw [← h.1]; trivial
          · simp at h
        · simp at h
      · split at h
        · cases hv : readLe32 bs with
          | none => simp [hv] at h
          | some x =>
            obtain ⟨v, r'⟩ := x
            simp [hv] at h
            rw [← h.1]; trivial
        · simp at h

theorem readRawsF_inRange (k : Nat) : ∀ (bs : Bytes) (rs : List (Nat × Raw)), readRawsF k bs = some rs →
    ∀ f ∈ rs, f.2.inRange := by
  induction k with
  | zero =>
    intro bs rs h
    cases bs with
    | nil => simp [readRawsF] at h; subst h; simp
    | cons b bs => simp [readRawsF] at h
  | succ k ih =>
    intro bs rs h
    cases bs with
    | nil => simp [readRawsF] at h; subst h; simp
    | cons b bs =>
      simp only [readRawsF] at h
      split at h
      · rename_i f r hr
        cases hk : readRawsF k r with
        | none => simp [hk] at h
        | some rs' =>
          simp only [hk, Option.map_some, Option.some.injEq] at h
          subst h
          intro g hg
          rcases List.mem_cons.mp hg with h | h
          · subst h
            unfold readRaw at hr
            split at hr
            · split at hr
              · split at hr
                · rename_i hb
                  simp only [Option.some.injEq, Prod.mk.injEq] at hr
                  rw [← hr.1]
                  exact readBody_inRange hb
                · simp at hr
              · simp at hr
            · simp at hr
          · exact ih r rs' hk g h
      · simp at h

theorem readPackedF_lt (k : Nat) : ∀ (bs : Bytes) (vs : List Nat), readPackedF k bs = some vs →
    ∀ v ∈ vs, v < 18446744073709551616 := by
  induction k with
  | zero =>
    intro bs vs h
    cases bs with
    | nil => simp [readPackedF] at h; subst h; simp
    | cons b bs => simp [readPackedF] at h
  | succ k ih =>
    intro bs vs h
    cases bs with
    | nil => simp [readPackedF] at h; subst h; simp
    | cons b bs =>
      simp only [readPackedF] at h
      split at h
      · rename_i v r hr
        cases hk : readPackedF k r with
        | none => simp [hk] at h
        | some vs' =>
          simp only [hk, Option.map_some, Option.some.injEq] at h
          subst h
          intro g hg
          rcases List.mem_cons.mp hg with h | h
          · subst h; exact readVarint_lt hr
          · exact ih r vs' hk g h
      · simp at h

theorem ofVarint_wt (sub : MsgTy → Msg → Bool) (k : Kind) (v : Nat) (hv : v < 18446744073709551616) (x : Val)
    (h : ofVarint k v = some x) : wtVal sub k x = true := by
  cases k <;> simp only [ofVarint, Option.some.injEq, reduceCtorEq] at h <;> subst h <;> simp only [wtVal, decide_eq_true_eq]
  · omega
  · unfold signed64; split <;> omega
  · unfold signed32; dsimp only; split <;> omega
  · omega
  · split <;> simp
  · unfold signed32; dsimp only; split <;> omega

theorem interp_wt (sub : MsgTy → Bytes → Option Msg) (wt : MsgTy → Msg → Bool)
    (hsub : ∀ t b m, sub t b = some m → wt t m = true) (d : FieldDesc) (raw : Raw) (hr : raw.inRange) (ws : List Val)
    (h : interp sub d raw = .vals ws) : (d.label = .repeated ∨ ws.length ≤ 1) ∧ ws.all (wtVal wt d.kind) = true := by
  cases raw with
  | varint v =>
    simp only [interp] at h
    split at h
    · rename_i x hx
      cases h
      exact ⟨Or.inr (by simp), by simp [ofVarint_wt wt d.kind v hr x hx]⟩
    · simp at h
  | fixed64 n =>
    simp only [interp] at h
    split at h
    · rename_i hk; cases h; exact ⟨Or.inr (by simp), by simpa [hk, wtVal, Raw.inRange] using hr⟩
    · simp at h
  | fixed32 n => simp [interp] at h
  | len b =>
    simp only [interp] at h
    split at h
    · rename_i hk
      cases hu : utf8? b with
      | none => simp [hu, Conv.ofOption] at h
      | some s => simp [hu, Conv.ofOption] at h; subst h; exact ⟨Or.inr (by simp), by simp [hk, wtVal]⟩
    · rename_i hk; cases h; exact ⟨Or.inr (by simp), by simp [hk, wtVal]⟩
    · rename_i t hk
      cases hu : sub t b with
      | none => simp [hu, Conv.ofOption] at h
      | some s => simp [hu, Conv.ofOption] at h; subst h; exact ⟨Or.inr (by simp), by simp [hk, wtVal, hsub t b s hu]⟩
    · simp at h
    · split at h
      · rename_i hl
        split at h
        · rename_i vs hvs
          cases h
          refine ⟨Or.inl hl, ?_⟩
          rw [List.all_eq_true]
          intro x hx
          rw [List.mem_filterMap] at hx
          obtain ⟨v, hv, hx⟩ := hx
          exact ofVarint_wt wt _ v (readPackedF_lt _ _ _ hvs v hv) x hx
        · simp at h
      · simp at h

theorem putRaw_wt (sub : MsgTy → Bytes → Option Msg) (wt : MsgTy → Msg → Bool)
    (hsub : ∀ t b m, sub t b = some m → wt t m = true) (ds : List FieldDesc) : ∀ (m m' : Msg) (f : Nat × Raw),
    f.2.inRange → wtFields wt ds m = true → putRaw sub ds m f = some m' → wtFields wt ds m' = true := by
  induction ds with
  | nil => intro m m' f _ hm h; cases m <;> simp [putRaw] at h <;> subst h <;> exact hm
  | cons d ds ih =>
    intro m m' f hf hm h
    cases m with
    | nil => simp [wtFields] at hm
    | cons vs m =>
      obtain ⟨n, r⟩ := f
      simp only [wtFields, Bool.and_eq_true] at hm
      simp only [putRaw] at h
      split at h
      · split at h
        · cases h; simp [wtFields, hm]
        · simp at h
        · rename_i ws hi
          cases h
          obtain ⟨h1, h2⟩ := interp_wt sub wt hsub d r hf ws hi
          have hv := hm.1
          simp only [wtField, Bool.and_eq_true, Bool.or_eq_true, decide_eq_true_eq] at hv
          simp only [wtFields, hm.2, Bool.and_true, wtField, Bool.and_eq_true, Bool.or_eq_true, decide_eq_true_eq]
          split
          · rename_i hl; exact ⟨Or.inl hl, by simp [List.all_append, hv.2, h2]⟩
          · exact ⟨h1, h2⟩
      · cases hp : putRaw sub ds m (n, r) with
        | none => simp [hp] at h
        | some m2 =>
          simp only [hp, Option.map_some, Option.some.injEq] at h
          subst h
          simp [wtFields, hm.1, ih m m2 (n, r) hf hm.2 hp]

theorem putRaws_wt (sub : MsgTy → Bytes → Option Msg) (wt : MsgTy → Msg → Bool)
    (hsub : ∀ t b m, sub t b = some m → wt t m = true) (ds : List FieldDesc) (rs : List (Nat × Raw)) : ∀ (m m' : Msg),
    (∀ f ∈ rs, f.2.inRange) → wtFields wt ds m = true → putRaws sub ds m rs = some m' → wtFields wt ds m' = true := by
  induction rs with
  | nil => intro m m' _ hm h; simp [putRaws] at h; subst h; exact hm
  | cons f rs ih =>
    intro m m' hf hm h
    simp only [putRaws] at h
    split at h
    · rename_i m2 h2
      exact ih m2 m' (fun g hg => hf g (List.mem_cons_of_mem _ hg)) (putRaw_wt sub wt hsub ds m m2 f (hf f (by simp)) hm h2) h
    · simp at h

theorem wtFields_new (wt : MsgTy → Msg → Bool) (ds : List FieldDesc) : wtFields wt ds (ds.map fun _ => []) = true := by
  induction ds with
  | nil => rfl
  | cons d ds ih => simp [wtFields, wtField, ih]

theorem decodeF_wt (S : Schema) (k : Nat) : ∀ (t : MsgTy) (bs : Bytes) (m : Msg), decodeF S k t bs = some m →
    wellTyped S k t m = true := by
  induction k with
  | zero => intro t bs m h; simp [decodeF] at h
  | succ k ih =>
    intro t bs m h
    simp only [decodeF] at h
    split at h
    · rename_i rs hrs
      exact putRaws_wt (decodeF S k) (wellTyped S k) ih (S t) rs _ m (readRawsF_inRange _ _ _ hrs) (wtFields_new _ _) h
    · simp at h

/-- Parsed messages are well typed and have their required fields. -/
theorem parse_wt (S : Schema) (t : MsgTy) (bs : Bytes) (m : Msg) (h : parseFromBytes S t bs = some m) :
    wellTyped S maxDepth t m = true ∧ initMsg S (S t) m = true := by
  unfold parseFromBytes at h
  split at h
  · rename_i m' hd
    split at h
    · rename_i hi
      cases h
      exact ⟨decodeF_wt S maxDepth t bs m hd, hi⟩
    · simp at h
  · simp at h

end Neutron.Proto
