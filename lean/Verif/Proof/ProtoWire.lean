import Verif.Spec.Proto

/-! # Protobuf wire format: reading inverts writing -/

namespace Neutron.Proto

theorem ofNat_toNat {n : Nat} (h : n < 256) : (UInt8.ofNat n).toNat = n := by
  simp [UInt8.toNat_ofNat']; omega

/-! ## UTF-8 -/

theorem utf8_utf8 (s : String) : utf8? (utf8 s) = some s := by
  unfold utf8? utf8 String.fromUTF8?
  have : (⟨s.toByteArray.data.toList.toArray⟩ : ByteArray) = s.toByteArray := by simp
  rw [this, dif_pos s.isValidUTF8]
  rfl

/-! ## Varints -/

theorem readVarintF_varintF (k n : Nat) (rest : Bytes) (h : n < 128 ^ (k + 1)) :
    readVarintF (k + 1) (varintF k n ++ rest) = some (n, rest) := by
  induction k generalizing n with
  | zero =>
    have h' : n < 128 := by simpa using h
    have hb : (UInt8.ofNat (n % 128)).toNat = n := by rw [ofNat_toNat (by omega)]; omega
    simp only [varintF, List.cons_append, List.nil_append, readVarintF, hb, if_pos h']
  | succ k ih =>
    unfold varintF
    by_cases hn : n < 128
    · simp [hn, readVarintF, ofNat_toNat (show n < 256 by omega)]
    · simp only [hn, if_false, List.cons_append]
      unfold readVarintF
      have hb : (UInt8.ofNat (n % 128 + 128)).toNat = n % 128 + 128 := ofNat_toNat (by omega)
      have hlt : n / 128 < 128 ^ (k + 1) := by
        rw [Nat.div_lt_iff_lt_mul (by omega)]; rw [Nat.pow_succ] at h; exact h
      rw [ih _ hlt, hb, if_neg (by omega)]
      simp only [Option.some.injEq, Prod.mk.injEq, and_true]
      omega

theorem readVarint_varint (n : Nat) (rest : Bytes) (h : n < 18446744073709551616) :
    readVarint (varint n ++ rest) = some (n, rest) := by
  unfold readVarint varint
  rw [readVarintF_varintF 9 n rest (by omega)]
  simp [Nat.mod_eq_of_lt h]

theorem varintF_ne_nil (k n : Nat) : varintF k n ≠ [] := by
  cases k <;> unfold varintF
  · simp
  · split <;> simp

theorem varint_length_pos (n : Nat) : 0 < (varint n).length := by
  have := varintF_ne_nil 9 n
  unfold varint
  exact List.length_pos_iff.mpr this

/-! ## Fixed-width fields -/

theorem readLe32_le32 (n : Nat) (rest : Bytes) (h : n < 4294967296) : readLe32 (le32 n ++ rest) = some (n, rest) := by
  simp only [le32, List.cons_append, List.nil_append, readLe32, UInt8.toNat_ofNat']
  simp only [Option.some.injEq, Prod.mk.injEq, and_true]
  omega

theorem readLe64_le64 (n : Nat) (rest : Bytes) (h : n < 18446744073709551616) :
    readLe64 (le64 n ++ rest) = some (n, rest) := by
  simp only [le64, List.cons_append, List.nil_append, readLe64, UInt8.toNat_ofNat']
  simp only [Option.some.injEq, Prod.mk.injEq, and_true]
  omega

/-! ## Raw fields -/

theorem readBody_body (r : Raw) (rest : Bytes) (h : r.valid) :
    readBody r.wireType (r.body ++ rest) = some (r, rest) := by
  cases r with
  | varint n => simp only [Raw.valid] at h; simp [Raw.wireType, Raw.body, readBody, readVarint_varint n rest h]
  | fixed64 n => simp only [Raw.valid] at h; simp [Raw.wireType, Raw.body, readBody, readLe64_le64 n rest h]
  | fixed32 n => simp only [Raw.valid] at h; simp [Raw.wireType, Raw.body, readBody, readLe32_le32 n rest h]
  | len b =>
    simp only [Raw.valid] at h
    simp only [Raw.wireType, Raw.body, readBody]
    rw [List.append_assoc, readVarint_varint _ _ h]
    simp

theorem wireType_lt (r : Raw) : r.wireType < 8 := by cases r <;> simp [Raw.wireType]

theorem readRaw_encRaw (f : Nat × Raw) (rest : Bytes) (h : rawOk f) :
    readRaw (encRaw f.1 f.2 ++ rest) = some (f, rest) := by
  obtain ⟨num, r⟩ := f
  obtain ⟨h1, h2, h3⟩ := h
  simp only at h1 h2 h3
  have hw := wireType_lt r
  unfold readRaw encRaw
  simp only
  rw [List.append_assoc, readVarint_varint _ _ (by omega)]
  simp only
  rw [if_pos (by omega), show (num * 8 + r.wireType) % 8 = r.wireType by omega, readBody_body r rest h3]
  simp only [Option.some.injEq, Prod.mk.injEq, and_true]
  omega

theorem encRaw_length_pos (num : Nat) (r : Raw) : 0 < (encRaw num r).length := by
  unfold encRaw
  have := varint_length_pos (num * 8 + r.wireType)
  simp; omega

theorem encRaws_append (a b : List (Nat × Raw)) : encRaws (a ++ b) = encRaws a ++ encRaws b := by
  induction a with
  | nil => simp [encRaws]
  | cons f a ih => obtain ⟨n, r⟩ := f; simp [encRaws, ih]

theorem readRawsF_encRaws (k : Nat) (rs : List (Nat × Raw)) (hk : (encRaws rs).length ≤ k) (h : ∀ f ∈ rs, rawOk f) :
    readRawsF k (encRaws rs) = some rs := by
  induction rs generalizing k with
  | nil => cases k <;> simp [encRaws, readRawsF]
  | cons f rs ih =>
    have hpos : 0 < (encRaw f.1 f.2).length := encRaw_length_pos _ _
    have he : encRaws (f :: rs) = encRaw f.1 f.2 ++ encRaws rs := by cases f; simp [encRaws]
    have hr := readRaw_encRaw f (encRaws rs) (h f (by simp))
    rw [he] at hk ⊢
    rw [List.length_append] at hk
    cases k with
    | zero => omega
    | succ k =>
      cases hb : encRaw f.1 f.2 ++ encRaws rs with
      | nil => have := congrArg List.length hb; simp only [List.length_append, List.length_nil] at this; omega
      | cons b bs =>
        rw [hb] at hr
        simp only [readRawsF, hr]
        rw [ih k (by omega) (fun g hg => h g (List.mem_cons_of_mem _ hg))]
        simp

theorem readRaws_encRaws (rs : List (Nat × Raw)) (h : ∀ f ∈ rs, rawOk f) : readRaws (encRaws rs) = some rs :=
  readRawsF_encRaws _ _ (Nat.le_refl _) h

/-! ## The raw fields of a message -/

/-- The raw field a value is written as. -/
def rawVal (S : Schema) (d : FieldDesc) : Val → List (Nat × Raw)
  | .int n => [(d.num, .varint (toWire n))]
  | .dbl n => [(d.num, .fixed64 n)]
  | .str s => [(d.num, .len (utf8 s))]
  | .byt b => [(d.num, .len b)]
  | .msg m =>
    match d.kind with
    | .msg t => [(d.num, .len (encMsg S (S t) m))]
    | _ => []

def rawVals (S : Schema) (d : FieldDesc) (vs : List Val) : List (Nat × Raw) := vs.flatMap (rawVal S d)

def rawMsg (S : Schema) : List FieldDesc → Msg → List (Nat × Raw)
  | d :: ds, vs :: m => rawVals S d vs ++ rawMsg S ds m
  | _, _ => []

theorem encVal_eq (S : Schema) (d : FieldDesc) (v : Val) : encVal S d v = encRaws (rawVal S d v) := by
  cases v with
  | msg m => simp only [encVal, rawVal]; cases d.kind <;> simp [encRaws]
  | _ => simp [encVal, rawVal, encRaws]

theorem encVals_eq (S : Schema) (d : FieldDesc) (vs : List Val) : encVals S d vs = encRaws (rawVals S d vs) := by
  induction vs with
  | nil => simp [encVals, rawVals, encRaws]
  | cons v vs ih => rw [encVals, encVal_eq, ih, ← encRaws_append]; simp [rawVals]

theorem encMsg_eq (S : Schema) (ds : List FieldDesc) (m : Msg) : encMsg S ds m = encRaws (rawMsg S ds m) := by
  induction ds generalizing m with
  | nil => cases m <;> simp [encMsg, rawMsg, encRaws]
  | cons d ds ih =>
    cases m with
    | nil => simp [encMsg, rawMsg, encRaws]
    | cons vs m => rw [encMsg, encVals_eq, ih, ← encRaws_append]; simp [rawMsg]

theorem body_length_le {f : Nat × Raw} {rs : List (Nat × Raw)} (h : f ∈ rs) :
    f.2.body.length ≤ (encRaws rs).length := by
  induction rs with
  | nil => simp at h
  | cons g rs ih =>
    obtain ⟨n, r⟩ := g
    rcases List.mem_cons.mp h with h | h
    · subst h; simp [encRaws, encRaw]; omega
    · have := ih h; simp [encRaws]; omega

/-! ## Integer kinds -/

theorem toWire_lt (n : Int) : toWire n < 18446744073709551616 := by unfold toWire; omega

theorem signed64_toWire (n : Int) (h : -9223372036854775808 ≤ n ∧ n < 9223372036854775808) :
    signed64 (toWire n) = n := by
  unfold signed64 toWire; split <;> omega

theorem signed32_toWire (n : Int) (h : -2147483648 ≤ n ∧ n < 2147483648) : signed32 (toWire n) = n := by
  unfold signed32 toWire; simp only; split <;> omega

theorem interp_rawVal (S : Schema) (sub : MsgTy → Bytes → Option Msg) (wtsub : MsgTy → Msg → Bool) (d : FieldDesc)
    (v : Val) (hv : wtVal wtsub d.kind v = true)
    (hsub : ∀ t m, d.kind = .msg t → v = .msg m → wtsub t m = true → sub t (encMsg S (S t) m) = some m) :
    ∃ r, rawVal S d v = [(d.num, r)] ∧ interp sub d r = .vals [v] ∧
      (∀ n, r = .varint n → n < 18446744073709551616) ∧ (∀ n, r = .fixed64 n → n < 18446744073709551616) ∧
      (∀ n, r ≠ .fixed32 n) := by
  cases v with
  | int n =>
    refine ⟨.varint (toWire n), rfl, ?_, ?_, by simp, by simp⟩
    · simp only [interp]
      cases hk : d.kind <;> simp [hk, wtVal] at hv <;> simp [ofVarint]
      · unfold toWire; omega
      · exact signed64_toWire n hv
      · exact signed32_toWire n hv
      · unfold toWire; omega
      · rcases hv with rfl | rfl <;> simp [toWire]
      · exact signed32_toWire n hv
    · intro m hm; cases hm; exact toWire_lt n
  | dbl n =>
    cases hk : d.kind <;> simp [hk, wtVal] at hv
    exact ⟨.fixed64 n, rfl, by simp [interp, hk], by simp, by simpa using hv, by simp⟩
  | str s =>
    cases hk : d.kind <;> simp [hk, wtVal] at hv
    exact ⟨.len (utf8 s), rfl, by simp [interp, hk, utf8_utf8, Conv.ofOption], by simp, by simp, by simp⟩
  | byt b =>
    cases hk : d.kind <;> simp [hk, wtVal] at hv
    exact ⟨.len b, rfl, by simp [interp, hk], by simp, by simp, by simp⟩
  | msg m =>
    cases hk : d.kind <;> simp [hk, wtVal] at hv
    rename_i t
    refine ⟨.len (encMsg S (S t) m), by simp [rawVal, hk], ?_, by simp, by simp, by simp⟩
    simp [interp, hk, hsub t m hk rfl hv, Conv.ofOption]

/-! ## Storing the fields back -/

theorem putRaws_append (sub : MsgTy → Bytes → Option Msg) (ds : List FieldDesc) (m : Msg) (a b : List (Nat × Raw)) :
    putRaws sub ds m (a ++ b) = (putRaws sub ds m a).bind fun m' => putRaws sub ds m' b := by
  induction a generalizing m with
  | nil => simp [putRaws]
  | cons f a ih =>
    simp only [List.cons_append, putRaws]
    cases putRaw sub ds m f with
    | none => simp
    | some m' => simp [ih]

/-- Storing one raw field at its place. -/
theorem putRaw_at (sub : MsgTy → Bytes → Option Msg) (ds₁ : List FieldDesc) (d : FieldDesc) (ds₂ : List FieldDesc)
    (m₁ : Msg) (vs : List Val) (m₂ : Msg) (r : Raw) (ws : List Val) (hl : ds₁.length = m₁.length)
    (hn : ∀ e ∈ ds₁, e.num ≠ d.num) (hi : interp sub d r = .vals ws) :
    putRaw sub (ds₁ ++ d :: ds₂) (m₁ ++ vs :: m₂) (d.num, r) =
      some (m₁ ++ (if d.label = .repeated then vs ++ ws else ws) :: m₂) := by
  induction ds₁ generalizing m₁ with
  | nil =>
    cases m₁ with
    | nil => simp [putRaw, hi]
    | cons _ _ => simp at hl
  | cons e ds₁ ih =>
    cases m₁ with
    | nil => simp at hl
    | cons us m₁ =>
      simp only [List.cons_append, putRaw]
      rw [if_neg (hn e (by simp)), ih m₁ (by simpa using hl) (fun e' he' => hn e' (List.mem_cons_of_mem _ he'))]
      simp

theorem putRaws_vals (S : Schema) (sub : MsgTy → Bytes → Option Msg) (wtsub : MsgTy → Msg → Bool)
    (ds₁ : List FieldDesc) (d : FieldDesc) (ds₂ : List FieldDesc) (m₁ : Msg) (vs : List Val) (m₂ : Msg) (us : List Val)
    (hl : ds₁.length = m₁.length) (hn : ∀ e ∈ ds₁, e.num ≠ d.num)
    (hus : ∀ v ∈ us, wtVal wtsub d.kind v = true)
    (hrep : d.label = .repeated ∨ (vs = [] ∧ us.length ≤ 1))
    (hsub : ∀ t m, d.kind = .msg t → Val.msg m ∈ us → wtsub t m = true → sub t (encMsg S (S t) m) = some m) :
    putRaws sub (ds₁ ++ d :: ds₂) (m₁ ++ vs :: m₂) (rawVals S d us) = some (m₁ ++ (vs ++ us) :: m₂) := by
  induction us generalizing vs with
  | nil => simp [rawVals, putRaws]
  | cons v us ih =>
    obtain ⟨r, hr, hi, -⟩ := interp_rawVal S sub wtsub d v (hus v (by simp))
      (fun t m hk hvm hw => hsub t m hk (by simp [hvm]) hw)
    have : rawVals S d (v :: us) = (d.num, r) :: rawVals S d us := by simp [rawVals, hr]
    rw [this, putRaws, putRaw_at sub ds₁ d ds₂ m₁ vs m₂ r [v] hl hn hi]
    simp only
    rcases hrep with hrep | ⟨rfl, hlen⟩
    · rw [if_pos hrep, ih (vs ++ [v]) (fun w hw => hus w (List.mem_cons_of_mem _ hw)) (Or.inl hrep)
        (fun t m hk hm hw => hsub t m hk (List.mem_cons_of_mem _ hm) hw)]
      simp
    · have : us = [] := by cases us <;> simp at hlen ⊢
      subst this
      simp [rawVals, putRaws]

theorem putRaws_msg (S : Schema) (sub : MsgTy → Bytes → Option Msg) (wtsub : MsgTy → Msg → Bool)
    (ds₁ ds : List FieldDesc) (m₁ m : Msg) (hl : ds₁.length = m₁.length)
    (hn : ((ds₁ ++ ds).map (·.num)).Nodup) (hwt : wtFields wtsub ds m = true)
    (hsub : ∀ d ∈ ds, ∀ t m', ∀ vs ∈ m, d.kind = .msg t → Val.msg m' ∈ vs → wtsub t m' = true →
      (d.num, Raw.len (encMsg S (S t) m')) ∈ rawMsg S ds m →
      sub t (encMsg S (S t) m') = some m') :
    putRaws sub (ds₁ ++ ds) (m₁ ++ ds.map fun _ => []) (rawMsg S ds m) = some (m₁ ++ m) := by
  induction ds generalizing ds₁ m₁ m with
  | nil =>
    cases m with
    | nil => simp [rawMsg, putRaws]
    | cons _ _ => simp [wtFields] at hwt
  | cons d ds ih =>
    cases m with
    | nil => simp [wtFields] at hwt
    | cons vs m =>
      simp only [wtFields, Bool.and_eq_true] at hwt
      obtain ⟨hf, hwt⟩ := hwt
      simp only [wtField, Bool.and_eq_true, Bool.or_eq_true, decide_eq_true_eq, List.all_eq_true] at hf
      obtain ⟨hlab, hvs⟩ := hf
      rw [rawMsg, putRaws_append]
      have hn' : ∀ e ∈ ds₁, e.num ≠ d.num := by
        intro e he heq
        simp only [List.map_append, List.map_cons] at hn
        rw [List.nodup_append] at hn
        exact hn.2.2 e.num (List.mem_map_of_mem he) d.num (by simp) heq
      have hmem : ∀ t m', d.kind = .msg t → Val.msg m' ∈ vs →
          (d.num, Raw.len (encMsg S (S t) m')) ∈ rawMsg S (d :: ds) (vs :: m) := by
        intro t m' hk hm'
        rw [rawMsg]
        apply List.mem_append_left
        exact List.mem_flatMap.mpr ⟨_, hm', by simp [rawVal, hk]⟩
      have h1 := putRaws_vals S sub wtsub ds₁ d ds m₁ [] (ds.map fun _ => []) vs hl hn' hvs
        (by rcases hlab with h | h
            · exact Or.inl h
            · exact Or.inr ⟨rfl, h⟩)
        (fun t m' hk hm' hw => hsub d (by simp) t m' vs (by simp) hk hm' hw (hmem t m' hk hm'))
      simp only [List.map_cons]
      rw [h1]
      simp only [List.nil_append, Option.bind_some]
      have h2 := ih (ds₁ ++ [d]) (m₁ ++ [vs]) m (by simp [hl]) (by simpa using hn) hwt
        (fun e he t m' us hus hk hm' hw hin => hsub e (List.mem_cons_of_mem _ he) t m' us (List.mem_cons_of_mem _ hus) hk
          hm' hw (by rw [rawMsg]; exact List.mem_append_right _ hin))
      simpa using h2

theorem rawMsg_ok (S : Schema) (wtsub : MsgTy → Msg → Bool) (ds : List FieldDesc) (m : Msg)
    (hg : ∀ d ∈ ds, 1 ≤ d.num ∧ d.num < 536870912) (hwt : wtFields wtsub ds m = true) :
    ∀ f ∈ rawMsg S ds m, f.2.body.length < 18446744073709551616 → rawOk f := by
  induction ds generalizing m with
  | nil => cases m <;> simp [rawMsg]
  | cons d ds ih =>
    cases m with
    | nil => simp [rawMsg]
    | cons vs m =>
      simp only [wtFields, Bool.and_eq_true] at hwt
      obtain ⟨hf, hwt⟩ := hwt
      simp only [wtField, Bool.and_eq_true, List.all_eq_true] at hf
      intro f hf' hlen
      rw [rawMsg] at hf'
      rcases List.mem_append.mp hf' with h | h
      · obtain ⟨v, hv, hfv⟩ := List.mem_flatMap.mp h
        have hd := hg d (by simp)
        have hv' := hf.2 v hv
        cases v with
        | int n =>
          simp only [rawVal, List.mem_singleton] at hfv; subst hfv
          exact ⟨hd.1, hd.2, toWire_lt n⟩
        | dbl n =>
          simp only [rawVal, List.mem_singleton] at hfv; subst hfv
          refine ⟨hd.1, hd.2, ?_⟩
          cases hk : d.kind <;> simp [hk, wtVal] at hv'
          exact hv'
        | str s =>
          simp only [rawVal, List.mem_singleton] at hfv; subst hfv
          refine ⟨hd.1, hd.2, ?_⟩
          simp [Raw.body] at hlen; simp only [Raw.valid]; omega
        | byt b =>
          simp only [rawVal, List.mem_singleton] at hfv; subst hfv
          refine ⟨hd.1, hd.2, ?_⟩
          simp [Raw.body] at hlen; simp only [Raw.valid]; omega
        | msg m' =>
          simp only [rawVal] at hfv
          split at hfv
          · simp only [List.mem_singleton] at hfv; subst hfv
            refine ⟨hd.1, hd.2, ?_⟩
            simp [Raw.body] at hlen; simp only [Raw.valid]; omega
          · simp at hfv
      · exact ih m (fun e he => hg e (List.mem_cons_of_mem _ he)) hwt f h hlen

/-! ## Round trip -/

theorem decodeF_encMsg (S : Schema) (hS : goodSchema S) (k : Nat) (t : MsgTy) (m : Msg)
    (hwt : wellTyped S k t m = true) (hlen : (encMsg S (S t) m).length < 18446744073709551616) :
    decodeF S k t (encMsg S (S t) m) = some m := by
  induction k generalizing t m with
  | zero => simp [wellTyped] at hwt
  | succ k ih =>
    simp only [wellTyped] at hwt
    have hg := hS t
    simp only [goodFields, Bool.and_eq_true, List.all_eq_true, decide_eq_true_eq] at hg
    rw [encMsg_eq] at hlen ⊢
    have hok : ∀ f ∈ rawMsg S (S t) m, rawOk f := fun f hf =>
      rawMsg_ok S _ _ m hg.1 hwt f hf (Nat.lt_of_le_of_lt (body_length_le hf) hlen)
    simp only [decodeF, readRaws_encRaws _ hok]
    have := putRaws_msg S (decodeF S k) (wellTyped S k) [] (S t) [] m rfl (by simpa using hg.2) hwt
      (fun d _ t' m' vs _ _ _ hw hin => ih t' m' hw (by
        have := body_length_le hin
        simp only [Raw.body, List.length_append] at this
        omega))
    simpa [newMsg] using this

/-- Reading back what was written gives the message that was written. -/
theorem parse_write (S : Schema) (hS : goodSchema S) (t : MsgTy) (m : Msg) (bs : Bytes)
    (hwt : wellTyped S maxDepth t m = true) (hw : writeToBytes S t m = some bs)
    (hlen : bs.length < 18446744073709551616) : parseFromBytes S t bs = some m := by
  unfold writeToBytes at hw
  split at hw
  · rename_i hi
    cases hw
    unfold parseFromBytes
    rw [decodeF_encMsg S hS maxDepth t m hwt hlen]
    simp [hi]
  · simp at hw

/-! ## Unknown fields -/

theorem putRaw_unknown (sub : MsgTy → Bytes → Option Msg) (ds : List FieldDesc) (m : Msg) (f : Nat × Raw)
    (h : ∀ d ∈ ds, d.num ≠ f.1) : putRaw sub ds m f = some m := by
  induction ds generalizing m with
  | nil => cases m <;> simp [putRaw]
  | cons d ds ih =>
    cases m with
    | nil => simp [putRaw]
    | cons vs m =>
      obtain ⟨n, r⟩ := f
      simp only [putRaw]
      rw [if_neg (h d (by simp)), ih m (fun e he => h e (List.mem_cons_of_mem _ he))]
      simp

theorem decodeF_unknown (S : Schema) (k : Nat) (t : MsgTy) (a b : List (Nat × Raw)) (f : Nat × Raw)
    (ha : ∀ g ∈ a, rawOk g) (hb : ∀ g ∈ b, rawOk g) (hf : rawOk f) (hu : ∀ d ∈ S t, d.num ≠ f.1) :
    decodeF S k t (encRaws (a ++ f :: b)) = decodeF S k t (encRaws (a ++ b)) := by
  cases k with
  | zero => rfl
  | succ k =>
    have h1 : ∀ g ∈ a ++ f :: b, rawOk g := by
      intro g hg
      rcases List.mem_append.mp hg with h | h
      · exact ha g h
      · rcases List.mem_cons.mp h with h | h
        · exact h ▸ hf
        · exact hb g h
    have h2 : ∀ g ∈ a ++ b, rawOk g := by
      intro g hg
      rcases List.mem_append.mp hg with h | h
      · exact ha g h
      · exact hb g h
    simp only [decodeF, readRaws_encRaws _ h1, readRaws_encRaws _ h2, putRaws_append]
    cases putRaws (decodeF S k) (S t) (newMsg S t) a with
    | none => simp
    | some m => simp [putRaws, putRaw_unknown _ _ _ f hu]

/-! ## The Pulsar schema -/

theorem pulsar_good : goodSchema pulsar := by
  intro t; cases t <;> decide

end Neutron.Proto
