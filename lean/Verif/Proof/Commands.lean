import Verif.Spec.Commands
import Verif.Proof.Message
import Verif.Proof.CodecEdge

/-! # API calls on the wire; inbound commands; message ids -/

namespace Neutron

open Proto Frame

theorem hasExactly_mk (t : MsgTy) (fs : List (Nat × List Val))
    (h : fs.all (fun p => (pulsar t).any (fun d => d.num == p.1)) = true) : HasExactly t (mkMsg t fs) fs := by
  intro n
  unfold getF mkMsg
  rw [lookupF_map]
  split
  · rfl
  · rename_i hn
    cases hl : fs.lookup n with
    | none => rfl
    | some vs =>
      rw [List.all_eq_true] at h
      exact absurd (h _ (lookup_mem hl)) hn

/-- Whatever bytes are written for a command the API can produce, if they are fewer than 2^32 they read back as that
command. -/
theorem wire_reads' (oc : Bool) (now : UInt64) (o : Outbound) (ho : o.Valid) (frame : Bytes)
    (hw : wireBytes oc now o = .ok frame) (hl : frame.length < 4294967296) :
    ∃ item, o.toCommand now = .ok item ∧ ReadsAs frame item := by
  obtain ⟨item, h1, h2, h3⟩ := toCommand_ok now o ho
  have hs := parts_serialises item h2 h3
  have hf : frame = layout item.parts.1 item.parts.2 := by
    unfold wireBytes at hw
    rw [h1, Outcome.bind_ok] at hw
    cases oc with
    | false => rw [Codec.encode_release item _ _ hs] at hw; cases hw; rfl
    | true =>
      rcases Codec.encode_debug item _ _ hs with h | h
      · rw [h] at hw; cases hw
      · rw [h] at hw; cases hw; rfl
  subst hf
  rw [Codec.layout_length] at hl
  refine ⟨item, h1, ?_⟩
  exact Framed.isFrame_of (parts_sendable item h2 h3 hl)

theorem readsAs_unique {frame : Bytes} {a b : MessageCommand} (h1 : ReadsAs frame a) (h2 : ReadsAs frame b) : a = b := by
  have e1 := Framed.IsFrame.decode h1 []
  rw [Framed.IsFrame.decode h2 []] at e1
  cases e1; rfl

theorem wire_size (oc : Bool) (now : UInt64) (o : Outbound) (ho : o.Valid) (frame : Bytes)
    (hw : wireBytes oc now o = .ok frame) :
    ∃ item, o.toCommand now = .ok item ∧ frame.length = size item.parts.1 item.parts.2 := by
  obtain ⟨item, h1, h2, h3⟩ := toCommand_ok now o ho
  have hs := parts_serialises item h2 h3
  refine ⟨item, h1, ?_⟩
  unfold wireBytes at hw
  rw [h1, Outcome.bind_ok] at hw
  cases oc with
  | false => rw [Codec.encode_release item _ _ hs] at hw; cases hw; exact Codec.layout_length _ _
  | true =>
    rcases Codec.encode_debug item _ _ hs with h | h
    · rw [h] at hw; cases hw
    · rw [h] at hw; cases hw; exact Codec.layout_length _ _

theorem isCommand_base (ty : Nat) (t : MsgTy) (fs : List (Nat × List Val)) (pl : Option Payload)
    (hb : (pulsar .baseCommand).any (fun d => d.num == ty) = true)
    (h : fs.all (fun p => (pulsar t).any (fun d => d.num == p.1)) = true) :
    IsCommand ⟨baseCommand ty ty (mkMsg t fs), pl⟩ ty t fs := by
  refine ⟨mkMsg t fs, ?_, hasExactly_mk t fs h⟩
  refine hasExactly_mk .baseCommand [(1, [.int ty]), (ty, vMsg (mkMsg t fs))] ?_
  simp only [List.all_cons, List.all_nil, hb, Bool.and_true]
  rfl

theorem asI32_mod (n : Nat) : asI32 (Codec.asU32 n) = asI32 n := by
  unfold asI32 signed32 Codec.asU32
  simp

theorem issue_valid (c : Client) (call : Call) (h : ∀ m, call = .ack m → ValidId m) : (c.issue call).2.Valid := by
  cases call <;> simp only [Client.issue, Outbound.Valid]
  case ack m => exact ⟨by simp, by intro a ha; simp at ha; subst ha; exact h m rfl⟩

/-! ## Batch parsing -/

attribute [local irreducible] parseFromBytes writeToBytes be32 in
theorem batchedPayload_some {i rest : Bytes} {b : BatchedPayload} :
    batchedPayload i = some (rest, b) ↔ ∃ mb, mb.length < 4294967296 ∧ i = be32 mb.length ++ mb ++ b.payload ++ rest ∧
      parseFromBytes pulsar .singleMessageMetadata mb = some b.metadata ∧
      (intOf (getF .singleMessageMetadata b.metadata 3)).getD 0 = b.payload.length := by
  constructor
  · intro h
    unfold batchedPayload at h
    simp only [Option.bind_eq_bind, Option.bind_eq_some_iff, Prod.exists] at h
    obtain ⟨n, i1, h1, mb, i2, h2, md, h3, h4⟩ := h
    obtain ⟨a, b', c, d, rfl, -⟩ := Codec.readBe32_append h1
    unfold takeN at h2
    split at h2
    · rename_i hn
      simp only [Option.some.injEq, Prod.mk.injEq] at h2
      obtain ⟨rfl, rfl⟩ := h2
      split at h4
      · rename_i hpos
        simp only [Option.bind_eq_some_iff, Prod.exists, Option.pure_def, Option.some.injEq, Prod.mk.injEq] at h4
        obtain ⟨pl, i3, h5, rfl, rfl⟩ := h4
        unfold takeN at h5
        split at h5
        · rename_i hp
          simp only [Option.some.injEq, Prod.mk.injEq] at h5
          obtain ⟨rfl, rfl⟩ := h5
          have hlen : (List.take n i1).length = n := by simp; omega
          have hrd : n < 4294967296 ∧ be32 n = [a, b', c, d] := by
            simp only [readBe32, Option.some.injEq, Prod.mk.injEq] at h1
            have := a.toNat_lt; have := b'.toNat_lt; have := c.toNat_lt; have := d.toNat_lt
            refine ⟨by omega, ?_⟩
            unfold be32
            rw [← h1.1]
            simp only [List.cons.injEq, and_true]
            refine ⟨?_, ?_, ?_, ?_⟩ <;> apply UInt8.toNat_inj.mp <;> simp <;> omega
          refine ⟨List.take n i1, by omega, ?_, h3, ?_⟩
          · rw [hlen, hrd.2]
            simp only [List.append_assoc, List.cons_append, List.nil_append, List.take_append_drop]
          · simp only [List.length_take]; omega
        · simp at h5
      · simp at h4
    · simp at h2
  · rintro ⟨mb, hlt, rfl, hp, hg⟩
    obtain ⟨md, pl⟩ := b
    dsimp only at hp hg ⊢
    unfold batchedPayload
    rw [List.append_assoc, List.append_assoc, readBe32_be32 _ _ hlt]
    simp only [Option.bind_eq_bind, Option.bind_some]
    rw [takeN_append]
    simp only [Option.bind_some]
    rw [hp]
    simp only [Option.bind_some, hg]
    rw [if_pos (by omega)]
    simp only [Int.toNat_natCast, takeN_append, Option.bind_some, Option.pure_def]

theorem countBatched_some (n : Nat) : ∀ {i rest : Bytes} {bs : List BatchedPayload},
    countBatched n i = some (rest, bs) ↔ bs.length = n ∧ BatchOf i bs rest := by
  induction n with
  | zero =>
    intro i rest bs
    simp only [countBatched, Option.some.injEq, Prod.mk.injEq]
    constructor
    · rintro ⟨rfl, rfl⟩; exact ⟨rfl, .done _⟩
    · rintro ⟨h1, h2⟩
      have := List.length_eq_zero_iff.mp h1
      subst this
      cases h2; exact ⟨rfl, rfl⟩
  | succ n ih =>
    intro i rest bs
    simp only [countBatched, Option.bind_eq_bind, Option.bind_eq_some_iff, Prod.exists, Option.pure_def, Option.some.injEq,
      Prod.mk.injEq]
    constructor
    · rintro ⟨i1, b, h1, i2, bs', h2, rfl, rfl⟩
      obtain ⟨mb, h3, rfl, h4, h5⟩ := batchedPayload_some.mp h1
      obtain ⟨h6, h7⟩ := ih.mp h2
      exact ⟨by simp [h6], .element mb _ _ _ _ _ h3 (Framed.isMessage_of h4) h5 h7⟩
    · rintro ⟨h1, h2⟩
      cases h2 with
      | done => simp at h1
      | element mb md payload tail _ bs' h3 h4 h5 h6 =>
        refine ⟨tail, ⟨md, payload⟩, batchedPayload_some.mpr ⟨mb, h3, rfl, h4.parse, h5⟩, rest, bs', ih.mpr ⟨?_, h6⟩, rfl, rfl⟩
        simpa using h1

theorem batchOf_entries (ps : List Bytes) (h : ∀ p ∈ ps, p.length < 2147483648) :
    BatchOf (ps.map entryBytes).flatten (ps.map fun p => ⟨entryMeta p.length, p⟩) [] := by
  have := countBatched_entries ps [] h
  rw [List.append_nil] at this
  exact ((countBatched_some _).mp this).2

theorem batchOf_append {i rest : Bytes} {bs : List BatchedPayload} (h : BatchOf i bs rest) : ∃ used, i = used ++ rest ∧
    ∀ t, BatchOf (used ++ t) bs t := by
  induction h with
  | done r => exact ⟨[], rfl, fun t => .done t⟩
  | element mb md payload tail rest bs h1 h2 h3 _ ih =>
    obtain ⟨used, rfl, hu⟩ := ih
    refine ⟨be32 mb.length ++ mb ++ payload ++ used, by simp, ?_⟩
    intro t
    have := BatchOf.element mb md payload (used ++ t) t bs h1 h2 h3 (hu t)
    simpa using this



/-- Every batch element takes at least four bytes. -/
theorem flatten_entries_length (ps : List Bytes) : 4 * ps.length ≤ (ps.map entryBytes).flatten.length := by
  induction ps with
  | nil => simp
  | cons p ps ih =>
    simp only [List.map_cons, List.flatten_cons, List.length_append, List.length_cons, entryBytes, be32_length]
    omega

/-! ## Message ids -/

theorem wtFields_get (sub : MsgTy → Msg → Bool) : ∀ (ds : List FieldDesc) (m : Msg) (n : Nat) (d : FieldDesc),
    wtFields sub ds m = true → ds.find? (fun e => e.num == n) = some d → wtField sub d (lookupF ds m n) = true := by
  intro ds
  induction ds with
  | nil => intro m n d _ h; simp at h
  | cons e ds ih =>
    intro m n d hw hf
    cases m with
    | nil => simp [wtFields] at hw
    | cons vs m =>
      simp only [wtFields, Bool.and_eq_true] at hw
      simp only [lookupF]
      by_cases he : e.num = n
      · rw [if_pos he]
        simp only [List.find?_cons, he, beq_self_eq_true, Option.some.injEq] at hf
        subst hf
        exact hw.1
      · rw [if_neg he]
        simp only [List.find?_cons, beq_eq_false_iff_ne.mpr he] at hf
        exact ih m n d hw.2 hf

theorem initMsg_get (S : Schema) : ∀ (ds : List FieldDesc) (m : Msg) (n : Nat) (d : FieldDesc),
    initMsg S ds m = true → ds.find? (fun e => e.num == n) = some d → initVals S d (lookupF ds m n) = true := by
  intro ds
  induction ds with
  | nil => intro m n d _ h; simp at h
  | cons e ds ih =>
    intro m n d hw hf
    cases m with
    | nil => simp [lookupF, initVals]
    | cons vs m =>
      simp only [initMsg, Bool.and_eq_true] at hw
      simp only [lookupF]
      by_cases he : e.num = n
      · rw [if_pos he]
        simp only [List.find?_cons, he, beq_self_eq_true, Option.some.injEq] at hf
        subst hf
        exact hw.1.2
      · rw [if_neg he]
        simp only [List.find?_cons, beq_eq_false_iff_ne.mpr he] at hf
        exact ih m n d hw.2 hf

theorem msgOf_mem {vs : List Val} {m : Msg} (h : msgOf vs = some m) : Val.msg m ∈ vs := by
  unfold msgOf at h
  split at h
  · rename_i m'
    cases h; simp
  · cases h

theorem initVals_mem {S : Schema} {n : Nat} {l : Label} {t : MsgTy} {vs : List Val} {m : Msg}
    (h : initVals S ⟨n, l, .msg t⟩ vs = true) (hm : Val.msg m ∈ vs) : initMsg S (S t) m = true := by
  induction vs with
  | nil => cases hm
  | cons v vs ih =>
    simp only [initVals, Bool.and_eq_true] at h
    rcases List.mem_cons.mp hm with h' | h'
    · subst h'; simpa [initVal] using h.1
    · exact ih h.2 h'

/-- A sub-message of a well-typed, initialised message is well typed one level down and initialised. -/
theorem ser_sub {k : Nat} {t t' : MsgTy} {m sub : Msg} {n : Nat} {l : Label} (h : Ser (k + 1) t m)
    (hf : (pulsar t).find? (fun e => e.num == n) = some ⟨n, l, .msg t'⟩) (hg : getMsg t m n = some sub) : Ser k t' sub := by
  have hm := msgOf_mem hg
  constructor
  · have h1 := h.1
    simp only [wellTyped] at h1
    have := wtFields_get _ _ _ n _ h1 hf
    simp only [wtField, Bool.and_eq_true, List.all_eq_true] at this
    have := this.2 _ hm
    simpa [wtVal] using this
  · exact initVals_mem (initMsg_get _ _ _ n _ h.2 hf) hm

theorem bind_ok_inv {α β : Type} {x : Outcome α} {f : α → Outcome β} {b : β} (h : (x >>= f) = .ok b) :
    ∃ a, x = .ok a ∧ f a = .ok b := by
  cases x with
  | ok a => exact ⟨a, rfl, h⟩
  | err e => cases h
  | panic => cases h

theorem unwrap_ok_inv {α : Type} {o : Option α} {a : α} (h : Outcome.unwrap o = .ok a) : o = some a := by
  cases o with
  | none => cases h
  | some x => cases h; rfl

/-- Whatever the decoder produces was parsed, hence is well typed and has its required fields. -/
theorem decode_ser {src rest : Bytes} {item : MessageCommand} (h : Codec.decode src = .ok (some (item, rest))) :
    Ser 101 .baseCommand item.command ∧ ∀ p, item.payload = some p → Ser 101 .messageMetadata p.metadata := by
  unfold Codec.decode at h
  split at h
  · cases h
  · dsimp only at h
    split at h
    · obtain ⟨m, h1, h2⟩ := bind_ok_inv h
      cases h2
      unfold Codec.decodeFrame at h1
      obtain ⟨⟨bytes, cb⟩, -, h2⟩ := bind_ok_inv h1
      obtain ⟨c, h3, h4⟩ := bind_ok_inv h2
      have hc := parse_wt pulsar _ _ _ (unwrap_ok_inv h3)
      dsimp only at h4
      split at h4
      · cases h4; exact ⟨hc, by simp⟩
      · obtain ⟨md, h5, h6⟩ := bind_ok_inv h4
        have hm := parse_wt pulsar _ _ _ (unwrap_ok_inv h5)
        cases h6
        refine ⟨hc, ?_⟩
        intro p hp
        cases hp; exact hm
    · cases h

/-- The id in a message command the decoder produced is one the client can acknowledge. -/
theorem isMessage_validId {src rest : Bytes} {item : MessageCommand} (h : Codec.decode src = .ok (some (item, rest)))
    {cid : UInt64} {mid : MessageId} (hm : IsMessage item cid mid) : ValidId mid := by
  obtain ⟨-, cm, h1, -, h2⟩ := hm
  exact validId_ser.mpr <| ser_sub (k := 99) (ser_sub (k := 100) (decode_ser h).1 rfl h1) rfl h2

theorem lookupF_setF (ds : List FieldDesc) (m : Msg) (n k : Nat) (ws : List Val) (hl : m.length = ds.length)
    (h : ds.any (fun d => d.num == n) = true) :
    lookupF ds (setF ds m n ws) k = if k = n then ws else lookupF ds m k := by
  induction ds generalizing m with
  | nil => simp at h
  | cons d ds ih =>
    cases m with
    | nil => simp at hl
    | cons vs m =>
      simp only [setF]
      by_cases hd : d.num = n
      · rw [if_pos hd]
        simp only [lookupF]
        by_cases hk : k = n
        · subst hk; simp [hd]
        · have : ¬ d.num = k := by omega
          simp [hk, this]
      · rw [if_neg hd]
        have h' : ds.any (fun d => d.num == n) = true := by simpa [hd] using h
        simp only [lookupF]
        by_cases hk : d.num = k
        · have : ¬ k = n := by omega
          simp [hk, this]
        · rw [if_neg hk, if_neg hk]
          exact ih m (by simpa using hl) h'

theorem wtFields_length (sub : MsgTy → Msg → Bool) : ∀ (ds : List FieldDesc) (m : Msg), wtFields sub ds m = true →
    m.length = ds.length := by
  intro ds
  induction ds with
  | nil => intro m h; cases m with
    | nil => rfl
    | cons _ _ => simp [wtFields] at h
  | cons d ds ih => intro m h; cases m with
    | nil => simp [wtFields] at h
    | cons vs m => simp only [wtFields, Bool.and_eq_true] at h; simp [ih m h.2]

theorem wtFields_set (sub : MsgTy → Msg → Bool) (ds : List FieldDesc) (m : Msg) (n : Nat) (ws : List Val)
    (hw : wtFields sub ds m = true) (h : ∀ d ∈ ds, d.num = n → wtField sub d ws = true) :
    wtFields sub ds (setF ds m n ws) = true := by
  induction ds generalizing m with
  | nil => simpa [setF] using hw
  | cons d ds ih =>
    cases m with
    | nil => simp [wtFields] at hw
    | cons vs m =>
      simp only [wtFields, Bool.and_eq_true] at hw
      simp only [setF]
      split
      · rename_i hd; simp [wtFields, h d (by simp) hd, hw.2]
      · simp only [wtFields, hw.1, Bool.true_and]
        exact ih m hw.2 fun e he => h e (List.mem_cons_of_mem _ he)

theorem initMsg_set (S : Schema) (ds : List FieldDesc) (m : Msg) (n : Nat) (ws : List Val) (hne : ws ≠ [])
    (hw : initMsg S ds m = true) (h : ∀ d ∈ ds, d.num = n → initVals S d ws = true) :
    initMsg S ds (setF ds m n ws) = true := by
  induction ds generalizing m with
  | nil => simpa [setF] using hw
  | cons d ds ih =>
    cases m with
    | nil => simpa [setF] using hw
    | cons vs m =>
      simp only [initMsg, Bool.and_eq_true] at hw
      simp only [setF]
      split
      · rename_i hd
        have : ws.isEmpty = false := by cases ws <;> simp_all
        simp [initMsg, h d (by simp) hd, hw.2, this]
      · simp only [initMsg, Bool.and_eq_true]
        exact ⟨hw.1, ih m hw.2 fun e he => h e (List.mem_cons_of_mem _ he)⟩

theorem validId_withBatchIndex (i : Nat) (m : MessageId) (h : ValidId m) : ValidId (withBatchIndex i m) := by
  refine ⟨?_, ?_⟩
  · have h1 := h.1
    simp only [wellTyped] at h1 ⊢
    refine wtFields_set _ _ _ _ _ h1 ?_
    intro d hd hn
    have : d = ⟨4, .optional, .i32⟩ := by
      revert hd hn; simp only [pulsar, List.mem_cons, List.not_mem_nil, or_false]
      rintro (rfl | rfl | rfl | rfl | rfl | rfl | rfl) <;> simp
    subst this
    exact wt_i32 _ _ _ _ (asI32_range i)
  · refine (hasRequired_iff _ _ _).mp (initMsg_set _ _ _ _ _ (by simp) ((hasRequired_iff _ _ _).mpr h.2) ?_)
    intro d _ _
    exact init_int _ _ _

theorem validId_length {m : MessageId} (h : ValidId m) : m.length = (pulsar .messageIdData).length := by
  have h1 := h.1
  simp only [wellTyped] at h1
  exact wtFields_length _ _ _ h1

theorem withBatchIndex_spec (i : Nat) (hi : i < 2147483648) (m : MessageId) (h : ValidId m) :
    IsBatchId m i (withBatchIndex i m) := by
  have hl := validId_length h
  constructor
  · unfold getF withBatchIndex
    rw [lookupF_setF _ _ _ _ _ hl rfl, if_pos rfl, asI32_small hi]
  · intro n hn
    unfold getF withBatchIndex
    rw [lookupF_setF _ _ _ _ _ hl rfl, if_neg hn]

/-- Two ids with the same fields are equal. -/
theorem msg_ext (_t : MsgTy) (ds : List FieldDesc) (hd : ((ds.map (·.num)).Nodup)) : ∀ (a b : Msg), a.length = ds.length → b.length = ds.length →
    (∀ n, lookupF ds a n = lookupF ds b n) → a = b := by
  induction ds with
  | nil =>
    intro a b ha hb _
    rw [List.length_eq_zero_iff.mp ha, List.length_eq_zero_iff.mp hb]
  | cons d ds ih =>
    intro a b ha hb h
    cases a with
    | nil => simp at ha
    | cons x a =>
      cases b with
      | nil => simp at hb
      | cons y b =>
        simp only [List.map_cons, List.nodup_cons] at hd
        have h0 := h d.num
        simp only [lookupF, if_true] at h0
        subst h0
        congr 1
        refine ih hd.2 a b (by simpa using ha) (by simpa using hb) ?_
        intro n
        have hn := h n
        simp only [lookupF] at hn
        by_cases he : d.num = n
        · subst he
          have key : ∀ (m : Msg), lookupF ds m d.num = [] := by
            have h1 := hd.1
            clear hn h ih ha hb hd
            intro m
            induction ds generalizing m with
            | nil => cases m <;> rfl
            | cons e ds ih =>
              cases m with
              | nil => rfl
              | cons vs m =>
                simp only [List.map_cons, List.mem_cons, not_or] at h1
                simp only [lookupF]
                rw [if_neg (fun h => h1.1 h.symm)]
                exact ih h1.2 m
          rw [key, key]
        · rw [if_neg he, if_neg he] at hn; exact hn

end Neutron
