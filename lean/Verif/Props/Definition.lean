import Verif.Spec.Definition
import Verif.Props.Encoding
import Verif.Props.Commands
import Verif.Proof.ProtoTyped
import Verif.Proof.Required

/-!
# C155 The protocol as defined
-/

namespace Neutron.Props

open Neutron Neutron.Proto

/-- The schema the model of the generated code has is that of the definition. -/
theorem C155_schema : pulsar = defined := funext fun t => by cases t <;> rfl

theorem wtFields_iff (sub : MsgTy → Msg → Bool) : ∀ (ds : List FieldDesc) (m : Msg), wtFields sub ds m = true ↔
    m.length = ds.length ∧ ∀ (i : Nat) (d : FieldDesc) (vs : List Val), ds[i]? = some d → m[i]? = some vs → wtField sub d vs = true := by
  intro ds
  induction ds with
  | nil =>
    intro m
    cases m with
    | nil => simp [wtFields]
    | cons v m => simp [wtFields]
  | cons e ds ih =>
    intro m
    cases m with
    | nil => simp [wtFields]
    | cons v m =>
      simp only [wtFields, Bool.and_eq_true, ih m, List.length_cons, Nat.add_right_cancel_iff]
      constructor
      · rintro ⟨h1, h2, h3⟩
        refine ⟨h2, fun i d vs hd hv => ?_⟩
        cases i with
        | zero => simp at hd hv; subst hd hv; exact h1
        | succ i => exact h3 i d vs (by simpa using hd) (by simpa using hv)
      · rintro ⟨h2, h3⟩
        exact ⟨h3 0 e v rfl rfl, h2, fun i d vs hd hv => h3 (i + 1) d vs (by simpa using hd) (by simpa using hv)⟩

/-- The bounds of the scalar types. -/
theorem holds_iff (sub : MsgTy → Msg → Bool) (ty : ProtoType) (v : Val) :
    wtVal sub ty.kind v = true ↔ ty.Holds v ∧ ∀ t m, ty = .message t → v = .msg m → sub t m = true := by
  cases ty <;> cases v <;> simp [ProtoType.kind, wtVal, ProtoType.Holds]
  case uint64.int n =>
    constructor
    · rintro ⟨h1, h2⟩
      exact ⟨n.toNat, by omega, by omega⟩
    · rintro ⟨k, h1, rfl⟩
      omega
  case uint32.int n =>
    constructor
    · rintro ⟨h1, h2⟩
      exact ⟨n.toNat, by omega, by omega⟩
    · rintro ⟨k, h1, rfl⟩
      omega

theorem conforms_iff : ∀ (k : Nat) (t : MsgTy) (m : Msg), Conforms k t m ↔ wellTyped defined k t m = true ∧ HasRequired defined t m := by
  intro k
  induction k with
  | zero => intro t m; simp [Conforms, wellTyped]
  | succ k ih =>
    intro t m
    simp only [Conforms, wellTyped, wtFields_iff]
    have hdef : ∀ {i : Nat} {d : FieldDesc}, (defined t)[i]? = some d → ∃ f, (definition t)[i]? = some f ∧ d = ⟨f.number, f.label, f.type.kind⟩ := by
      intro i d h
      simp only [defined, List.getElem?_map, Option.map_eq_some_iff] at h
      obtain ⟨f, h1, h2⟩ := h
      exact ⟨f, h1, h2.symm⟩
    have hdef' : ∀ {i : Nat} {f : ProtoField}, (definition t)[i]? = some f → (defined t)[i]? = some ⟨f.number, f.label, f.type.kind⟩ := by
      intro i f h
      simp [defined, List.getElem?_map, h]
    have hlen : (defined t).length = (definition t).length := by simp [defined]
    have hval : ∀ {i : Nat} {f : ProtoField}, m.length = (definition t).length → (definition t)[i]? = some f → ∃ vs, m[i]? = some vs := by
      intro i f hl h
      have := (List.getElem?_eq_some_iff.mp h).1
      exact ⟨_, List.getElem?_eq_getElem (by omega)⟩
    constructor
    · rintro ⟨hl, h⟩
      refine ⟨⟨by omega, fun i d vs hd hv => ?_⟩, .mk (fun i d hd hr => ?_) (fun i d t' m' hd hk hm => ?_)⟩
      · obtain ⟨f, hf, rfl⟩ := hdef hd
        obtain ⟨_, h2, h3, h4⟩ := h i f vs hf hv
        simp only [wtField, Bool.and_eq_true, Bool.or_eq_true, decide_eq_true_eq, List.all_eq_true]
        refine ⟨?_, fun v hvm => (holds_iff _ _ _).mpr ⟨h3 v hvm, fun t' m' ht hm => ?_⟩⟩
        · by_cases hr : f.label = .repeated
          · exact Or.inl hr
          · exact Or.inr (h2 hr)
        · subst hm
          exact ((ih t' m').mp (h4 t' m' ht hvm)).1
      · obtain ⟨f, hf, rfl⟩ := hdef hd
        obtain ⟨vs, hv⟩ := hval hl hf
        rw [hv]
        exact (h i f vs hf hv).1 hr
      · obtain ⟨f, hf, rfl⟩ := hdef hd
        obtain ⟨vs, hv⟩ := hval hl hf
        rw [hv] at hm
        refine ((ih t' m').mp ((h i f vs hf hv).2.2.2 t' m' ?_ hm)).2
        cases hty : f.type <;> simp [hty, ProtoType.kind] at hk
        exact congrArg _ hk
    · rintro ⟨⟨hl, hw⟩, hr⟩
      cases hr with
      | mk hreq hnest =>
      refine ⟨by omega, fun i f vs hf hv => ?_⟩
      have hwt := hw i _ vs (hdef' hf) hv
      simp only [wtField, Bool.and_eq_true, Bool.or_eq_true, decide_eq_true_eq, List.all_eq_true] at hwt
      refine ⟨fun h => ?_, fun h => hwt.1.resolve_left h, fun v hvm => ((holds_iff _ _ _).mp (hwt.2 v hvm)).1, fun t' m' ht hm => ?_⟩
      · have := hreq i _ (hdef' hf) h
        rwa [hv] at this
      · refine (ih t' m').mpr ⟨((holds_iff _ _ _).mp (hwt.2 _ hm)).2 t' m' ht rfl, hnest i _ t' m' (hdef' hf) ?_ (by rw [hv]; exact hm)⟩
        simp [ht, ProtoType.kind]

/-- Whatever bytes a peer sends: the library reads them as the message `m` exactly if they encode `m` by the protocol definition - numbers,
types and labels as in the .proto file - and all it requires is there. -/
theorem C155_reads (t : MsgTy) (bs : Bytes) (m : Msg) :
    parseFromBytes pulsar t bs = some m ↔ Format.Encodes defined 101 t bs m ∧ HasRequired defined t m := by
  rw [C109_any_encoding, C155_schema]

/-- Whatever is read is a message as defined: every required field is there, at every depth, no more than one value where one is declared, and
every value is of its declared type. -/
theorem C155_conforms {t : MsgTy} {bs : Bytes} {m : Msg} (h : parseFromBytes pulsar t bs = some m) : Conforms 101 t m := by
  rw [conforms_iff, ← C155_schema]
  have := parse_wt _ _ _ _ h
  exact ⟨this.1, (hasRequired_iff _ _ _).mp this.2⟩

/-- And every message as defined can be written and is read back as it is. -/
theorem C155_all_written {t : MsgTy} {m : Msg} (h : Conforms 101 t m) :
    ∃ bs, writeToBytes pulsar t m = some bs ∧ (bs.length < 2 ^ 64 → parseFromBytes pulsar t bs = some m) := by
  rw [conforms_iff, ← C155_schema] at h
  have hi := (hasRequired_iff _ _ _).mpr h.2
  refine ⟨_, by unfold writeToBytes; rw [if_pos hi], fun hl => ?_⟩
  exact parse_write pulsar pulsar_good t m _ h.1 (by unfold writeToBytes; rw [if_pos hi]) hl

/-- The hypotheses of C155_all_written and C155_conforms are met (C155_reads and C155_schema have none): a message a broker delivers, with its id
nested in it, is as defined; it is written and read. -/
example : ∃ m bs, Conforms 101 .baseCommand m ∧ writeToBytes pulsar .baseCommand m = some bs ∧ parseFromBytes pulsar .baseCommand bs = some m ∧
    ∃ s id, getMsg .baseCommand m 9 = some s ∧ getMsg .commandMessage s 2 = some id := by
  let s := Send.single "p" 7 300 [104, 105]
  have h := deliver_ser s 1700000000000
  have hc : Conforms 101 .baseCommand (deliver (s.asCommand 1700000000000)).command := by
    rw [conforms_iff, ← C155_schema]
    exact ⟨h.1, (hasRequired_iff _ _ _).mp h.2⟩
  obtain ⟨bs, h1, h2⟩ := C155_all_written hc
  have hb : bs.length < 2 ^ 64 := by
    unfold writeToBytes at h1
    split at h1
    · cases h1
      decide +kernel
    · cases h1
  exact ⟨_, bs, hc, h1, h2 hb, _, _, rfl, rfl⟩

/-- And one that is not: a message id without its entry is not as defined, so it is neither read nor written. -/
example : (∀ k, ¬ Conforms k .messageIdData (mkMsg .messageIdData [(1, [.int 1])])) ∧
    (∀ bs, parseFromBytes pulsar .messageIdData bs ≠ some (mkMsg .messageIdData [(1, [.int 1])])) := by
  have h : ∀ k, ¬ Conforms k .messageIdData (mkMsg .messageIdData [(1, [.int 1])]) := by
    intro k
    cases k with
    | zero => intro h; exact h
    | succ k => intro h; exact (h.2 1 _ _ rfl rfl).1 rfl rfl
  exact ⟨h, fun bs hb => h _ (C155_conforms hb)⟩

end Neutron.Props
