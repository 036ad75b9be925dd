import Verif.Model.ProtoSchema

/-!
# Specification vocabulary for protobuf messages

`wellTyped S k t m`: `m` is a value of message type `t` that a Rust program can build with the generated structs
(each field holds values of its declared kind and range, a singular field at most one) and that nests at most `k` levels.
`goodSchema S`: field numbers are valid and distinct within each message type.
-/

namespace Neutron.Proto

/-- A raw field that fits the wire format. -/
def Raw.valid : Raw → Prop
  | .varint n => n < 18446744073709551616
  | .fixed64 n => n < 18446744073709551616
  | .len b => b.length < 18446744073709551616
  | .fixed32 n => n < 4294967296

/-- The same for a numbered field. -/
def rawOk (f : Nat × Raw) : Prop := 1 ≤ f.1 ∧ f.1 < 536870912 ∧ f.2.valid

/-- Is `v` a value of a field of this kind?  The bounds are those of the Rust types `u64 i64 i32 u32 bool`. -/
def wtVal (sub : MsgTy → Msg → Bool) : Kind → Val → Bool
  | .u64, .int n => decide (0 ≤ n ∧ n < 18446744073709551616)
  | .i64, .int n => decide (-9223372036854775808 ≤ n ∧ n < 9223372036854775808)
  | .i32, .int n => decide (-2147483648 ≤ n ∧ n < 2147483648)
  | .enum, .int n => decide (-2147483648 ≤ n ∧ n < 2147483648)
  | .u32, .int n => decide (0 ≤ n ∧ n < 4294967296)
  | .bool, .int n => decide (n = 0 ∨ n = 1)
  | .dbl, .dbl n => decide (n < 18446744073709551616)
  | .str, .str _ => true
  | .byt, .byt _ => true
  | .msg t, .msg m => sub t m
  | _, _ => false

/-- The values of one declared field. -/
def wtField (sub : MsgTy → Msg → Bool) (d : FieldDesc) (vs : List Val) : Bool :=
  (decide (d.label = .repeated) || decide (vs.length ≤ 1)) && vs.all (wtVal sub d.kind)

def wtFields (sub : MsgTy → Msg → Bool) : List FieldDesc → Msg → Bool
  | [], [] => true
  | d :: ds, vs :: m => wtField sub d vs && wtFields sub ds m
  | _, _ => false

/-- A message value the generated Rust types can hold, nested at most `k` levels deep. -/
def wellTyped (S : Schema) : Nat → MsgTy → Msg → Bool
  | 0, _, _ => false
  | k + 1, t, m => wtFields (wellTyped S k) (S t) m

/-- Every required field is set, in the message and in the messages nested in it; `(m[i]?).getD []` are the values of the `i`-th declared
field. -/
inductive HasRequired (S : Schema) : MsgTy → Msg → Prop where
  | mk {t : MsgTy} {m : Msg} (required : ∀ (i : Nat) (d : FieldDesc), (S t)[i]? = some d → d.label = .required → (m[i]?).getD [] ≠ [])
      (nested : ∀ (i : Nat) (d : FieldDesc) (t' : MsgTy) (m' : Msg), (S t)[i]? = some d → d.kind = .msg t' →
        .msg m' ∈ (m[i]?).getD [] → HasRequired S t' m') : HasRequired S t m

def goodFields (ds : List FieldDesc) : Bool :=
  ds.all (fun d => decide (1 ≤ d.num ∧ d.num < 536870912)) && decide ((ds.map (·.num)).Nodup)

/-- Field numbers are in the protobuf range and distinct within each message. -/
def goodSchema (S : Schema) : Prop := ∀ t, goodFields (S t) = true

end Neutron.Proto
