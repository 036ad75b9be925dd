import Verif.Model.ProtoWire
import Mathlib.Data.List.Forall2

/-!
# The protobuf encoding, as the protobuf documentation describes it

A declarative description of which byte strings encode which message: any order of fields, varints of any length up to ten
bytes, packed and unpacked lists, unknown fields in between, later values of singular fields replacing earlier ones.  Nothing here
refers to the functions of `Model/ProtoWire.lean`, only to its types of values and field descriptions, and to `utf8`.
Groups (wire types 3 and 4) are not part of this description.
-/

namespace Neutron.Proto.Format

open Neutron

/-- Base-128 digits, least significant first; every byte but the last has its top bit set. -/
inductive Digits : Bytes → Nat → Prop where
  | last (b : UInt8) (h : b.toNat < 128) : Digits [b] b.toNat
  | more (b : UInt8) (bs : Bytes) (v : Nat) (h : 128 ≤ b.toNat) (hv : Digits bs v) : Digits (b :: bs) (b.toNat % 128 + 128 * v)

/-- A varint: at most ten digits, read modulo 2^64. -/
def IsVarint (bs : Bytes) (v : Nat) : Prop := ∃ n, Digits bs n ∧ bs.length ≤ 10 ∧ v = n % 2 ^ 64

/-- Little-endian numbers. -/
inductive LittleEndian : Bytes → Nat → Prop where
  | nil : LittleEndian [] 0
  | cons (b : UInt8) (bs : Bytes) (v : Nat) (h : LittleEndian bs v) : LittleEndian (b :: bs) (b.toNat + 256 * v)

/-- The tag of a field: its number and wire type, packed into a 32-bit varint. -/
def IsTag (bs : Bytes) (num wireType : Nat) : Prop := IsVarint bs (num * 8 + wireType) ∧ 1 ≤ num ∧ num * 8 + wireType < 2 ^ 32

/-- One field: wire types 0 (varint), 1 (64 bit), 2 (length-delimited), 5 (32 bit). -/
inductive IsField : Bytes → Nat × Raw → Prop where
  | varint {tb vb : Bytes} {num v : Nat} (ht : IsTag tb num 0) (hv : IsVarint vb v) : IsField (tb ++ vb) (num, .varint v)
  | fixed64 {tb vb : Bytes} {num v : Nat} (ht : IsTag tb num 1) (hl : vb.length = 8) (hv : LittleEndian vb v) :
      IsField (tb ++ vb) (num, .fixed64 v)
  | len {tb lb data : Bytes} {num : Nat} (ht : IsTag tb num 2) (hl : IsVarint lb data.length) :
      IsField (tb ++ lb ++ data) (num, .len data)
  | fixed32 {tb vb : Bytes} {num v : Nat} (ht : IsTag tb num 5) (hl : vb.length = 4) (hv : LittleEndian vb v) :
      IsField (tb ++ vb) (num, .fixed32 v)

/-- Fields one after the other. -/
inductive IsFields : Bytes → List (Nat × Raw) → Prop where
  | nil : IsFields [] []
  | cons {fb bs : Bytes} {f : Nat × Raw} {fs : List (Nat × Raw)} (h : IsField fb f) (hs : IsFields bs fs) : IsFields (fb ++ bs) (f :: fs)

/-- Varints one after the other (a packed list). -/
inductive IsPacked : Bytes → List Nat → Prop where
  | nil : IsPacked [] []
  | cons {vb bs : Bytes} {v : Nat} {vs : List Nat} (h : IsVarint vb v) (hs : IsPacked bs vs) : IsPacked (vb ++ bs) (v :: vs)

/-- The number a 64-bit pattern stands for, kind by kind: unsigned; two's complement, the shorter types looking at the low
32 bits only; a boolean is true unless the pattern is 0. -/
inductive Number : Kind → Nat → Int → Prop where
  | u64 (v : Nat) : Number .u64 v v
  | u32 (v : Nat) : Number .u32 v ((v % 2 ^ 32 : Nat) : Int)
  | i64 (v : Nat) (n : Int) (h1 : -2 ^ 63 ≤ n) (h2 : n < 2 ^ 63) (h : n % 2 ^ 64 = (v : Int) % 2 ^ 64) : Number .i64 v n
  | i32 (v : Nat) (n : Int) (h1 : -2 ^ 31 ≤ n) (h2 : n < 2 ^ 31) (h : n % 2 ^ 32 = (v : Int) % 2 ^ 32) : Number .i32 v n
  | enum (v : Nat) (n : Int) (h1 : -2 ^ 31 ≤ n) (h2 : n < 2 ^ 31) (h : n % 2 ^ 32 = (v : Int) % 2 ^ 32) : Number .enum v n
  | true (v : Nat) (h : v ≠ 0) : Number .bool v 1
  | false : Number .bool 0 0

/-- The kinds written as varints. -/
def numeric : Kind → Bool
  | .u64 | .u32 | .i64 | .i32 | .enum | .bool => true
  | _ => false

/-- What one occurrence of a field contributes, given what byte strings encode which nested messages (`sub`). -/
inductive Says (sub : MsgTy → Bytes → Msg → Prop) (d : FieldDesc) : Raw → List Val → Prop where
  | number {v : Nat} {n : Int} (h : Number d.kind v n) : Says sub d (.varint v) [.int n]
  | double {v : Nat} (h : d.kind = .dbl) : Says sub d (.fixed64 v) [.dbl v]
  | string {s : String} (h : d.kind = .str) : Says sub d (.len (utf8 s)) [.str s]
  | bytes {b : Bytes} (h : d.kind = .byt) : Says sub d (.len b) [.byt b]
  | message {t : MsgTy} {b : Bytes} {m : Msg} (h : d.kind = .msg t) (hm : sub t b m) : Says sub d (.len b) [.msg m]
  | packed {b : Bytes} {vs : List Nat} {ns : List Int} (hk : numeric d.kind = true) (hr : d.label = .repeated) (hp : IsPacked b vs)
      (hn : List.Forall₂ (Number d.kind) vs ns) : Says sub d (.len b) (ns.map .int)
  /- a wire type that does not go with the declared kind: treated like an unknown field -/
  | notVarint {v : Nat} (h : numeric d.kind = false) : Says sub d (.varint v) []
  | notDouble {v : Nat} (h : d.kind ≠ .dbl) : Says sub d (.fixed64 v) []
  | notFixed32 {v : Nat} : Says sub d (.fixed32 v) []
  | notPacked {b : Bytes} (hk : numeric d.kind = true) (hr : d.label ≠ .repeated) : Says sub d (.len b) []
  | notLen {b : Bytes} (hk : d.kind = .dbl) : Says sub d (.len b) []

/-- The occurrences of one field, in order. -/
def occurrences (fs : List (Nat × Raw)) (num : Nat) : List Raw := fs.filterMap fun f => if f.1 = num then some f.2 else none

/-- The value of one field: of a repeated one, everything said, in order; of a singular one, what was said last, if anything. -/
def FieldIs (sub : MsgTy → Bytes → Msg → Prop) (fs : List (Nat × Raw)) (d : FieldDesc) (vs : List Val) : Prop :=
  ∃ said : List (List Val), List.Forall₂ (Says sub d) (occurrences fs d.num) said ∧
    vs = if d.label = .repeated then said.flatten else said.flatten.getLast?.toList

/-- `Encodes S k t bs m`: the bytes `bs` are an encoding of the message `m` of type `t`, nested at most `k` deep. -/
def Encodes (S : Schema) : Nat → MsgTy → Bytes → Msg → Prop
  | 0, _, _, _ => False
  | k + 1, t, bs, m => ∃ fs, IsFields bs fs ∧ List.Forall₂ (FieldIs (Encodes S k) fs) (S t) m

end Neutron.Proto.Format
