import Verif.Model.Basic
import Verif.Model.ProtoTypes

/-!
# Protobuf wire format

`build.rs` generates Rust code for `src/protos/pulsar.proto` with `protobuf-codegen` 3 (rust-protobuf); `codec.rs`
(lines 85, 104, 132, 142) and `message.rs` (lines 453-454, 673) call `write_to_bytes`, `compute_size` and
`parse_from_bytes` on the generated types.  This module models those generated functions, driven by a schema
(`ProtoSchema.lean` holds the schema of `pulsar.proto`).

A message value is the list of its fields' values, aligned with the field list of its type: entry `i` is the list of
values of the `i`-th declared field (`[]` = not set, one value = a set singular field, any number = repeated).

Simplifications, all irrelevant to messages this client builds itself: unknown fields are skipped and not retained
(rust-protobuf keeps them in `special_fields`; nothing in /repo reads them, but a message id with unknown fields that is put into an
acknowledgement would be written back with them); group wire types (3, 4) are rejected (rust-protobuf skips unknown groups);
a repeated occurrence of a singular field replaces the earlier one; the tenth byte of a varint is taken modulo 2^64.
-/

namespace Neutron.Proto


/-- Field types of proto2 that occur in `src/protos/pulsar.proto`. -/
inductive Kind where
  | u64 | i64 | i32 | u32 | bool | enum
  | dbl
  | str | byt
  | msg (t : MsgTy)
  deriving DecidableEq, Repr

inductive Label where
  | required | optional | repeated
  deriving DecidableEq, Repr

structure FieldDesc where
  num : Nat
  label : Label
  kind : Kind
  deriving DecidableEq, Repr

/-- A schema gives each message type its declared fields. -/
abbrev Schema := MsgTy → List FieldDesc

/-- Field values.  Every integer-like kind (`u64 i64 i32 u32 bool enum`) carries its mathematical value;
an enum carries its number (rust-protobuf's `EnumOrUnknown` keeps unknown numbers too). -/
inductive Val where
  | int (n : Int)
  | dbl (bits : Nat)
  | str (s : String)
  | byt (b : Bytes)
  | msg (m : List (List Val))

/-- A message value: one list of values per declared field. -/
abbrev Msg := List (List Val)

/-- The UTF-8 bytes of a string. -/
def utf8 (s : String) : Bytes := s.toByteArray.data.toList

/-- Parsing UTF-8 (`String::from_utf8`): `none` if the bytes are not valid UTF-8. -/
def utf8? (b : Bytes) : Option String := String.fromUTF8? ⟨b.toArray⟩

/-! ## Writing -/

/-- Base-128 varint of a value below 2^64, at most `k + 1` bytes (`CodedOutputStream::write_raw_varint64`). -/
def varintF : Nat → Nat → Bytes
  | 0, n => [UInt8.ofNat (n % 128)]
  | k + 1, n => if n < 128 then [UInt8.ofNat n] else UInt8.ofNat (n % 128 + 128) :: varintF k (n / 128)

/-- A 64-bit varint takes at most ten bytes. -/
def varint (n : Nat) : Bytes := varintF 9 n

/-- The 64-bit pattern written for an integer-like value (negative `int32`/`int64`/enum values are sign extended). -/
def toWire (n : Int) : Nat := (n % 18446744073709551616).toNat

/-- Little-endian 64 bits, for `double`. -/
def le64 (n : Nat) : Bytes :=
  [UInt8.ofNat n, UInt8.ofNat (n / 256), UInt8.ofNat (n / 65536), UInt8.ofNat (n / 16777216),
   UInt8.ofNat (n / 4294967296), UInt8.ofNat (n / 1099511627776), UInt8.ofNat (n / 281474976710656),
   UInt8.ofNat (n / 72057594037927936)]

/-- A field on the wire before interpretation by a schema. -/
inductive Raw where
  | varint (n : Nat)
  | fixed64 (n : Nat)
  | len (b : Bytes)
  | fixed32 (n : Nat)
  deriving DecidableEq, Repr

/-- Wire type of a raw field. -/
def Raw.wireType : Raw → Nat
  | .varint _ => 0
  | .fixed64 _ => 1
  | .len _ => 2
  | .fixed32 _ => 5

def le32 (n : Nat) : Bytes :=
  [UInt8.ofNat n, UInt8.ofNat (n / 256), UInt8.ofNat (n / 65536), UInt8.ofNat (n / 16777216)]

/-- Body of a raw field (everything after its tag). -/
def Raw.body : Raw → Bytes
  | .varint n => Proto.varint n
  | .fixed64 n => le64 n
  | .len b => Proto.varint b.length ++ b
  | .fixed32 n => le32 n

/-- A complete raw field: tag, then body. -/
def encRaw (num : Nat) (r : Raw) : Bytes := varint (num * 8 + r.wireType) ++ r.body

def encRaws : List (Nat × Raw) → Bytes
  | [] => []
  | (num, r) :: rs => encRaw num r ++ encRaws rs

/- `write_to_with_cached_sizes` of the generated types: fields in declaration order, each occurrence as one raw field.
`none`-like mismatches between a value and the declared kind (impossible in the typed Rust structs) write nothing. -/
mutual
def encMsg (S : Schema) : List FieldDesc → List (List Val) → Bytes
  | d :: ds, vs :: m => encVals S d vs ++ encMsg S ds m
  | _, _ => []
def encVals (S : Schema) (d : FieldDesc) : List Val → Bytes
  | [] => []
  | v :: vs => encVal S d v ++ encVals S d vs
def encVal (S : Schema) (d : FieldDesc) : Val → Bytes
  | .int n => encRaw d.num (.varint (toWire n))
  | .dbl n => encRaw d.num (.fixed64 n)
  | .str s => encRaw d.num (.len (utf8 s))
  | .byt b => encRaw d.num (.len b)
  | .msg m =>
    match d.kind with
    | .msg t => encRaw d.num (.len (encMsg S (S t) m))
    | _ => []
end

/-! ## Required fields -/

/- `Message::is_initialized`: every required field is set, recursively. -/
mutual
def initMsg (S : Schema) : List FieldDesc → List (List Val) → Bool
  | d :: ds, vs :: m => (d.label != .required || !vs.isEmpty) && initVals S d vs && initMsg S ds m
  | d :: ds, [] => d.label != .required && initMsg S ds []
  | [], _ => true
def initVals (S : Schema) (d : FieldDesc) : List Val → Bool
  | [] => true
  | v :: vs => initVal S d v && initVals S d vs
def initVal (S : Schema) (d : FieldDesc) : Val → Bool
  | .msg m =>
    match d.kind with
    | .msg t => initMsg S (S t) m
    | _ => true
  | _ => true
end

/-- `write_to_bytes`: fails when a required field is missing. -/
def writeToBytes (S : Schema) (t : MsgTy) (m : Msg) : Option Bytes :=
  if initMsg S (S t) m then some (encMsg S (S t) m) else none

/-- `compute_size`. -/
def computeSize (S : Schema) (t : MsgTy) (m : Msg) : Nat := (encMsg S (S t) m).length

/-! ## Reading -/

/-- Reads a varint of at most `k` bytes. -/
def readVarintF : Nat → Bytes → Option (Nat × Bytes)
  | 0, _ => none
  | _ + 1, [] => none
  | k + 1, b :: bs =>
    if b.toNat < 128 then some (b.toNat, bs)
    else match readVarintF k bs with
      | some (v, r) => some (b.toNat - 128 + 128 * v, r)
      | none => none

/-- `read_raw_varint64`: at most ten bytes, value modulo 2^64. -/
def readVarint (bs : Bytes) : Option (Nat × Bytes) :=
  match readVarintF 10 bs with
  | some (v, r) => some (v % 18446744073709551616, r)
  | none => none

def readLe32 : Bytes → Option (Nat × Bytes)
  | a :: b :: c :: d :: r => some (a.toNat + 256 * (b.toNat + 256 * (c.toNat + 256 * d.toNat)), r)
  | _ => none

def readLe64 : Bytes → Option (Nat × Bytes)
  | a :: b :: c :: d :: e :: f :: g :: h :: r =>
    some (a.toNat + 256 * (b.toNat + 256 * (c.toNat + 256 * (d.toNat + 256 * (e.toNat + 256 * (f.toNat + 256 * (g.toNat
      + 256 * h.toNat)))))), r)
  | _ => none

/-- The body of a field with the given wire type. -/
def readBody (wt : Nat) (bs : Bytes) : Option (Raw × Bytes) :=
  if wt = 0 then (readVarint bs).map fun (v, r) => (.varint v, r)
  else if wt = 1 then (readLe64 bs).map fun (v, r) => (.fixed64 v, r)
  else if wt = 2 then
    match readVarint bs with
    | some (n, r) => if n ≤ r.length then some (.len (r.take n), r.drop n) else none
    | none => none
  else if wt = 5 then (readLe32 bs).map fun (v, r) => (.fixed32 v, r)
  else none

/-- One field: tag (a 32-bit varint, field number not 0), then body. -/
def readRaw (bs : Bytes) : Option ((Nat × Raw) × Bytes) :=
  match readVarint bs with
  | some (tag, r) =>
    if tag < 4294967296 ∧ 8 ≤ tag then
      match readBody (tag % 8) r with
      | some (raw, r') => some ((tag / 8, raw), r')
      | none => none
    else none
  | none => none

/-- All fields of a message body.  `k` bounds the number of fields; every field takes at least one byte, so the
length of the input is enough. -/
def readRawsF : Nat → Bytes → Option (List (Nat × Raw))
  | _, [] => some []
  | 0, _ :: _ => none
  | k + 1, b :: bs =>
    match readRaw (b :: bs) with
    | some (f, r) => (readRawsF k r).map (f :: ·)
    | none => none

def readRaws (bs : Bytes) : Option (List (Nat × Raw)) := readRawsF bs.length bs

/-- Reads a packed list of varints. -/
def readPackedF : Nat → Bytes → Option (List Nat)
  | _, [] => some []
  | 0, _ :: _ => none
  | k + 1, b :: bs =>
    match readVarint (b :: bs) with
    | some (v, r) => (readPackedF k r).map (v :: ·)
    | none => none

/-- Interprets a 64-bit pattern as a signed integer. -/
def signed64 (v : Nat) : Int :=
  if v < 9223372036854775808 then (v : Int) else (v : Int) - 18446744073709551616

/-- Interprets the low 32 bits of a pattern as a signed integer. -/
def signed32 (v : Nat) : Int :=
  let w := v % 4294967296
  if w < 2147483648 then (w : Int) else (w : Int) - 4294967296

/-- Interprets a varint according to the declared kind (`read_uint64`, `read_int32`, `read_bool`, ...). -/
def ofVarint : Kind → Nat → Option Val
  | .u64, v => some (.int v)
  | .i64, v => some (.int (signed64 v))
  | .i32, v => some (.int (signed32 v))
  | .enum, v => some (.int (signed32 v))
  | .u32, v => some (.int ((v % 4294967296 : Nat) : Int))
  | .bool, v => some (.int (if v = 0 then 0 else 1))
  | _, _ => none

/-- What a known field number with some raw body amounts to. -/
inductive Conv where
  | skip                      -- wire type not the declared one: treated as unknown
  | fail                      -- malformed (bad UTF-8, bad nested message)
  | vals (vs : List Val)

def Conv.ofOption : Option Val → Conv
  | some v => .vals [v]
  | none => .fail

/-- Interprets a raw field by its declared kind; `sub` parses nested messages. -/
def interp (sub : MsgTy → Bytes → Option Msg) (d : FieldDesc) : Raw → Conv
  | .varint v =>
    match ofVarint d.kind v with
    | some x => .vals [x]
    | none => .skip
  | .fixed64 n => match d.kind with | .dbl => .vals [.dbl n] | _ => .skip
  | .fixed32 _ => .skip
  | .len b =>
    match d.kind with
    | .str => .ofOption ((utf8? b).map .str)
    | .byt => .vals [.byt b]
    | .msg t => .ofOption ((sub t b).map .msg)
    | .dbl => .skip
    | k =>
      if d.label = .repeated then
        match readPackedF b.length b with
        | some vs => .vals (vs.filterMap (ofVarint k))
        | none => .fail
      else .skip

/-- Stores one raw field into a message (the body of the generated `merge_from` loop). -/
def putRaw (sub : MsgTy → Bytes → Option Msg) : List FieldDesc → Msg → Nat × Raw → Option Msg
  | d :: ds, vs :: m, (num, raw) =>
    if d.num = num then
      match interp sub d raw with
      | .skip => some (vs :: m)
      | .fail => none
      | .vals ws => some ((if d.label = .repeated then vs ++ ws else ws) :: m)
    else (putRaw sub ds m (num, raw)).map (vs :: ·)
  | _, m, _ => some m

/-- Stores raw fields one after the other. -/
def putRaws (sub : MsgTy → Bytes → Option Msg) (ds : List FieldDesc) : Msg → List (Nat × Raw) → Option Msg
  | m, [] => some m
  | m, f :: fs =>
    match putRaw sub ds m f with
    | some m' => putRaws sub ds m' fs
    | none => none

/-- An empty message of a type (`T::new()`). -/
def newMsg (S : Schema) (t : MsgTy) : Msg := (S t).map fun _ => []

/-- `merge_from` on a fresh message, with at most `fuel` levels of nesting. -/
def decodeF (S : Schema) : Nat → MsgTy → Bytes → Option Msg
  | 0, _, _ => none
  | k + 1, t, bs =>
    match readRaws bs with
    | some rs => putRaws (decodeF S k) (S t) (newMsg S t) rs
    | none => none

/-- rust-protobuf's recursion limit: 100 levels below the top-level message. -/
def maxDepth : Nat := 101

/-- `parse_from_bytes`: decode, then check required fields. -/
def parseFromBytes (S : Schema) (t : MsgTy) (bs : Bytes) : Option Msg :=
  match decodeF S maxDepth t bs with
  | some m => if initMsg S (S t) m then some m else none
  | none => none

/-! ## Access by field number (generated getters and setters) -/

def lookupF : List FieldDesc → Msg → Nat → List Val
  | d :: ds, vs :: m, num => if d.num = num then vs else lookupF ds m num
  | _, _, _ => []

def setF : List FieldDesc → Msg → Nat → List Val → Msg
  | d :: ds, vs :: m, num, ws => if d.num = num then ws :: m else vs :: setF ds m num ws
  | _, m, _, _ => m

/-- Value of a singular integer-like field, if set. -/
def intOf : List Val → Option Int
  | [.int n] => some n
  | _ => none

def strOf : List Val → Option String
  | [.str s] => some s
  | _ => none

def msgOf : List Val → Option Msg
  | [.msg m] => some m
  | _ => none

end Neutron.Proto
