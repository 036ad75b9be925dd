/-!
# Basic vocabulary of the model

* `NeutronError` models `src/error.rs` lines 1-26.
* `Outcome` is how the model represents what a Rust function call ends in: a value, a `NeutronError`, or a panic.
* `Bytes` is `Vec<u8>` / `&[u8]` / `BytesMut` contents; big-endian 16/32-bit integers are what `bytes::BufMut::put_u16/put_u32`
  write and `nom::number::streaming::be_u16/be_u32`, `bytes::Buf::get_u32` read.
-/

namespace Neutron

/-- Contents of a Rust byte buffer. -/
abbrev Bytes := List UInt8

/-- `src/error.rs:1-17` `enum NeutronError`. -/
inductive NeutronError where
  | disconnected
  | operationTimeout
  | unsupportedCommand
  | decodeFailed
  | encodeFailed
  | channelTerminated
  | unresolvable
  | io
  | deserializationFailed
  | serializationFailed
  | authenticationFailed (s : String)
  | connectionFailed
  | invalidUrl
  | pulsarError (s : String)
  deriving DecidableEq, Repr

/-- `src/error.rs:19-26` `NeutronError::is_disconnect`. -/
def NeutronError.isDisconnect : NeutronError → Bool
  | .disconnected => true
  | .channelTerminated => true
  | _ => false

/-- How a Rust call ends: normally with a value, with an `Err(NeutronError)`, or by panicking
(`unwrap` on `None`/`Err`, slice index out of range, `unimplemented!`). -/
inductive Outcome (α : Type) where
  | ok (a : α)
  | err (e : NeutronError)
  | panic
  deriving DecidableEq, Repr

namespace Outcome

/-- The `?` operator: errors and panics propagate. -/
def bind {α β : Type} : Outcome α → (α → Outcome β) → Outcome β
  | .ok a, f => f a
  | .err e, _ => .err e
  | .panic, _ => .panic

instance : Monad Outcome where
  pure := .ok
  bind := Outcome.bind

@[simp] theorem bind_ok {α β : Type} (a : α) (f : α → Outcome β) : ((Outcome.ok a) >>= f) = f a := rfl
@[simp] theorem bind_err {α β : Type} (e : NeutronError) (f : α → Outcome β) :
    ((Outcome.err e : Outcome α) >>= f) = .err e := rfl
@[simp] theorem bind_panic {α β : Type} (f : α → Outcome β) : ((Outcome.panic : Outcome α) >>= f) = .panic := rfl
@[simp] theorem pure_eq {α : Type} (a : α) : (pure a : Outcome α) = .ok a := rfl

/-- `Option::unwrap`. -/
def unwrap {α : Type} : Option α → Outcome α
  | some a => .ok a
  | none => .panic

@[simp] theorem unwrap_some {α : Type} (a : α) : unwrap (some a) = .ok a := rfl
@[simp] theorem unwrap_none {α : Type} : unwrap (none : Option α) = .panic := rfl

/-- `Option::ok_or(e)?`. -/
def okOr {α : Type} (e : NeutronError) : Option α → Outcome α
  | some a => .ok a
  | none => .err e

end Outcome

/-- `put_u32`: four bytes, most significant first (`n` is taken modulo 2^32, as `as u32` does). -/
def be32 (n : Nat) : Bytes :=
  [UInt8.ofNat (n / 16777216), UInt8.ofNat (n / 65536), UInt8.ofNat (n / 256), UInt8.ofNat n]

/-- `put_u16`. -/
def be16 (n : Nat) : Bytes := [UInt8.ofNat (n / 256), UInt8.ofNat n]

/-- `be_u32` (streaming): needs four bytes, otherwise `Incomplete`. -/
def readBe32 : Bytes → Option (Nat × Bytes)
  | a :: b :: c :: d :: r => some (a.toNat * 16777216 + b.toNat * 65536 + c.toNat * 256 + d.toNat, r)
  | _ => none

/-- `be_u16` (streaming). -/
def readBe16 : Bytes → Option (Nat × Bytes)
  | a :: b :: r => some (a.toNat * 256 + b.toNat, r)
  | _ => none

/-- `nom::bytes::streaming::take(n)`: the first `n` bytes, or `Incomplete`. -/
def takeN (n : Nat) (bs : Bytes) : Option (Bytes × Bytes) :=
  if n ≤ bs.length then some (bs.take n, bs.drop n) else none

end Neutron
