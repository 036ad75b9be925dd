import Verif.Model.Basic

/-!
# How a server reads a form body (`application/x-www-form-urlencoded`)

The parser of the URL standard: cut at `&`, drop empty pieces, cut each piece at its first `=`, read `+` as a space, then undo
`%XX` (with digits of either case; a `%` that is not followed by two digits stands for itself).
-/

namespace Neutron.Form

/-- The pieces between the separators. -/
def splitOn (sep : UInt8) : Bytes → List Bytes
  | [] => [[]]
  | b :: bs => if b = sep then [] :: splitOn sep bs else match splitOn sep bs with
    | p :: ps => (b :: p) :: ps
    | [] => [[b]]

/-- The value of a hexadecimal digit. -/
def digit (b : UInt8) : Option Nat :=
  let n := b.toNat
  if 48 ≤ n ∧ n ≤ 57 then some (n - 48)
  else if 65 ≤ n ∧ n ≤ 70 then some (n - 55)
  else if 97 ≤ n ∧ n ≤ 102 then some (n - 87)
  else none

/-- `+` is a space and `%XX` a byte. -/
def unescape : Bytes → Bytes
  | [] => []
  | 43 :: bs => 32 :: unescape bs
  | 37 :: h :: l :: bs => match digit h, digit l with
    | some x, some y => UInt8.ofNat (16 * x + y) :: unescape bs
    | _, _ => 37 :: unescape (h :: l :: bs)
  | b :: bs => b :: unescape bs
termination_by bs => bs.length

/-- Name and value of a piece: cut at the first `=`; without one, the value is empty. -/
def cut : Bytes → Bytes × Bytes
  | [] => ([], [])
  | b :: bs => if b = 61 then ([], bs) else (b :: (cut bs).1, (cut bs).2)

/-- What a server reads: names and values, in order. -/
def parse (body : Bytes) : List (Bytes × Bytes) :=
  ((splitOn 38 body).filter (· ≠ [])).map fun p => (unescape (cut p).1, unescape (cut p).2)

/-- The UTF-8 bytes of a text. -/
def utf8 (s : String) : Bytes := s.toUTF8.data.toList

/-- The characters that stand for themselves in a form body: letters, digits, `*`, `-`, `.`, `_`. -/
def unreserved : String := "ABCDEFGHIJKLMNOPQRSTUVWXYZabcdefghijklmnopqrstuvwxyz0123456789*-._"

/-- The words of a text: the pieces between its spaces. -/
def words (s : List Char) : List (List Char) :=
  match s with
  | [] => [[]]
  | c :: cs => if c = ' ' then [] :: words cs else match words cs with
    | w :: ws => (c :: w) :: ws
    | [] => [[c]]

end Neutron.Form
