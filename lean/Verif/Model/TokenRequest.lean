import Verif.Model.Auth

/-!
# The OAuth2 token request (`src/auth.rs`)

What `ClientCredentialsOAuth2` sends to the token endpoint: the URL and the form body.  The body is what `reqwest`'s `form` makes
of the request struct (`serde_urlencoded` on top of `form_urlencoded::byte_serialize`).  The rest of the HTTP exchange is not modelled: its
result is an input of `Model/Auth.lean`.
-/

namespace Neutron.Auth

/-- `src/auth.rs:43-50` `struct ClientCredentialsOAuth2` without the cache. -/
structure Credentials where
  clientId : String
  clientSecret : String
  authority : String
  scope : String
  audience : Option String
  deriving DecidableEq, Repr

/-- `src/auth.rs:53-68` `ClientCredentialsOAuth2::new`; the arguments are in the order of the code. -/
def Credentials.new (clientId clientSecret authority : String) (scopes : List String) (audience : Option String) : Credentials where
  clientId := clientId
  clientSecret := clientSecret
  authority := authority
  scope := " ".intercalate scopes
  audience := audience

/-- A hexadecimal digit, upper case. -/
def hexDigit (n : Nat) : UInt8 := if n < 10 then UInt8.ofNat (48 + n) else UInt8.ofNat (55 + n)

/-- `form_urlencoded::byte_serialize`: the bytes that stand for themselves (letters, digits, `*`, `-`, `.`, `_`). -/
def plain (b : UInt8) : Bool :=
  let n := b.toNat
  (48 ≤ n && n ≤ 57) || (65 ≤ n && n ≤ 90) || (97 ≤ n && n ≤ 122) || n = 42 || n = 45 || n = 46 || n = 95

/-- `form_urlencoded::byte_serialize` of one byte: itself, `+` for a space, `%XX` otherwise. -/
def formByte (b : UInt8) : Bytes :=
  if plain b then [b]
  else if b = 32 then [43]
  else [37, hexDigit (b.toNat / 16), hexDigit (b.toNat % 16)]

/-- A string in the form body. -/
def formString (s : String) : Bytes := s.toUTF8.data.toList.flatMap formByte

/-- Pairs in the form body: `name=value`, joined by `&`. -/
def formBody : List (String × String) → Bytes
  | [] => []
  | [(n, v)] => formString n ++ 61 :: formString v
  | (n, v) :: ps => formString n ++ 61 :: formString v ++ 38 :: formBody ps

/-- A request. -/
structure Request where
  url : String
  body : Bytes
  deriving DecidableEq, Repr

/-- `src/auth.rs:15-23` `struct OAuth2TokenRequest`: its fields in order; `audience` is left out if there is none. -/
def Credentials.fields (c : Credentials) : List (String × String) :=
  [("client_id", c.clientId), ("scope", c.scope), ("client_secret", c.clientSecret), ("grant_type", "client_credentials")] ++
    c.audience.toList.map fun a => ("audience", a)

/-- `src/auth.rs:89-105` `request_new_token`, up to `send`. -/
def Credentials.request (c : Credentials) : Request :=
  ⟨c.authority ++ "/oauth2/v2.0/token", formBody c.fields⟩

end Neutron.Auth
