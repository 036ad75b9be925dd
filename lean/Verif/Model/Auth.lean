import Verif.Model.Basic

/-!
# OAuth2 client credentials (`src/auth.rs`)

Times are integers (nanoseconds since the epoch).  The HTTP request is an input: its result is chosen by the environment.
The `Mutex` around the cache is held across the request, so calls happen one after the other; a sequence of calls is a list.
-/

namespace Neutron.Auth

/-- `src/auth.rs:31-35` `struct CachedToken`. -/
structure CachedToken where
  accessToken : String
  expiresOn : Int
  deriving DecidableEq, Repr

/-- `src/auth.rs:37-41` `is_expired`. -/
def CachedToken.isExpired (t : CachedToken) (now : Int) : Bool := decide (now > t.expiresOn)

/-- What the token endpoint answers (`src/auth.rs:25-29`, `89-105`): a token with its lifetime in seconds, or a failure. -/
inductive Response where
  | token (accessToken : String) (expiresIn : Int)
  | failed (message : String)
  deriving DecidableEq, Repr

/-- `chrono`'s `DateTime<Utc>` range: `Duration::seconds` and `+` panic outside it. -/
structure Clock where
  minTime : Int
  maxTime : Int

/-- `Utc::now() + chrono::Duration::seconds(s)`. -/
def Clock.after (c : Clock) (now s : Int) : Outcome Int :=
  let t := now + s * 1000000000
  if c.minTime ≤ t ∧ t ≤ c.maxTime then .ok t else .panic

/-- One call of `auth_data`: the clock reading at the start, the endpoint's answer and the clock reading after it (the last
two are looked at only if a request is made). -/
structure CallInput where
  now : Int
  response : Response
  later : Int

/-- The outcome of a call and whether it made a request. -/
structure CallResult where
  outcome : Outcome Bytes
  requested : Bool

/-- `src/auth.rs:70-87` `get_auth_data` with `src/auth.rs:110-114` (`map_err` to `AuthenticationFailed`): new cache and result.
`String::into_bytes` is UTF-8. -/
def authData (clock : Clock) (cache : Option CachedToken) (i : CallInput) : Option CachedToken × CallResult :=
  let request : Option CachedToken × CallResult :=
    match i.response with
    | .failed m => (cache, ⟨.err (.authenticationFailed m), true⟩)
    | .token t s =>
      match clock.after i.later s with
      | .ok e => (some ⟨t, e⟩, ⟨.ok t.toUTF8.toList, true⟩)
      | .err e => (cache, ⟨.err e, true⟩)
      | .panic => (cache, ⟨.panic, true⟩)
  match cache with
  | some t => if t.isExpired i.now then request else (cache, ⟨.ok t.accessToken.toUTF8.toList, false⟩)
  | none => request

/-- A sequence of calls, starting with an empty cache (`src/auth.rs:53-68`). -/
def run (clock : Clock) (is : List CallInput) : Option CachedToken × List (CallInput × CallResult) :=
  is.foldl (fun (c, rs) i => let (c', r) := authData clock c i; (c', rs ++ [(i, r)])) (none, [])

/-- `src/auth.rs:116-118`. -/
def methodName : String := "token"

end Neutron.Auth
