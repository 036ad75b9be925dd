import Verif.Model.Auth

/-! # Specification of token caching, from the history of calls alone -/

namespace Neutron.Auth

/-- The most recent token obtained from the endpoint in this history of calls, with its expiry time: the last call that made
a request, was granted a token and returned it. -/
def lastGrant : List (CallInput × CallResult) → Option (String × Int)
  | [] => none
  | (i, r) :: rs =>
    match lastGrant rs with
    | some g => some g
    | none =>
      match r.requested, i.response, r.outcome with
      | true, .token t s, .ok _ => some (t, i.later + s * 1000000000)
      | _, _, _ => none

end Neutron.Auth
