import Verif.Model.Addr
import Verif.Model.Basic

/-!
# Opening a connection (`src/connection.rs:75-120`)
-/

namespace Neutron

/-- The outside world of `PulsarConnection::connect`: `Url::parse` with `host_str` and `port`, the TCP dial,
`ServerName::try_from`, the TLS handshake. -/
structure Net where
  parseUrl : String → Option (Option String × Option UInt16)
  dial : String → UInt16 → Bool
  serverName : String → Bool
  handshake : String → Bool

/-- `src/connection.rs:17-20` `enum ConnectionStream`. -/
inductive Transport where
  | tcp | tls
  deriving DecidableEq, Repr

/-- `src/connection.rs:75-120` `PulsarConnection::connect`. -/
def openConnection (net : Net) (a : BrokerAddress) : Outcome Transport := do
  let url ← .okOr .invalidUrl (net.parseUrl a.baseUrl)
  let host ← .okOr .invalidUrl url.1
  let port ← .okOr .invalidUrl url.2
  if ¬ net.dial host port then .err .connectionFailed
  else if a.isTls then
    -- line 103 `ServerName::try_from(host).unwrap()`
    if ¬ net.serverName host then .panic
    else if net.handshake host then pure .tls
    else .err .connectionFailed
  else pure .tcp

end Neutron
