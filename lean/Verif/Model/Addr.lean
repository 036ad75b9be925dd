/-!
# Broker addresses (`src/broker_address.rs`, `src/pulsar.rs:14-30`)
-/

namespace Neutron

/-- `src/broker_address.rs:3-7` `enum BrokerAddress` (derived `PartialEq`, `Eq`, `Hash`: structural). -/
inductive BrokerAddress where
  | direct (url : String)
  | proxy (url : String) (proxy : String)
  deriving DecidableEq, Repr

/-- `str::trim_start_matches(p)`: removes the prefix `p` as long as the rest starts with it. -/
def trimStart (p : List Char) (l : List Char) : List Char :=
  if _h : p ≠ [] ∧ p.isPrefixOf l = true then trimStart p (l.drop p.length) else l
termination_by l.length
decreasing_by
  have h1 : p.length ≤ l.length := (List.isPrefixOf_iff_prefix.mp _h.2).length_le
  have h2 : 0 < p.length := List.length_pos_iff.mpr _h.1
  simp only [List.length_drop]
  omega

/-- `str::starts_with`. -/
def startsWith (p s : String) : Bool := p.toList.isPrefixOf s.toList

namespace BrokerAddress

/-- `src/broker_address.rs:10-15` `base_url`. -/
def baseUrl : BrokerAddress → String
  | .direct url => url
  | .proxy url _ => url

/-- `src/broker_address.rs:17-22` `is_proxy`. -/
def isProxy : BrokerAddress → Bool
  | .direct _ => false
  | .proxy _ _ => true

/-- `src/broker_address.rs:24-29` `get_proxy`. -/
def getProxy : BrokerAddress → Option String
  | .direct _ => none
  | .proxy _ p => some (String.ofList (trimStart "pulsar://".toList p.toList))

/-- `src/broker_address.rs:31-33` `is_tls`. -/
def isTls (b : BrokerAddress) : Bool := startsWith "pulsar+ssl://" b.baseUrl

/-- `src/broker_address.rs:36-43` `Display` (`to_string`). -/
def display : BrokerAddress → String
  | .direct url => url
  | .proxy url p => url ++ " -> " ++ p

end BrokerAddress

/-- `src/pulsar.rs:14-18` `struct PulsarConfig`. -/
structure PulsarConfig where
  endpointUrl : String
  endpointPort : UInt16
  deriving DecidableEq, Repr

/-- `src/pulsar.rs:21-25` `PulsarConfig::broker_address`. -/
def PulsarConfig.brokerAddress (c : PulsarConfig) : BrokerAddress :=
  .direct (c.endpointUrl ++ ":" ++ Nat.repr c.endpointPort.toNat)

/-- `src/pulsar.rs:27-29` `PulsarConfig::is_tls`. -/
def PulsarConfig.isTls (c : PulsarConfig) : Bool := startsWith "pulsar+ssl://" c.endpointUrl

end Neutron
