import Verif.Model.Basic

/-! # How errors print (`src/error.rs:28-47`) -/

namespace Neutron

/-- `src/error.rs:28-47` `impl Display for NeutronError`. -/
def NeutronError.display : NeutronError → String
  | .disconnected => "Disconnected"
  | .operationTimeout => "Operation timeout"
  | .unsupportedCommand => "Unsupported command"
  | .decodeFailed => "Decode failed"
  | .encodeFailed => "Encode failed"
  | .channelTerminated => "Channel terminated"
  | .unresolvable => "Unresolvable"
  | .io => "IO error"
  | .deserializationFailed => "Deserialization failed"
  | .serializationFailed => "Serialization failed"
  | .authenticationFailed e => "Authentication failed: " ++ e
  | .connectionFailed => "Connection failed"
  | .invalidUrl => "Invalid URL"
  | .pulsarError e => "Pulsar error: " ++ e

end Neutron
