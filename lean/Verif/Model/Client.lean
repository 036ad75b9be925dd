import Verif.Model.Message

/-!
# API calls of a client (`src/client.rs`): the command each call hands to the engine

`Call` lists the calls of the `PulsarClient` trait that issue a command; `Client.issue` is the part of each call up to and
including the hand-over.  `lookup_topic` issues further commands depending on the answer; see `Model/Session.lean`.
-/

namespace Neutron

/-- `src/client.rs:20-26` `struct Client` (the channel to the engine is part of `Model/Sys.lean`).  The two counters are
`AtomicU64`s; `fetch_add` is one atomic step and wraps. -/
structure Client where
  clientId : UInt64
  clientName : String
  requestId : UInt64 := 0
  sequenceId : UInt64 := 0
  deriving DecidableEq, Repr

/-- The commands of `src/client.rs:132-268`. -/
inductive Call where
  | connect
  | connectToProxy (proxy : String)
  | lookupTopic (topic : String)
  | producer (topic : String)
  | subscribe (topic subscription : String)
  | ack (messageId : MessageId)
  | sendMessage (payload : Bytes)
  | sendBatch (payloads : List Bytes)
  | flow (messagePermits : UInt32)

/-- The command each call hands over, and the client's counters afterwards. -/
def Client.issue (c : Client) : Call → Client × Outbound
  -- `src/client.rs:132-140`
  | .connect => (c, .connect ⟨none, none, none⟩)
  -- `src/client.rs:142-153`
  | .connectToProxy p => (c, .connect ⟨none, none, some (.proxy "" p)⟩)
  -- `src/client.rs:157-161` and `170-173`
  | .lookupTopic t => ({ c with requestId := c.requestId + 1 }, .lookupTopic ⟨c.requestId, t⟩)
  -- `src/client.rs:186-196`
  | .producer t => ({ c with requestId := c.requestId + 1 }, .producer ⟨t, c.clientId, c.requestId, some c.clientName⟩)
  -- `src/client.rs:198-209`
  | .subscribe t s => ({ c with requestId := c.requestId + 1 }, .subscribe ⟨t, s, c.clientId, c.requestId, .shared⟩)
  -- `src/client.rs:211-222`
  | .ack m => ({ c with requestId := c.requestId + 1 }, .ack [⟨c.clientId, m, c.requestId⟩])
  -- `src/client.rs:224-236`
  | .sendMessage p => ({ c with sequenceId := c.sequenceId + 1 }, .send (.single c.clientName c.clientId c.sequenceId p))
  -- `src/client.rs:238-250`
  | .sendBatch ps => ({ c with sequenceId := c.sequenceId + 1 }, .send (.batch c.clientName c.clientId c.sequenceId ps))
  -- `src/client.rs:262-268`
  | .flow n => (c, .flow ⟨c.clientId, n⟩)

/-- Whether the call waits for a response (`send_command_and_resolve`, `src/client.rs:94-123`) or not (`send_command`,
`src/client.rs:84-92`). -/
def Call.expectsResponse : Call → Bool
  | .flow _ => false
  | _ => true

end Neutron
