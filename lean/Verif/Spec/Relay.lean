import Verif.Spec.Commands
import Verif.Spec.Received

/-!
# Two clients and the broker between them: what is relayed, what was sent, what was handed out
-/

namespace Neutron

open Proto

/-- What a broker does between a producer and a consumer of the same topic: reading the commands `ins` on the producer's connection, it
writes the commands `outs` on the consumer's.  Each `MESSAGE` it writes for consumer `cid` relays one `SEND` of producer `pid` (payload
bytes and announced number of messages unchanged), in the order of the sends and each at most once.  It may write other commands
between them.  If `all`, no send of the producer is left out. -/
inductive Relayed (all : Bool) (pid cid : UInt64) : List MessageCommand → List MessageCommand → Prop where
  | done : Relayed all pid cid [] []
  | relay {x y : MessageCommand} {s : UInt64} {mid : MessageId} {ins outs : List MessageCommand} :
      IsSendCommand x pid s → Relays x y → IsMessage y cid mid → Relayed all pid cid ins outs → Relayed all pid cid (x :: ins) (y :: outs)
  | unrelayed {x : MessageCommand} {ins outs : List MessageCommand} :
      (all = true → ∀ s, ¬ IsSendCommand x pid s) → Relayed all pid cid ins outs → Relayed all pid cid (x :: ins) outs
  | other {y : MessageCommand} {ins outs : List MessageCommand} :
      (∀ mid, ¬ IsMessage y cid mid) → Relayed all pid cid ins outs → Relayed all pid cid ins (y :: outs)

/-- The payloads of a command: one for `send`, those of the batch for `send_batch`. -/
def payloadsOf : Outbound → Option (List Bytes)
  | .send (.single _ _ _ p) => some [p]
  | .send (.batch _ _ _ ps) => some ps
  | _ => none

/-- Commands whose payloads reach a consumer unchanged (C11, C14; not one-element or empty batches, see C12): `send`, and `send_batch` of
two or more payloads, each below 2 GiB. -/
def Deliverable : Outbound → Prop
  | .send (.batch _ _ _ ps) => 2 ≤ ps.length ∧ ∀ p ∈ ps, p.length < 2147483648
  | _ => True

/-- The payloads client `i` has handed to the instance, grouped by call, in order. -/
def Sys.sentPayloads (s : Sys.State) (i : Nat) : List (List Bytes) := (s.clients i).submitted.filterMap fun c => payloadsOf c.out

namespace World

variable {T : Type}

/-- What the application got, without the message ids. -/
def valuesOf (l : List (Outcome (Consumer.Received T))) : List (Outcome T) :=
  l.map fun o => match o with
    | .ok r => .ok r.payload
    | .err e => .err e
    | .panic => .panic

end World

end Neutron
