import Verif.Spec.Commands

/-!
# What an acknowledgement means to a Pulsar broker

From the Pulsar protocol, not from this code base: a message id names an entry of a ledger (fields 1 and 2 of `MessageIdData`); an entry
holds one message or one batch.  An acknowledgement with an empty `ack_set` (field 5) is for the whole entry; otherwise `ack_set` is a
bit set, in 64-bit words, of the messages of the batch that are not acknowledged.  `batch_index` (field 4) plays no part.
-/

namespace Neutron

open Proto

/-- The two ids name the same entry. -/
def SameEntry (id mid : MessageId) : Prop :=
  getF .messageIdData id 1 = getF .messageIdData mid 1 ∧ getF .messageIdData id 2 = getF .messageIdData mid 2

/-- Bit `k` of a bit set given as signed 64-bit words. -/
def bitOf (words : List Val) (k : Nat) : Bool :=
  match words[k / 64]? with
  | some (.int n) => decide ((n / 2 ^ (k % 64)) % 2 = 1)
  | _ => false

/-- An acknowledgement with id `id` acknowledges message number `k` of the entry `mid` names. -/
def Acknowledges (id mid : MessageId) (k : Nat) : Prop :=
  SameEntry id mid ∧ (getF .messageIdData id 5 = [] ∨ bitOf (getF .messageIdData id 5) k = false)

end Neutron
