import Verif.Spec.Supply
import Verif.Spec.Relay
import Verif.Spec.World

/-!
# A broker between a producer and a consumer, for ever
-/

namespace Neutron

open Proto

open Classical in
/-- The payloads of the `SEND`s of producer `pid` among these commands, in order. -/
noncomputable def sentBy (pid : UInt64) (l : List MessageCommand) : List Bytes :=
  l.filterMap fun v => if ∃ s, IsSendCommand v pid s then v.payload.map (·.data) else none

namespace App

variable {S T : Type}

/-- The broker that has the connection `bP` of producer number `i` of one execution and the connection `b` of consumer number `c` of
another (or the same) passes on what it receives: what is read on `b` relays the `SEND`s of a beginning of what `bP` has been sent, each
once and in order, none left out; and what it has received it delivers as the consumer's permits allow. -/
structure PassesOn (σP : Nat → State S) (bP : BrokerAddress) (i : Nat) (σC : Nat → State T) (b : BrokerAddress) (c : Nat) : Prop where
  faithful : ∀ n, ∃ m fs, BeginsWith ((σP m).world.tx bP).sent fs ∧
    Relayed true (UInt64.ofNat i) (UInt64.ofNat c) (fs.map (·.1)) (World.commandsOf ((σC n).world.rx b).out)
  delivers : ∀ m fs, BeginsWith ((σP m).world.tx bP).sent fs → Supplies σC c b (sentBy (UInt64.ofNat i) (fs.map (·.1))).length

/-- The application only makes calls of `send` and `send_all` on client number `i`, with messages whose serialisations (if there is one) are `ok`. -/
def SendsOnly (σ : Nat → State S) (i : Nat) (ok : Bytes → Prop) : Prop :=
  ∀ n j p, j ∈ (σ n).jobs → j.made = .call i p →
    (∃ (V : Type) (serialize : V → Option Bytes) (x : V), p = Session.send serialize x ∧ ∀ payload, serialize x = some payload → ok payload) ∨
    ∃ (V : Type) (serialize : V → Option Bytes) (xs : List V), p = Session.sendAll serialize xs ∧
      ∀ x ∈ xs, ∀ payload, serialize x = some payload → ok payload

end App

end Neutron
