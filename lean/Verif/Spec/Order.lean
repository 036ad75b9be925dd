import Verif.Spec.App

/-!
# Vocabulary for the order of the application's calls
-/

namespace Neutron.App

/-- The requests these steps of a call handed over to the engine, in order: those with a response, numbered as the engine issues them. -/
def requests (evs : List Ev) : List Nat :=
  evs.filterMap fun ev => match ev with
    | .handed c (.ok t) => if c.expectsResponse then some t else none
    | _ => none

end Neutron.App

namespace Neutron.App

open Session

/-- This call of the application sends this: one message, or one batch. -/
def Sends (p : Prog Unit) (c : Call) : Prop :=
  (∃ (V : Type) (serialize : V → Option Bytes) (m : V) (payload : Bytes), serialize m = some payload ∧ p = send serialize m ∧
    c = .sendMessage payload) ∨
  ∃ (V : Type) (serialize : V → Option Bytes) (ms : List V) (payloads : List Bytes), ms.mapM serialize = some payloads ∧
    p = sendBatch serialize ms ∧ c = .sendBatch payloads

end Neutron.App
