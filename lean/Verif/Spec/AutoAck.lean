import Verif.Spec.ReceiveForever
import Verif.Spec.Carried

/-!
# Plugins of a consumer, and the plugin that acknowledges every message (`examples/consumer_plugins.rs`)
-/

namespace Neutron.App

variable {T : Type}

/-- Receiving call `i` is inside plugin number `p`, which has been given `y`. -/
def InPlugin (a : State T) (i p : Nat) (y : Consumer.Received T) : Prop := ∃ t, a.world.app.tasks[i]? = some t ∧ t.stage = .offering y p

/-- The future of receiving call `i` is dropped at time `n` or later. -/
def CancelledFrom (acts : Nat → Act) (i n : Nat) : Prop := ∃ m, n ≤ m ∧ acts m = .world (.app (.cancel i))

/-- Plugin `p` always comes back: whenever a receiving call is inside it, it answers later, or the call is dropped. -/
def ComesBack (σ : Nat → State T) (acts : Nat → Act) (p : Nat) : Prop := ∀ n i y, InPlugin (σ n) i p y →
  (∃ m r, n ≤ m ∧ acts m = .world (.app (.offer i r))) ∨ CancelledFrom acts i n

/-- Call number `k` is the call of `ack` that plugin `p`, having been given `y` by receiving call `i`, has made; at time `n` it is still
inside the plugin. -/
def AckOf (cfg : World.Cfg T) (σ : Nat → State T) (acts : Nat → Act) (i p : Nat) (y : Consumer.Received T) (k n : Nat) : Prop :=
  ∃ n', n' ≤ n ∧ acts n' = .start (.call cfg.me (Session.ack y.ack)) ∧ (σ n').jobs.length = k ∧
    ∀ m, n' ≤ m → m ≤ n → InPlugin (σ m) i p y

/-- Plugin `p` is an `AutoAckPlugin` (`examples/consumer_plugins.rs:48-58`): `consumer.ack(&message.ack).await?; Ok(())`. It calls `ack`
with the id of the message it was given (or is dropped before); it waits for the call, which is polled and not dropped (unless the
receiving call is); once the call has returned, it returns; and it never returns anything but what a call of `ack` for that message
returned. -/
structure AutoAcks (cfg : World.Cfg T) (σ : Nat → State T) (acts : Nat → Act) (p : Nat) : Prop where
  calls : ∀ n i y, InPlugin (σ n) i p y → CancelledFrom acts i n ∨ ∃ k m, n ≤ m ∧ AckOf cfg σ acts i p y k m
  waits : ∀ n i y k, AckOf cfg σ acts i p y k n → CancelledFrom acts i n ∨ ((∀ m, acts m ≠ .drop k) ∧ FairTo cfg σ acts k)
  returns : ∀ n i y k, AckOf cfg σ acts i p y k n → (∃ j o, (σ n).jobs[k]? = some j ∧ j.ended = some o) →
    CancelledFrom acts i n ∨ ∃ m r, n ≤ m ∧ acts m = .world (.app (.offer i r))
  result : ∀ n i y r, InPlugin (σ n) i p y → acts n = .world (.app (.offer i r)) →
    ∃ k j, AckOf cfg σ acts i p y k n ∧ (σ n).jobs[k]? = some j ∧ j.ended = some r

/-- Plugin `p`, inside receiving call `i`, has called `ack` for `y` and the call has returned `Ok`. -/
def Acknowledged (cfg : World.Cfg T) (σ : Nat → State T) (acts : Nat → Act) (i p : Nat) (y : Consumer.Received T) : Prop :=
  ∃ n k j, AckOf cfg σ acts i p y k n ∧ (σ n).jobs[k]? = some j ∧ j.ended = some (.ok ())

end Neutron.App
