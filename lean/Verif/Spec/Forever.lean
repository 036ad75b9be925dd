import Verif.Spec.Service

/-!
# Executions that go on forever

Infinite executions, and what it means for the scheduler to be fair, in terms of the actions only.
-/

namespace Neutron.Sys

/-- An infinite execution, in rounds: in round `n` the actions `acts n` are taken, one after the other, and lead from state `σ n` to
state `σ (n + 1)`; the engine looks at its clients in the order of their registration (`InOrder`).  A round may be a single action;
rounds without actions stand for what others do in the meantime. -/
structure Forever (cfg : Cfg) (σ : Nat → State) (acts : Nat → List Act) : Prop where
  start : Reachable cfg (σ 0)
  rounds : ∀ n, InOrder cfg (σ n) (acts n) (σ (n + 1))

/-- Again and again. -/
def AgainAndAgain (p : Nat → Prop) : Prop := ∀ n, ∃ m, n ≤ m ∧ p m

/-- Some action satisfying `p` can be taken. -/
def Enabled (cfg : Cfg) (s : State) (p : Act → Bool) : Prop := ∃ a s', p a = true ∧ FirstReady s a ∧ step cfg s a = some s'

/-- The scheduler does not neglect `p`: if an action satisfying `p` can be taken again and again, then one is taken again and
again. -/
def Fair (cfg : Cfg) (σ : Nat → State) (acts : Nat → List Act) (p : Act → Bool) : Prop :=
  AgainAndAgain (fun n => Enabled cfg (σ n) p) → AgainAndAgain (fun n => ∃ a, a ∈ acts n ∧ p a = true)

/-- The engine comes back to its loop again and again: it neither ends nor waits forever. -/
def KeepsLooping (σ : Nat → State) : Prop := AgainAndAgain fun n => (σ n).mode = .idle

/-- From some time on client `j` hands nothing over. -/
def FallsSilent (acts : Nat → List Act) (j : Nat) : Prop := ∃ n, ∀ m, n ≤ m → ∀ a, a ∈ acts m → a.submits j = false

/-- The broker answers: whenever a command that asks for a response has been written to the socket of `b`, such a response is later
read from that socket. -/
def BrokerAnswers (σ : Nat → State) (acts : Nat → List Act) (b : BrokerAddress) : Prop :=
  ∀ n d c, ((σ (n + 1)).conns b).written = ((σ n).conns b).written ++ d → c ∈ d → (∃ x, Answers c.out x) →
    ∃ m v ans inb, n < m ∧ .connRead b (.command v ans) ∈ acts m ∧ Inbound.ofCommand v = .ok inb ∧ Answers c.out inb

/-- The connection to `b` works: its task does not end, and what it takes from its channel is written. -/
def Works (σ : Nat → State) (acts : Nat → List Act) (b : BrokerAddress) : Prop :=
  (∀ n, ((σ n).conns b).alive = true) ∧ ∀ n w, .connCmd b w ∈ acts n → w = .ok

end Neutron.Sys
