import Verif.Spec.Returns
import Verif.Spec.Received
import Verif.Spec.Asked

/-!
# Vocabulary: what is carried to the brokers in executions that go on forever
-/

namespace Neutron.Sys

/-- Engine and connections keep working: the engine keeps looping, registrations and connections are not neglected, and what the
connections take from their channels is written.  (Nothing is asked of the brokers.) -/
structure KeepWorking (cfg : Cfg) (σ : Nat → State) (acts : Nat → List Act) : Prop where
  loops : KeepsLooping σ
  regs : Fair cfg σ acts Act.servesRegs
  writes : ∀ b, Fair cfg σ acts (Act.servesWrites b)
  works : ∀ b, Works σ acts b

end Neutron.Sys

namespace Neutron.App

variable {T : Type}

/-- Client `i` is not starved: either the clients altogether are not neglected and those registered before it hand over only finitely
many commands, or it gets its turn again and again and is then not neglected. -/
def Served (cfg : World.Cfg T) (σ : Nat → State T) (acts : Nat → Act) (i : Nat) : Prop :=
  (Sys.Fair cfg.sys (sysOf σ) (roundsOf cfg σ acts) Sys.Act.servesSomeone ∧
    ∀ i', RegisteredBefore σ i' i → Sys.FallsSilent (roundsOf cfg σ acts) i') ∨
  (Sys.GetsTurns (sysOf σ) i ∧ Sys.Fair cfg.sys (sysOf σ) (roundsOf cfg σ acts) (Sys.Act.servesClient i))

/-- At some time some broker has received the whole of a command satisfying `P`. -/
def Reaches (σ : Nat → State T) (P : MessageCommand → Prop) : Prop := ∃ m b v, Received ((σ m).world.tx b).sent v ∧ P v

/-- The command is a `SEND` of producer number `i` with this one message. -/
def IsSendOf (v : MessageCommand) (i : Nat) (payload : Bytes) : Prop :=
  (∃ seq, IsSendCommand v (UInt64.ofNat i) seq) ∧ ∃ md, v.payload = some ⟨md, payload⟩

/-- The command is a `SEND` of producer number `i` with this batch of messages, each of them below 2 GiB. -/
def IsBatchOf (v : MessageCommand) (i : Nat) (payloads : List Bytes) : Prop :=
  (∃ seq, IsSendCommand v (UInt64.ofNat i) seq) ∧ ∃ md data, v.payload = some ⟨md, data⟩ ∧
    ((∀ p ∈ payloads, p.length < 2147483648) → ∃ bs, BatchOf data bs [] ∧ bs.map (·.payload) = payloads)

/-- The program hands over these commands, in this order, before it waits for anything (if the engine takes them). -/
def HandsOver {α : Type} : List Call → Prog α → Prop
  | [], _ => True
  | c :: cs, .hand c' k => c' = c ∧ ∀ t, HandsOver cs (k (.ok t))
  | _ :: _, _ => False

end Neutron.App
