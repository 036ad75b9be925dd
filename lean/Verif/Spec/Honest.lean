import Verif.Spec.Sys

/-!
# Honest brokers, and requests that can be told apart

What it takes to talk about "the broker's response to this request": every response on a socket says, in a ghost tag, which
request it is meant for, and an honest broker answers each written request at most once, with a response of the right kind,
and sends no response nobody asked for.
-/

namespace Neutron.Sys

open Neutron

/-- Some inbound command could be the answer to either. -/
def Confusable (o o' : Outbound) : Prop := ∃ inb, Answers o inb ∧ Answers o' inb

/-- During `as` a broker has answered request `t`. -/
def Answered (as : List Act) (t : Tok) : Prop := ∃ b v, Act.connRead b (.command v (some t)) ∈ as

/-- The request `t`, with the command `out`, was written to the socket of `b`: the connection task took it and handed it to the
socket.  (This includes writes that were reported as failed, as their bytes may still have got through.) -/
def WrittenTo (s : State) (b : BrokerAddress) (t : Tok) (out : Outbound) : Prop :=
  ∃ c i, c ∈ (s.conns b).processed ∧ c.origin = some (i, ⟨out, some t⟩)

/-- The next action, after the history `as`, is one an honest broker can cause: a response answers a request written to this
very socket, is of the right kind and is the first answer to it; anything else answers nothing. -/
def HonestRead (as : List Act) (s : State) : Act → Prop
  | .connRead b (.command v ans) => ∀ inb, Inbound.ofCommand v = .ok inb → match ans with
    | none => ∀ o, ¬ Answers o inb
    | some t => ¬ Answered as t ∧ ∃ out, WrittenTo s b t out ∧ Answers out inb
  | _ => True

/-- A run in which brokers are honest and every state satisfies `P`. -/
inductive HonestRun (cfg : Cfg) (P : State → Prop) : List Act → State → Prop where
  | nil : P (init cfg) → HonestRun cfg P [] (init cfg)
  | snoc {as : List Act} {s s' : State} {a : Act} : HonestRun cfg P as s → step cfg s a = some s' → HonestRead as s a → P s' →
      HonestRun cfg P (as ++ [a]) s'

/-- Of the requests of kind `K`, no two that could be answered by the same response are outstanding together. -/
def Distinct (K : Outbound → Prop) (s : State) : Prop :=
  ∀ (t t' i i' : Nat) (o o' : Outbound), Outstanding s t → Outstanding s t' → s.issued[t]? = some (i, o) →
    s.issued[t']? = some (i', o') → K o → Confusable o o' → t = t'

/-- The kinds of request the theorems are about. -/
def IsAck : Outbound → Prop
  | .ack _ => True
  | _ => False
def IsSend : Outbound → Prop
  | .send _ => True
  | _ => False

/-- Request `t` returned successfully, with the response the broker meant for it. -/
def GotOwn (s : State) (t : Tok) : Prop := ∃ e, (t, TokResult.resolved e) ∈ s.outcomes ∧ e.answers = some t

end Neutron.Sys
