import Verif.Model.Session
import Verif.Spec.Sys

/-!
# Vocabulary for what public calls do

What a caller and the engine see of a call: the commands handed over, the responses, and how these are tied to a run of the
whole system (`Model/Sys.lean`).
-/

namespace Neutron

/-- The commands handed over (or tried to), in order. -/
def calls (tr : List Ev) : List Call :=
  tr.filterMap fun ev => match ev with
    | .handed c _ => some c
    | _ => none

/-- The lookup responses received, in order. -/
def lookups (tr : List Ev) : List LookupTopicResponse :=
  tr.filterMap fun ev => match ev with
    | .waited _ _ (.ok (.lookup l)) => some l
    | _ => none

/-- The error the last step ended in, if it did. -/
def failure (tr : List Ev) : Option NeutronError :=
  match tr.getLast? with
  | some (.handed _ (.err e)) => some e
  | some (.waited _ _ (.err e)) => some e
  | _ => none

/-- The steps follow a script of commands: each command is handed over only after the previous one got its response, and
nothing happens after a failure.  (A script may be left at any time: the caller can drop the call.) -/
inductive Follows : List Call → List Ev → Prop where
  | stop (cs : List Call) : Follows cs []
  | refused (c : Call) (cs : List Call) (e : NeutronError) : Follows (c :: cs) [.handed c (.err e)]
  | handed (c : Call) (cs : List Call) (t : Nat) : Follows (c :: cs) [.handed c (.ok t)]
  | failed (c : Call) (cs : List Call) (t : Nat) (e : NeutronError) : Follows (c :: cs) [.handed c (.ok t), .waited t c (.err e)]
  | done (c : Call) (cs : List Call) (t : Nat) (r : Response) (tr : List Ev) (h : Follows cs tr) :
      Follows (c :: cs) (.handed c (.ok t) :: .waited t c (.ok r) :: tr)

/-- The script up to the topic's broker: connect, look the topic up, and if the answer names a proxy target, connect to it and
look the topic up there. -/
def resolveScript (topic : String) (target : Option String) : List Call :=
  [.connect, .lookupTopic topic] ++ match target with
    | some p => [.connectToProxy p, .lookupTopic topic]
    | none => []

/-- The target named by the first lookup response, if it is to be reached through the proxy. -/
def target (tr : List Ev) : Option String :=
  match (lookups tr).head? with
  | some l => if l.proxy then some l.brokerServiceUrl else none
  | none => none

/-- Creating a producer and a consumer, as scripts. -/
def producerScript (topic : String) (target : Option String) : List Call := resolveScript topic target ++ [.producer topic]
def consumerScript (topic subscription : String) (permits : UInt32) (target : Option String) : List Call :=
  resolveScript topic target ++ [.subscribe topic subscription, .flow (permits * 2)]

namespace Sys

/-- A step of a call on client `i` is what happened in the run that led to `s`: a hand-over with ticket `t` is the client's
request number `t`, and what the caller got when waiting is how that request ended. -/
def Fits (s : State) (i : Nat) : Ev → Prop
  | .handed c (.ok t) => c.expectsResponse = true → ∃ core : Client, s.issued[t]? = some (i, (core.issue c).2)
  | .handed _ (.err e) => e = .channelTerminated
  | .handed _ .panic => False
  | .waited t c r => ∃ res, (t, res) ∈ s.outcomes ∧ r = c.resolve (match res with
      | .resolved e => some e.inb
      | .cancelled => none)

/-- The commands successive calls hand over. -/
def issueAll : Client → List Call → List Outbound
  | _, [] => []
  | core, c :: cs => (core.issue c).2 :: issueAll (core.issue c).1 cs

/-- What client `i` put in its channel to the engine so far is exactly these calls, made on the new client. -/
def Submitted (s : State) (i : Nat) (cs : List Call) : Prop :=
  ∃ core : Client, (s.clients i).submitted.map (·.out) = issueAll core cs

end Sys

end Neutron
