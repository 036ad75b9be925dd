import Verif.Model.App
import Verif.Spec.Session
import Verif.Spec.Received

/-!
# Vocabulary for the application's calls
-/

namespace Neutron

namespace Sys

/-- The client after successive calls. -/
def afterAll : Client → List Call → Client
  | core, [] => core
  | core, c :: cs => afterAll (core.issue c).1 cs

end Sys

namespace App

/-- What a call did on its client so far. -/
def Job.events (j : Job) : List Ev :=
  j.trace.filterMap fun ev => match ev with
    | .did _ ev => some ev
    | _ => none

/-- The command the call has made and not put in the channel yet. -/
def Job.pending (j : Job) : List Call :=
  match j.handing, j.prog with
  | some _, .session _ (.hand c _) _ => [c]
  | _, _ => []

/-- Nothing the call handed over was refused. -/
def Accepted (evs : List Ev) : Prop := ∀ c e, .handed c (.err e) ∉ evs

/-- Every command handed over was accepted, and those with a response got it, without an error, before the next one. -/
inductive Answered : List Ev → Prop where
  | nil : Answered []
  | call (c : Call) (t : Nat) (r : Response) (evs : List Ev) (h : Answered evs) :
      Answered (.handed c (.ok t) :: .waited t c (.ok r) :: evs)
  | flow (n : UInt32) (t : Nat) (evs : List Ev) (h : Answered evs) : Answered (.handed (.flow n) (.ok t) :: evs)

/-- A poll of the socket of `b` during the run `log` of the instance yielded a command that reads as `inb`. -/
def Arrived {T : Type} (cfg : World.Cfg T) (log : List World.Act) (b : BrokerAddress) (inb : Inbound) : Prop :=
  ∃ pre ans post w v, log = pre ++ .poll b ans :: post ∧ World.Run cfg pre w ∧
    (Framed.pollNext (w.rx b).framed (w.rx b).socket).1 = .item v ∧ Inbound.ofCommand v = .ok inb

/-- A request `out` of client `i` was resolved by something a broker sent, of the kind `out` asks for. -/
def Accepts {T : Type} (cfg : World.Cfg T) (log : List World.Act) (s : Sys.State) (i : Nat) (out : Outbound) : Prop :=
  ∃ t e b inb, s.issued[t]? = some (i, out) ∧ (t, Sys.TokResult.resolved e) ∈ s.outcomes ∧ Arrived cfg log b inb ∧ Sys.Answers out inb

/-- The client as `connect` makes it: the id is its number, all counters are 0. -/
def new (i : Nat) (name : String) : Client := ⟨UInt64.ofNat i, name, 0, 0⟩

/-- A `connect` made client `i`, named `name`, by this script: these are the first commands the client gave to the engine, in this
order, and a broker answered each that has a response. -/
def Connected {T : Type} (cfg : World.Cfg T) (log : List World.Act) (s : Sys.State) (i : Nat) (name : String) (script : List Call) : Prop :=
  Sys.issueAll (new i name) script <+: (s.clients i).submitted.map (·.out) ∧
  ∀ pre c post, script = pre ++ c :: post → c.expectsResponse = true →
    Accepts cfg log s i ((Sys.afterAll (new i name) pre).issue c).2

end App

end Neutron
