import Verif.Model.World
import Verif.Spec.Sys
import Verif.Spec.Honest
import Verif.Spec.App

/-!
# Requests that are outstanding at the same time
-/

namespace Neutron.World

open Neutron

variable {T : Type}

/-- At some moment of the history `log` both requests had been made and neither had been answered or given up. -/
def Together (cfg : Cfg T) (log : List Act) (t t' : Nat) : Prop :=
  ∃ log1 w1, log1 <+: log ∧ Run cfg log1 w1 ∧ Sys.Outstanding w1.sys t ∧ Sys.Outstanding w1.sys t'

/-- Request `t` and another request, by the client `i'`, were outstanding at the same time although the same response answers both. -/
def DisplacedBy (cfg : Cfg T) (log : List Act) (s : Sys.State) (t i' : Nat) : Prop :=
  ∃ (t' i : Nat) (out out' : Outbound), t' ≠ t ∧ s.issued[t]? = some (i, out) ∧ s.issued[t']? = some (i', out') ∧
    Sys.Confusable out out' ∧ Together cfg log t t'

end Neutron.World

namespace Neutron.App

open Neutron World

variable {T : Type}

/-- Client `i` asked for the broker of `topic`, and was answered with a response of this type, which came over a socket. -/
def ToldOf (cfg : World.Cfg T) (log : List World.Act) (s : Sys.State) (i : Nat) (topic : String) (type : LookupResponseType) : Prop :=
  ∃ (t : Nat) (core : Client) (e : Sys.Event) (l : LookupTopicResponse), s.issued[t]? = some (i, (core.issue (.lookupTopic topic)).2) ∧
    (t, Sys.TokResult.resolved e) ∈ s.outcomes ∧ e.inb = .lookupTopicResponse l ∧ l.responseType = type ∧
    ∃ b l', Arrived cfg log b (.lookupTopicResponse l') ∧ l'.responseType = type

/-- What a `connect` that has a client can fail for: the instance has stopped; one of its requests and one of another client, that the
same response answers, were outstanding at the same time; the lookup was answered with `Failed`; or with `Redirect`. -/
inductive Reason (cfg : World.Cfg T) (log : List World.Act) (s : Sys.State) (i : Nat) (topic : String) : Outcome Unit → Prop where
  | stopped (h : s.mode = .stopped) : Reason cfg log s i topic (.err .channelTerminated)
  | displaced (t i' : Nat) (out : Outbound) (hi : s.issued[t]? = some (i, out)) (ho : (t, Sys.TokResult.cancelled) ∈ s.outcomes) (hne : i' ≠ i)
      (h : DisplacedBy cfg log s t i') : Reason cfg log s i topic (.err .channelTerminated)
  | failed (h : ToldOf cfg log s i topic .failed) : Reason cfg log s i topic (.err .connectionFailed)
  | redirected (h : ToldOf cfg log s i topic .redirect) : Reason cfg log s i topic .panic

end Neutron.App
