import Verif.Proof.SysBase
import Verif.Spec.Sys

/-!
# Concrete runs, used as witnesses

Ingredients for runs of `Model/Sys.lean` on literal data: they show that hypotheses of theorems can be met, and they are the
counterexamples behind the `_refuted` theorems.
-/

namespace Neutron.Trace

open Neutron Neutron.Sys Neutron.Proto

/-- A configuration without authentication plugin. -/
def cfg0 : Cfg := ⟨⟨"pulsar://a", 6650⟩, none⟩

/-- A configuration with a plugin. -/
def cfgA : Cfg := ⟨⟨"pulsar://a", 6650⟩, some "token"⟩

/-- A network in which everything works. -/
def net0 : Net := ⟨fun _ => some (some "a", some 6650), fun _ _ => true, fun _ => true, fun _ => true⟩

/-- A network in which nothing can be dialled. -/
def netDown : Net := ⟨fun _ => some (some "a", some 6650), fun _ _ => false, fun _ => true, fun _ => true⟩

/-- The configured broker. -/
def b0 : BrokerAddress := cfg0.config.brokerAddress

/-- The address of a broker reached through the proxy. -/
def b1 : BrokerAddress := .proxy cfg0.config.brokerAddress.baseUrl "pulsar://z:1"

/-- Commands a broker sends. -/
def connectedC : MessageCommand := ⟨baseCommand 3 3 (mkMsg .commandConnected [(1, vStr "broker")]), none⟩
def receiptC (producer seq : UInt64) : MessageCommand :=
  ⟨baseCommand 7 7 (mkMsg .commandSendReceipt [(1, vU64 producer), (2, vU64 seq), (3, vMsg (newMsg pulsar .messageIdData))]), none⟩
def ackC (consumer req : UInt64) : MessageCommand :=
  ⟨baseCommand 38 38 (mkMsg .commandAckResponse [(1, vU64 consumer), (6, vU64 req)]), none⟩
def successC (req : UInt64) : MessageCommand := ⟨baseCommand 13 13 (mkMsg .commandSuccess [(1, vU64 req)]), none⟩
def producerSuccessC (req : UInt64) : MessageCommand :=
  ⟨baseCommand 17 17 (mkMsg .commandProducerSuccess [(1, vU64 req), (2, vStr "p")]), none⟩
def errorC (req : UInt64) : MessageCommand :=
  ⟨baseCommand 14 14 (mkMsg .commandError [(1, vU64 req), (2, [.int 0]), (3, vStr "no")]), none⟩
def lookupC (req : UInt64) (url : String) (ty : Int) (proxy : Bool) : MessageCommand :=
  ⟨baseCommand 24 24 (mkMsg .commandLookupTopicResponse
    [(1, vStr url), (3, [.int ty]), (4, vU64 req), (8, [.int (if proxy then 1 else 0)])]), none⟩
def messageC (consumer : UInt64) (payload : Bytes) : MessageCommand :=
  ⟨baseCommand 9 9 (mkMsg .commandMessage [(1, vU64 consumer), (2, vMsg (newMsg pulsar .messageIdData))]),
   some ⟨newMsg pulsar .messageMetadata, payload⟩⟩

/-- Client `i` is created, registered and ready; the engine has nothing else to do. -/
def join (i : Nat) : List Act := [.newClient "c", .sendReg i, .engReg, .recvReply i]

/-- The engine starts. -/
def boot : List Act := [.engStart net0]

/-- Client `i` makes a call and the engine passes it on. -/
def ask (i : Nat) (c : Call) : List Act := [.beginCall i c, .submit i 0, .engOut i (.ok []) net0]

/-- The broker's command is read and reaches the engine. -/
def say (b : BrokerAddress) (v : MessageCommand) (ans : Option Tok) : List Act := [.connRead b (.command v ans), .engIn b]

/-- How requests ended: `true` for a response. -/
def ended (s : State) : List (Nat × Bool) :=
  s.outcomes.map fun p => (p.1, match p.2 with
    | .resolved _ => true
    | .cancelled => false)

/-- How requests ended, with the request the response was meant for. -/
def endedBy (s : State) : List (Nat × Option Tok) :=
  s.outcomes.map fun p => (p.1, match p.2 with
    | .resolved e => e.answers
    | .cancelled => none)

/-- Running a concrete trace from the initial state. -/
def go (as : List Act) : Option State := exec cfg0 (init cfg0) as

theorem reachable_of_go {as : List Act} {s : State} (h : go as = some s) : Reachable cfg0 s := reachable_of_exec h

/-- If an observation of a concrete trace is as stated, a reachable state with that observation exists. -/
theorem reachable_obs {α : Type} {as : List Act} {f : State → α} {x : α} (h : (go as).map f = some x) :
    ∃ s, Run cfg0 as s ∧ f s = x := by
  cases hg : go as with
  | none => rw [hg] at h; exact absurd h (by simp)
  | some s =>
    rw [hg] at h
    exact ⟨s, by simpa using run_of_exec Run.nil hg, by simpa using h⟩

end Neutron.Trace
