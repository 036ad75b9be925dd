import Verif.Model.Consumer

/-!
# Vocabulary for receiving

What arrives, what the application should get for it, what the calls handed out, and what the broker may still send.
-/

namespace Neutron.Consumer

open Neutron

variable {T : Type}

/-- The messages among the events that arrived, in order. -/
def delivered : List Act → List Message
  | [] => []
  | .deliver (.message m) :: as => m :: delivered as
  | _ :: as => delivered as

/-- What receiving one message means to the application, in order: a single message is one result; a batch is one result per
payload, the `i`-th with batch index `i`; a batch with a payload that cannot be decoded (or with no payload) is a crash. -/
def yields (decode : Bytes → Option T) : Message → List (Outcome (Received T))
  | .single _ id p => match decode p with
    | some t => [.ok ⟨t, id⟩]
    | none => [.err .deserializationFailed]
  | .batch _ id ps =>
    if ps ≠ [] ∧ ∀ p ∈ ps, (decode p.payload).isSome then
      (ps.zipIdx.filterMap fun x => (decode x.1.payload).map fun t => ⟨t, withBatchIndex x.2 id⟩).map .ok
    else [.panic]

/-- What receiving a single message means. -/
def seen (decode : Bytes → Option T) (id : MessageId) (p : Bytes) : Outcome (Received T) := match decode p with
  | some t => .ok ⟨t, id⟩
  | none => .err .deserializationFailed

/-- What the stream of messages that arrived holds for the application. -/
def stream (cfg : Cfg T) (as : List Act) : List (Outcome (Received T)) := (delivered as).flatMap (yields cfg.decode)

/-- What one call handed out: its messages, its failure to decode or its crash; a call that ended because the engine is gone
handed out nothing. -/
def handed : Outcome (List (Received T)) → List (Outcome (Received T))
  | .ok ms => ms.map .ok
  | .err .channelTerminated => []
  | .err e => [.err e]
  | .panic => [.panic]

/-- What the calls handed out so far, in the order they returned. -/
def State.handedOut (s : State T) : List (Outcome (Received T)) := s.results.flatMap fun r => handed r.2

/-- The same with the call each went to. -/
def State.handouts (s : State T) : List (Nat × Outcome (Received T)) := s.results.flatMap fun r => (handed r.2).map fun x => (r.1, x)

/-- The calls that have not returned and were not dropped. -/
def Stage.live : Stage T → Bool
  | .ended => false
  | _ => true

def State.live (s : State T) : Nat := s.tasks.countP fun t => t.stage.live

/-- No call is inside its critical part (they all wait for the buffer, run plugins, have ended, or there is none). -/
def State.free (s : State T) : Prop := s.holder = none

/-- Call `i` waits for a message (or for the engine to go away). -/
def State.waiting (s : State T) (i : Nat) : Prop :=
  ∃ t k, s.tasks[i]? = some t ∧ t.stage = .running (.recv k)

/-- The job of call `i`. -/
def State.jobOf (s : State T) (i : Nat) : Option Job := (s.tasks[i]?).map (·.job)

/-- The jobs of all calls made. -/
def jobs : List Act → List Job
  | [] => []
  | .spawn j :: as => j :: jobs as
  | _ :: as => jobs as

/-- Never more than `n` calls at once. -/
inductive AtMost (cfg : Cfg T) (n : Nat) : List Act → State T → Prop where
  | nil : AtMost cfg n [] (init cfg)
  | snoc {as : List Act} {s s' : State T} {a : Act} (h : AtMost cfg n as s) (hs : step cfg s a = some s') (hl : s'.live ≤ n) :
      AtMost cfg n (as ++ [a]) s'

/-- How many permits a message costs the broker: one per message in it. -/
def weight : Message → Nat
  | .single _ _ _ => 1
  | .batch _ _ ps => ps.length

/-- The permits the consumer has granted. -/
def State.grants (s : State T) : Nat := (s.granted.map (·.toNat)).sum

/-- The permits used up by the messages taken from the channel. -/
def State.used (s : State T) : Nat := (s.received.map weight).sum

/-- The permits used up by everything that arrived. -/
def usedBy (as : List Act) : Nat := ((delivered as).map weight).sum

/-- The number of messages handed to the application. -/
def State.taken (s : State T) : Nat :=
  (s.results.map fun r => match r.2 with
    | .ok ms => ms.length
    | _ => 0).sum

/-- A message is a single one; a message holds at least one payload; every payload can be decoded. -/
def isSingle : Message → Bool
  | .single _ _ _ => true
  | .batch _ _ _ => false

def filled : Message → Prop
  | .single _ _ _ => True
  | .batch _ _ ps => ps ≠ []

def decodable (decode : Bytes → Option T) : Message → Prop
  | .single _ _ p => (decode p).isSome
  | .batch _ _ ps => ∀ p ∈ ps, (decode p.payload).isSome

/-- The messages handed to call `i`, in order. -/
def State.handedTo (s : State T) (i : Nat) : List (Received T) :=
  (s.results.filterMap fun r => if r.1 = i then some r.2 else none).flatMap fun o => match o with
    | .ok ms => ms
    | _ => []

/-- How call `i` failed to receive, if it did. -/
def State.failures (s : State T) (i : Nat) : List (Outcome (List (Received T))) :=
  (s.results.filterMap fun r => if r.1 = i then some r.2 else none).filter fun o => match o with
    | .ok _ => false
    | _ => true

/-- The plugin calls made by call `i`, in order: which plugin, with which message, and its answer. -/
def State.offersOf (s : State T) (i : Nat) : List (Nat × Received T × Outcome Unit) :=
  s.offers.filterMap fun x => if x.1 = i then some x.2 else none

/-- Every message to every plugin, in registration order. -/
def offering (plugins : Nat) (ms : List (Received T)) : List (Nat × Received T) :=
  ms.flatMap fun m => (List.range plugins).map fun k => (k, m)

/-! ## Concrete runs, for examples -/

/-- Run a list of actions. -/
def exec (cfg : Cfg T) (s : State T) : List Act → Option (State T)
  | [] => some s
  | a :: as => match step cfg s a with
    | some s' => exec cfg s' as
    | none => none

/-- One byte is a message of the application. -/
def byteCfg (permits : UInt32) (plugins : Nat) : Cfg UInt8 where
  decode := fun p => match p with
    | [b] => some b
    | _ => none
  permits := permits
  plugins := plugins

def msgId (n : Nat) : MessageId := mkMsg .messageIdData [(1, [.int 1]), (2, [.int n])]
def one (n : Nat) (p : Bytes) : Act := .deliver (.message (.single 3 (msgId n) p))
def many (n : Nat) (ps : List Bytes) : Act := .deliver (.message (.batch 3 (msgId n) (ps.map fun p => ⟨mkMsg .singleMessageMetadata [], p⟩)))

/-- `n` steps of call `i`. -/
def go (i n : Nat) : List Act := List.replicate n (.run i)

end Neutron.Consumer
