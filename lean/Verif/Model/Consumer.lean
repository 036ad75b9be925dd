import Verif.Model.Message

/-!
# Receiving messages (`src/consumer.rs`)

The calls of a consumer as programs over the shared state they touch (the atomic permit counter, the mutex-protected buffer,
the two channels to the engine), and a transition system in which any number of such calls run concurrently, are dropped, and
events arrive.

What is atomic and why: `load`, `store` and `fetch_add` on the counter are single atomic operations (one variable, so `Relaxed`
gives a total order of its accesses); the buffer is only touched with its mutex held; the channel to the engine is unbounded, so
handing over a `flow` never waits; `recv` is cancel-safe.  A call can be dropped (cancelled) only where it can wait: before it is
first polled, waiting for the mutex, waiting for an event, waiting for the plugins or inside a plugin.

Arithmetic on the counter is that of release builds (wrapping).
-/

namespace Neutron.Consumer

open Neutron

/-- `src/consumer.rs:32-43` `Message<T>` with its `Ack`. -/
structure Received (T : Type) where
  payload : T
  ack : MessageId

/-- `src/consumer.rs:74-131`: one event as the messages it holds.  A single message that cannot be deserialised is an error; in a
batch it is a panic (the `unwrap`s of lines 106 and 113).  `decode` is `serde_json::from_slice` or `TryFrom<Vec<u8>>`. -/
def unpack {T : Type} (decode : Bytes → Option T) : Message → Outcome (List (Received T))
  | .single _ id payload => match decode payload with
    | some t => .ok [⟨t, id⟩]
    | none => .err .deserializationFailed
  | .batch _ id ps => match ps.mapM fun p => decode p.payload with
    | some ts => .ok (ts.mapIdx fun i t => ⟨t, withBatchIndex i id⟩)
    | none => .panic

/-- Programs: what a call does next with the shared state.  `lock` also reads the buffer; the lock is held until the call ends. -/
inductive Code (T : Type) where
  | ret (o : Outcome (List (Received T)))
  | load (k : UInt32 → Code T)
  | store (n : UInt32) (k : Code T)
  | add (n : UInt32) (k : Code T)
  | flow (n : UInt32) (k : Outcome Unit → Code T)
  | lock (k : List (Received T) → Code T)
  | write (buffer : List (Received T)) (k : Code T)
  | recv (k : Outcome Message → Code T)

/-- What is fixed: the decoder, the field `message_permits` (250, `src/consumer.rs:378`), the number of plugins. -/
structure Cfg (T : Type) where
  decode : Bytes → Option T
  permits : UInt32
  plugins : Nat

variable {T : Type}

/-- `src/consumer.rs:213-228` `check_and_flow`, then `k`. -/
def checkAndFlow (cfg : Cfg T) (k : Code T) : Code T :=
  .load fun current =>
    if current ≥ cfg.permits then
      .flow (cfg.permits * 2 + (current - cfg.permits)) fun r => match r with
        | .ok _ => .store 0 k
        | .err e => .ret (.err e)
        | .panic => .ret .panic
    else k

/-- `src/consumer.rs:71-134` `next`, then `k`. -/
def next (cfg : Cfg T) (k : List (Received T) → Code T) : Code T :=
  .recv fun r => match r with
    | .ok m => match unpack cfg.decode m with
      | .ok ms => k ms
      | .err e => .ret (.err e)
      | .panic => .ret .panic
    | .err e => .ret (.err e)
    | .panic => .ret .panic

/-- `src/consumer.rs:171-190` `next_message`; the message returned is the only element of the list. -/
def nextMessage (cfg : Cfg T) : Code T :=
  checkAndFlow cfg <| .lock fun buffer => match buffer with
    | m :: rest => .write rest (.ret (.ok [m]))
    | [] => next cfg fun ms => match ms with
      | [] => .ret .panic
      | m :: rest => .write ([] ++ rest) (.add 1 (.ret (.ok [m])))

/-- `while messages.len() < max_size { match v.pop() { Some(m) => messages.push(m), None => break } }` for `n` more messages: what
is left of `v`, and the messages pushed. -/
def pops {α : Type} : Nat → List α → List α × List α
  | 0, v => (v, [])
  | n + 1, v => match v.getLast? with
    | some x => ((pops n v.dropLast).1, x :: (pops n v.dropLast).2)
    | none => (v, [])

/-- `src/consumer.rs:137-169` `next_batch`; lines 159-163 leave what does not fit in `next_messages`, which is dropped. -/
def nextBatch (cfg : Cfg T) (maxSize : Nat) : Code T :=
  checkAndFlow cfg <| .lock fun buffer =>
    .write (pops maxSize buffer).1 <|
      if (pops maxSize buffer).2.length = maxSize then
        .add (UInt32.ofNat (pops maxSize buffer).2.length) (.ret (.ok (pops maxSize buffer).2))
      else next cfg fun ms =>
        .add (UInt32.ofNat ((pops maxSize buffer).2 ++ (pops (maxSize - (pops maxSize buffer).2.length) ms).2).length)
          (.ret (.ok ((pops maxSize buffer).2 ++ (pops (maxSize - (pops maxSize buffer).2.length) ms).2)))

/-- The public calls that receive. -/
inductive Job where
  | message
  | batch (maxSize : Nat)
  | consume
  deriving DecidableEq, Repr

/-- The code each call starts with; `consume` (`src/consumer.rs:269-277`) starts, and goes on after each message, with
`next_message`. -/
def Job.code (cfg : Cfg T) : Job → Code T
  | .message => nextMessage cfg
  | .batch n => nextBatch cfg n
  | .consume => nextMessage cfg

/-- Where a call is: running code; (`consume`) waiting for the plugins' mutex with a message; offering it, `k` plugins having had
it; ended. -/
inductive Stage (T : Type) where
  | running (c : Code T)
  | plugins (m : Received T)
  | offering (m : Received T) (k : Nat)
  | ended

/-- A call. -/
structure Task (T : Type) where
  job : Job
  stage : Stage T

/-- The consumer (`src/consumer.rs:52-64`), its channels and its calls.  Ghosts: the messages taken from the channel, the permits
of `flow` commands handed over, results in the order the calls released the buffer, plugin calls. -/
structure State (T : Type) where
  permits : UInt32
  buffer : List (Received T)
  holder : Option Nat
  pluginHolder : Option Nat
  inbox : List Inbound
  isOpen : Bool
  tasks : List (Task T)
  received : List Message
  granted : List UInt32
  results : List (Nat × Outcome (List (Received T)))
  offers : List (Nat × Nat × Received T × Outcome Unit)

/-- A consumer as `src/consumer.rs:376-387` makes it; `connect` has granted `permits * 2` (`src/consumer.rs:244`). -/
def init (cfg : Cfg T) : State T where
  permits := 0
  buffer := []
  holder := none
  pluginHolder := none
  inbox := []
  isOpen := true
  tasks := []
  received := []
  granted := [cfg.permits * 2]
  results := []
  offers := []

/-- Actions: an event arrives from the engine; the engine's end of the channel closes; a call is made; a call does its next step;
the engine is gone when a call hands over a `flow`; a plugin answers; a call is dropped. -/
inductive Act where
  | deliver (e : Inbound)
  | close
  | spawn (j : Job)
  | run (i : Nat)
  | refuse (i : Nat)
  | offer (i : Nat) (r : Outcome Unit)
  | cancel (i : Nat)

/-- Task `i` goes on to stage `st`. -/
def State.goto (s : State T) (i : Nat) (t : Task T) (st : Stage T) : State T :=
  { s with tasks := s.tasks.set i { t with stage := st } }

/-- A mutex, without the call that held it. -/
def release (holder : Option Nat) (i : Nat) : Option Nat := if holder = some i then none else holder

/-- Where a call is after the code it ran returned: `consume` goes on with its message (`src/consumer.rs:271-272`), any other call
has ended. -/
def after : Job → Outcome (List (Received T)) → Stage T
  | .consume, .ok [m] => .plugins m
  | _, _ => .ended

/-- A call (or the `next_message` inside `consume`) returns: the guard of the buffer is dropped. -/
def finish (s : State T) (i : Nat) (t : Task T) (o : Outcome (List (Received T))) : State T :=
  { s.goto i t (after t.job o) with
    holder := release s.holder i, results := s.results ++ [(i, o)] }

/-- One step of running code. -/
def runCode (s : State T) (i : Nat) (t : Task T) : Code T → Option (State T)
  | .ret o => some (finish s i t o)
  | .load k => some (s.goto i t (.running (k s.permits)))
  | .store n k => some { s.goto i t (.running k) with permits := n }
  | .add n k => some { s.goto i t (.running k) with permits := s.permits + n }
  | .flow n k => if s.isOpen then some { s.goto i t (.running (k (.ok ()))) with granted := s.granted ++ [n] } else none
  | .lock k => if s.holder = none then some { s.goto i t (.running (k s.buffer)) with holder := some i } else none
  | .write b k => some { s.goto i t (.running k) with buffer := b }
  -- `src/client.rs:252-260`: events that are no messages are skipped
  | .recv k => match s.inbox with
    | .message m :: q => some { s.goto i t (.running (k (.ok m))) with inbox := q, received := s.received ++ [m] }
    | _ :: q => some { s with inbox := q }
    | [] => if s.isOpen then none else some (s.goto i t (.running (k (.err .channelTerminated))))

/-- One step of a call.  After the last plugin `consume` loops (`src/consumer.rs:270-276`). -/
def runTask (cfg : Cfg T) (s : State T) (i : Nat) (t : Task T) : Option (State T) :=
  match t.stage with
  | .running c => runCode s i t c
  | .plugins m => if s.pluginHolder = none then some { s.goto i t (.offering m 0) with pluginHolder := some i } else none
  | .offering _ k => if k < cfg.plugins then none
    else some { s.goto i t (.running (nextMessage cfg)) with pluginHolder := release s.pluginHolder i }
  | .ended => none

/-- A call can wait here, so it can be dropped here. -/
def Stage.waits : Stage T → Bool
  | .running (.load _) => true
  | .running (.lock _) => true
  | .running (.recv _) => true
  | .plugins _ => true
  | .offering _ _ => true
  | _ => false

/-- One step; `none` if the action is not possible now. -/
def step (cfg : Cfg T) (s : State T) : Act → Option (State T)
  | .deliver e => if s.isOpen then some { s with inbox := s.inbox ++ [e] } else none
  | .close => some { s with isOpen := false }
  | .spawn j => some { s with tasks := s.tasks ++ [⟨j, .running (j.code cfg)⟩] }
  | .run i => match s.tasks[i]? with
    | some t => runTask cfg s i t
    | none => none
  | .refuse i => match s.tasks[i]? with
    | some t => match t.stage with
      | .running (.flow _ k) =>
        if s.isOpen then none else some (s.goto i t (.running (k (.err .channelTerminated))))
      | _ => none
    | none => none
  | .offer i r => match s.tasks[i]? with
    | some t => match t.stage with
      | .offering m k =>
        if k < cfg.plugins then match r with
          | .ok _ => some { s.goto i t (.offering m (k + 1)) with offers := s.offers ++ [(i, k, m, r)] }
          | _ => some { s.goto i t .ended with pluginHolder := release s.pluginHolder i, offers := s.offers ++ [(i, k, m, r)] }
        else none
      | _ => none
    | none => none
  | .cancel i => match s.tasks[i]? with
    | some t => if t.stage.waits then
        some { s.goto i t .ended with holder := release s.holder i, pluginHolder := release s.pluginHolder i }
      else none
    | none => none

/-- A run: a list of actions, each possible in turn. -/
inductive Run (cfg : Cfg T) : List Act → State T → Prop where
  | nil : Run cfg [] (init cfg)
  | snoc {as : List Act} {s s' : State T} {a : Act} : Run cfg as s → step cfg s a = some s' → Run cfg (as ++ [a]) s'

end Neutron.Consumer
