import Verif.Model.World
import Verif.Spec.Sys
import Verif.Spec.Stream
import Verif.Spec.Consumer

/-!
# Vocabulary for the whole client: what arrives on sockets, what is written to them, what calls are made
-/

namespace Neutron.World

open Neutron

variable {T : Type}

/-- What happened to the read side of the socket of `b`, in order. -/
def readEvents (b : BrokerAddress) : List Act → List Framed.Ev
  | [] => []
  | .arrive b' r :: as => if b' = b then .arrive r :: readEvents b as else readEvents b as
  | .poll b' _ :: as => if b' = b then .poll :: readEvents b as else readEvents b as
  | _ :: as => readEvents b as

/-- What the socket of `b` has returned or is ready to return. -/
def arrived (b : BrokerAddress) (as : List Act) : List Read := Framed.arrivals (readEvents b as)

/-- The calls made on the consumer. -/
def callsMade : List Act → List Consumer.Job
  | [] => []
  | .app (.spawn j) :: as => j :: callsMade as
  | _ :: as => callsMade as

/-- The messages among broker commands (an unsupported or malformed command is none). -/
def messagesOf (l : List MessageCommand) : List Message :=
  l.filterMap fun v => match Inbound.ofCommand v with
    | .ok (.message m) => some m
    | _ => none

/-- The commands among the results of polling a socket. -/
def commandsOf (l : List Poll) : List MessageCommand :=
  l.filterMap fun p => match p with
    | .item m => some m
    | _ => none

/-- What arrived on the socket of `b` during `as` is, cut up in any way, (the beginning of) the encodings of these commands, one
after the other, then `part`, which is not a whole frame; then, if `closed`, the end of the connection. -/
structure Sends (b : BrokerAddress) (as : List Act) (frames : List (MessageCommand × Bytes)) (part : Bytes) (closed : Bool) : Prop where
  whole : ∀ f ∈ frames, Framed.IsFrame f
  partial' : Framed.IsPartial part
  reads : ∃ reads : List Read, (∀ r ∈ reads, Framed.IsData r) ∧ Framed.bytesOf reads = Framed.stream frames ++ part ∧
    arrived b as <+: reads ++ (if closed then [.eof] else [])

/-- All of it has arrived. -/
structure HasSent (b : BrokerAddress) (as : List Act) (frames : List (MessageCommand × Bytes)) (part : Bytes) : Prop where
  whole : ∀ f ∈ frames, Framed.IsFrame f
  partial' : Framed.IsPartial part
  reads : (∀ r ∈ arrived b as, Framed.IsData r) ∧ Framed.bytesOf (arrived b as) = Framed.stream frames ++ part

/-- Messages for client `i` that the connection tasks have read, from the socket of `b`. -/
def readFor (w : World T) (i : Nat) (b : BrokerAddress) : List Message :=
  Sys.addressedTo (UInt64.ofNat i) (messagesOf (commandsOf (w.rx b).out))

/-- Commands with their bytes: each the encoding (at some time) of its command. -/
def Encoded (overflowChecks : Bool) (l : List (Sys.ConnCmd × Bytes)) : Prop :=
  ∀ x ∈ l, ∃ now, (x.1.out.toCommand now).bind (Codec.encode overflowChecks) = .ok x.2

/-- Every write to every socket succeeded. -/
def NoWriteFailure (as : List Act) : Prop := ∀ b now io, Act.write b now io ∈ as → io = .ok

/-- A continuation of a run: `w` to `w'` by actions `as`, every state on the way (including both ends) satisfying `P`. -/
inductive Path (cfg : Cfg T) (P : World T → Prop) : World T → List Act → World T → Prop where
  | nil {w : World T} (h : P w) : Path cfg P w [] w
  | snoc {w w' w'' : World T} {as : List Act} {a : Act} (hp : Path cfg P w as w') (hs : step cfg w' a = some w'') (h : P w'') :
      Path cfg P w (as ++ [a]) w''

/-- Executing a list of actions. -/
def exec (cfg : Cfg T) : World T → List Act → Option (World T)
  | w, [] => some w
  | w, a :: as => match step cfg w a with
    | some w' => exec cfg w' as
    | none => none

end Neutron.World
