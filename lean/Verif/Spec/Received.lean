import Verif.Spec.World
import Verif.Spec.Commands

/-!
# What a broker has received, and brokers that confirm only what they received

Stated on the bytes each socket has accepted, not on the client's bookkeeping.
-/

namespace Neutron

open Proto

/-- The command is a `SEND` of producer `p` with sequence id `s`. -/
def IsSendCommand (v : MessageCommand) (p s : UInt64) : Prop :=
  commandType v.command = 6 ∧ ∃ m, getMsg .baseCommand v.command 6 = some m ∧ getU64 .commandSend m 1 = p ∧ getU64 .commandSend m 2 = s

/-- The command is a `SEND_RECEIPT` for producer `p` and sequence id `s`. -/
def IsSendReceipt (v : MessageCommand) (p s : UInt64) : Prop :=
  commandType v.command = 7 ∧ ∃ m, getMsg .baseCommand v.command 7 = some m ∧ getU64 .commandSendReceipt m 1 = p ∧
    getU64 .commandSendReceipt m 2 = s

/-- `bytes` begins with these whole frames. -/
def BeginsWith (bytes : Bytes) (frames : List (MessageCommand × Bytes)) : Prop :=
  (∀ f ∈ frames, Framed.IsFrame f) ∧ Framed.stream frames <+: bytes

/-- Whoever has been sent `bytes` has received the whole of command `v`. -/
def Received (bytes : Bytes) (v : MessageCommand) : Prop := ∃ frames, BeginsWith bytes frames ∧ v ∈ frames.map (·.1)

namespace World

variable {T : Type}

/-- Every command the connections have taken is one the API can produce (acks name a valid id), and is below 4 GiB less 300 bytes. -/
def Fits (w : World T) : Prop := ∀ b, ∀ c ∈ (w.sys.conns b).processed, c.out.Valid ∧ c.out.volume + 300 < 4294967296

/-- Brokers confirm only what they have received: whenever reading the socket of `b` yields a receipt for producer `p` and sequence
id `s`, the bytes that socket has accepted by then contain a whole `SEND` of `p` with sequence id `s`. -/
def ConfirmsOnlyReceived (cfg : Cfg T) (acts : List Act) : Prop :=
  ∀ pre post b answers w v p s, acts = pre ++ .poll b answers :: post → Run cfg pre w →
    (Framed.pollNext (w.rx b).framed (w.rx b).socket).1 = .item v → IsSendReceipt v p s →
    ∃ m, Received (w.tx b).sent m ∧ IsSendCommand m p s

end World

end Neutron
