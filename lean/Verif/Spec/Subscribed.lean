import Verif.Spec.OnePlace
import Verif.Spec.World

/-!
# Brokers that deliver only where a consumer has subscribed

Stated on the bytes each socket has accepted and on the commands each socket carries.
-/

namespace Neutron

open Proto

/-- The command is a `SUBSCRIBE` of consumer `p`. -/
def IsSubscribe (v : MessageCommand) (p : UInt64) : Prop :=
  commandType v.command = 4 ∧ ∃ m, getMsg .baseCommand v.command 4 = some m ∧ getU64 .commandSubscribe m 4 = p

/-- The command is a `MESSAGE` for consumer `p`. -/
def IsMessageFor (v : MessageCommand) (p : UInt64) : Prop :=
  commandType v.command = 9 ∧ ∃ m, getMsg .baseCommand v.command 9 = some m ∧ getU64 .commandMessage m 1 = p

/-- Brokers deliver only to consumers that have subscribed: whenever reading the socket of `b` yields a `MESSAGE` for consumer `p`,
the bytes that socket has accepted by then contain a whole `SUBSCRIBE` of `p`. -/
def World.DeliversOnlySubscribed {T : Type} (cfg : World.Cfg T) (acts : List World.Act) : Prop :=
  ∀ pre post b answers w v p, acts = pre ++ .poll b answers :: post → World.Run cfg pre w →
    (Framed.pollNext (w.rx b).framed (w.rx b).socket).1 = .item v → IsMessageFor v p →
    ∃ m, Received (w.tx b).sent m ∧ IsSubscribe m p

end Neutron
