import Verif.Spec.Sys

/-!
# Why the engine or a connection ends: vocabulary

In terms of what the application, the authentication plugin, the network and the brokers did.
-/

namespace Neutron.Sys

open Neutron

/-- The configured broker URL cannot be connected to (any more) in this world: no address, refused, failed handshake, … -/
def Unreachable (cfg : Cfg) (net : Net) : Prop := ∀ t, openConnection net cfg.config.brokerAddress ≠ .ok t

/-- The authentication plugin, if there is one, did not give credentials. -/
def NoCredentials (cfg : Cfg) (auth : Outcome Bytes) : Prop := cfg.authMethod ≠ none ∧ ∀ d, auth ≠ .ok d

/-- The command client `i` is about to be served is a `Connect`. -/
def NextIsConnect (s : State) (i : Nat) : Prop := ∃ c t q, (s.clients i).queue = ⟨.connect c, t⟩ :: q

/-- The reasons for which the engine may stop, in state `s`, at action `a`. -/
inductive StopReason (cfg : Cfg) (s : State) : Act → Prop where
  /-- the first connection cannot be opened -/
  | start (net : Net) (h : Unreachable cfg net) : StopReason cfg s (.engStart net)
  /-- a client was dropped, or its creation given up, and nothing is left to do for it -/
  | dropped (i : Nat) (auth : Outcome Bytes) (net : Net) (hi : i ∈ s.vec) (h : (s.clients i).phase = .gone)
      (hq : (s.clients i).queue = []) : StopReason cfg s (.engOut i auth net)
  /-- there are no credentials for a `Connect` -/
  | credentials (i : Nat) (auth : Outcome Bytes) (net : Net) (hc : NextIsConnect s i) (h : NoCredentials cfg auth) :
      StopReason cfg s (.engOut i auth net)
  /-- a further connection cannot be opened -/
  | dial (i : Nat) (auth : Outcome Bytes) (net : Net) (hc : NextIsConnect s i) (h : Unreachable cfg net) :
      StopReason cfg s (.engOut i auth net)
  /-- a connection has ended -/
  | connection (a : Act) (b : BrokerAddress) (hb : b ∈ s.addrs) (h : (s.conns b).alive = false) : StopReason cfg s a
  /-- the `PulsarManager` was dropped -/
  | manager (a : Act) (h : s.managerAlive = false) : StopReason cfg s a

/-- The reasons for which the connection to `b` may end, in state `s`, at action `a`. -/
inductive EndReason (s : State) (b : BrokerAddress) : Act → Prop where
  /-- the peer closed it -/
  | closed : EndReason s b (.connRead b .closed)
  /-- the decoder panicked (C72) -/
  | decoder : EndReason s b (.connRead b .panicked)
  /-- the peer sent a command that panics the conversion (C17, C74) -/
  | conversion (v : MessageCommand) (ans : Option Tok) (h : Inbound.ofCommand v = .panic) :
      EndReason s b (.connRead b (.command v ans))
  /-- the encoder panicked (C10) -/
  | encoder : EndReason s b (.connCmd b .panicked)
  /-- the engine has stopped, and there is nothing left to write -/
  | noCommands (w : Write) (h : s.mode = .stopped) (hq : (s.conns b).queue = []) : EndReason s b (.connCmd b w)
  /-- the engine has stopped, and what was read cannot be passed on -/
  | noReader (v : MessageCommand) (ans : Option Tok) (h : s.mode = .stopped) : EndReason s b (.connRead b (.command v ans))

/-- What the environment does that may bring the engine to a stop, now or later. -/
def Trouble (cfg : Cfg) : Act → Prop
  | .engStart net => Unreachable cfg net
  | .engOut _ auth net => NoCredentials cfg auth ∨ Unreachable cfg net
  | .dropClient _ | .cancelReg _ | .dropManager => True
  | .connCmd _ w => w = .panicked
  | .connRead _ .closed | .connRead _ .panicked => True
  | .connRead _ (.command v _) => Inbound.ofCommand v = .panic
  | _ => False

/-- The engine panics at action `a`, instead of ending in order. -/
def EnginePanics (cfg : Cfg) (s : State) : Act → Prop
  | .engStart net => s.mode = .starting ∧ (newConnection s net cfg.config.brokerAddress).2 = .panic
  | .engOut i auth net => s.mode = .idle ∧ i ∈ s.vec ∧ ∃ cmd q, (s.clients i).queue = cmd :: q ∧
      (handleOutbound cfg (takeCmd s i cmd q) i cmd auth net).2 = .panic
  | .engIn b => s.mode = .idle ∧ ∃ e q, (s.conns b).outbox = e :: q ∧ (handleInbound (takeEvent s b e q) b e).2 = .panic
  | _ => False

end Neutron.Sys
