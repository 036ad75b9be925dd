import Verif.Spec.Forever
import Verif.Spec.Waiting
import Verif.Spec.Order

/-!
# The application's calls in executions that go on forever
-/

namespace Neutron.World

variable {T : Type}

/-- What an action of an instance does to its clients, engine and connections (the actions of `Model/Sys.lean`). -/
def does (cfg : Cfg T) (w : World T) : Act → List Sys.Act
  | .arrive _ _ => []
  | .hold _ => []
  | .serve _ => []
  | .poll b answers => (item answers (Framed.pollNext (w.rx b).framed (w.rx b).socket).1).toList.map (Sys.Act.connRead b)
  | .write b now io => match (w.sys.conns b).queue with
    | [] => [.connCmd b .ok]
    | c :: _ => match (w.tx b).send cfg.overflowChecks now c.out io with
      | some (_, r) => [.connCmd b r]
      | none => []
  | .sys a => [a]
  | .app a => induced cfg w a

end Neutron.World

namespace Neutron.App

variable {T : Type}

/-- The same for an action of the application or one of its calls. -/
def does (cfg : World.Cfg T) (a : State T) : Act → List Sys.Act
  | .world x => World.does cfg a.world x
  | .start _ => []
  | .run k => match a.jobs[k]? with
    | some j => (j.acts a.world.sys).getD []
    | none => []
  | .drop k => match a.jobs[k]? with
    | some j => j.dropActs a.world.sys
    | none => []

/-- An infinite execution of everything, from the start; the engine looks at its clients in the order of their registration. -/
structure Forever (cfg : World.Cfg T) (σ : Nat → State T) (acts : Nat → Act) : Prop where
  start : σ 0 = init cfg
  steps : ∀ n, step cfg (σ n) (acts n) = some (σ (n + 1))
  ordered : ∀ n x, acts n = .world (.sys x) → Sys.FirstReady (σ n).world.sys x

/-- The states of clients, engine and connections. -/
def sysOf (σ : Nat → State T) (n : Nat) : Sys.State := (σ n).world.sys

/-- What happens to clients, engine and connections, round by round. -/
def roundsOf (cfg : World.Cfg T) (σ : Nat → State T) (acts : Nat → Act) (n : Nat) : List Sys.Act := does cfg (σ n) (acts n)

/-- The scheduler does not neglect call number `k`: if it can make a step again and again, it makes one again and again. -/
def FairTo (cfg : World.Cfg T) (σ : Nat → State T) (acts : Nat → Act) (k : Nat) : Prop :=
  Sys.AgainAndAgain (fun n => ∃ a, step cfg (σ n) (.run k) = some a) → Sys.AgainAndAgain (fun n => acts n = .run k)

/-- Client `i` belongs to call number `k`: the call is made on it, or has created it. -/
def ClientOf (σ : Nat → State T) (k i : Nat) : Prop := ∃ m j, (σ m).jobs[k]? = some j ∧ j.client = some i

/-- Client `i'` is another client than `i` and was registered before it. -/
def RegisteredBefore (σ : Nat → State T) (i' i : Nat) : Prop :=
  i' ≠ i ∧ ∃ m before after, (σ m).world.sys.vec = before ++ i :: after ∧ i' ∈ before

/-- Call number `k` has returned at some time after time `n`. -/
def Returns (σ : Nat → State T) (k n : Nat) : Prop := ∃ m, n ≤ m ∧ ∃ j o, (σ m).jobs[k]? = some j ∧ j.ended = some o

/-- The program waits only for the responses to commands it has handed over itself; `own` are the requests so far. -/
def WaitsForOwn {α : Type} : List Nat → Prog α → Prop
  | _, .ret _ => True
  | own, .hand c k => ∀ r, WaitsForOwn (own ++ requests [.handed c r]) (k r)
  | own, .wait t _ k => t ∈ own ∧ ∀ r, WaitsForOwn own (k r)

end Neutron.App

namespace Neutron.Sys

/-- Engine, connections and brokers do their part: the engine keeps looping; neither its clients, nor those that want to register,
nor the connections are neglected; the connections work and the brokers answer. -/
structure DoTheirPart (cfg : Cfg) (σ : Nat → State) (acts : Nat → List Act) : Prop where
  loops : KeepsLooping σ
  regs : Fair cfg σ acts Act.servesRegs
  writes : ∀ b, Fair cfg σ acts (Act.servesWrites b)
  reads : ∀ b, Fair cfg σ acts (Act.servesReads b)
  works : ∀ b, Works σ acts b
  answers : ∀ b, BrokerAnswers σ acts b

/-- Client `i` gets its turn: again and again the engine is in its loop while the clients registered before client `i` have nothing
waiting and are alive. -/
def GetsTurns (σ : Nat → State) (i : Nat) : Prop :=
  AgainAndAgain fun m => (σ m).mode = .idle ∧ ∀ before after, (σ m).vec = before ++ i :: after →
    ∀ j, j ∈ before → ((σ m).clients j).queue = [] ∧ ((σ m).clients j).phase ≠ .gone

end Neutron.Sys
