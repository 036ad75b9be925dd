import Verif.Proof.AppOwn
import Verif.Proof.WorldCalls

/-!
# What a call in progress needs is there
-/

namespace Neutron

namespace Sys

/-- The action is of those that change the phase of client `i`. -/
def Act.moves (i : Nat) : Act → Prop
  | .sendReg k => k = i
  | .recvReply k => k = i
  | .cancelReg k => k = i
  | .dropClient k => k = i
  | _ => False

theorem phase_step {cfg : Cfg} {s s' : State} {a : Act} (hs : step cfg s a = some s') {i : Nat} (hi : i < s.nClients)
    (ha : ¬ a.moves i) : (s'.clients i).phase = (s.clients i).phase := by
  cases step_cases hs with
  | startOk net hm s2 h2 => rcases h2 with ⟨rfl, hb⟩ | ⟨hb, rfl⟩ <;> simp
  | out j auth net cmd q s'' hm hv ha hq he =>
    have ht : ((takeCmd s j cmd q).clients i).phase = (s.clients i).phase := by
      rw [takeCmd_clients]; split
      · rename_i hij; subst hij; rfl
      · rfl
    cases he with
    | lost c c2 b s3 hcc h2 hb hp => simp [hp.clients_phase, ht]
    | connecting c c2 b s3 k hcc h2 hb hp hj ha hl => simp [hp.clients_phase, ht]
    | _ => simp [ht]
  | inb b e q s'' hm ha hv hq he =>
    cases he with
    | pingFailed => simp
    | ping => simp
    | other hp =>
      rcases managerSend_client (takeEvent s b e q) { e with inb := adjust b e.inb } b false i with hc | ⟨hc, hrc, _⟩
      · rw [hc]; simp
      · rw [hc]; simp
  | connectOk r b x e hm hf =>
    rcases managerSend_client { s with mode := .idle } e b true i with hc | ⟨hc, hrc, _⟩
    · rw [hc]
    · rw [hc]
  | newClient name hl =>
    have : i ≠ s.nClients := by omega
    simp [setClient_clients, this]
  | dropClient j | recvReply j | sendRegFail j | sendReg j  | recvReplyFail j | cancelReg j =>
    have : i ≠ j := by rintro rfl; exact ha rfl
    simp [setClient_clients, this]
  | reg j | regFail j | request j | oneway j | submit j | refuse j | freeQueue j | clientNext j =>
    by_cases hij : i = j
    · subst hij; simp_all [setClient_clients]
    · simp [setClient_clients, hij]
  | _ => simp

theorem manager_step {cfg : Cfg} {s s' : State} {a : Act} (hs : step cfg s a = some s') (ha : a ≠ .dropManager) :
    s'.managerAlive = s.managerAlive := by
  cases step_cases hs with
  | startOk net hm s2 h2 => rcases h2 with ⟨rfl, hb⟩ | ⟨hb, rfl⟩ <;> simp
  | out j auth net cmd q s'' hm hv ha hq he =>
    cases he with
    | lost c c2 b s3 hcc h2 hb hp => simp [hp.managerAlive]
    | connecting c c2 b s3 k hcc h2 hb hp hj ha hl => simp [hp.managerAlive]
    | _ => simp
  | inb b e q s'' hm ha hv hq he =>
    cases he with
    | pingFailed => simp
    | ping => simp
    | other hp => simp
  | dropManager => exact absurd rfl ha
  | _ => simp

end Sys

namespace App

open Neutron World

variable {T : Type}

/-- What a step of the whole does to the instance: one action, those of a connection task, or those of the consumer's calls. -/
theorem world_acts {cfg : World.Cfg T} {w w' : World T} {x : World.Act} (hs : World.step cfg w x = some w') :
    ∃ as, sysSteps cfg.sys w.sys as = some w'.sys ∧ ((∃ y, x = .sys y ∧ as = [y]) ∨ (∀ y ∈ as, ∃ b, (∃ r, y = .connRead b r) ∨ ∃ r, y = .connCmd b r) ∨
      as = [.clientNext cfg.me] ∨ ∃ n, as = [.beginCall cfg.me (.flow n), .submit cfg.me (w.sys.clients cfg.me).starting.length]) := by
  have one : ∀ {a : Sys.Act} {s : Sys.State}, Sys.step cfg.sys w.sys a = some s → sysSteps cfg.sys w.sys [a] = some s := by
    intro a s h; simp only [sysSteps, h]
  cases x with
  | arrive b r =>
    simp only [World.step] at hs
    split at hs
    · cases hs; exact ⟨[], rfl, .inr (.inl (by simp))⟩
    · cases hs
  | hold b =>
    simp only [World.step] at hs
    split at hs
    · cases hs; exact ⟨[], rfl, .inr (.inl (by simp))⟩
    · cases hs
  | serve i' =>
    simp only [World.step] at hs
    split at hs
    · cases hs; exact ⟨[], rfl, .inr (.inl (by simp))⟩
    · cases hs
  | poll b ans =>
    simp only [World.step] at hs
    split at hs
    · split at hs
      · rename_i s hx
        cases hs
        refine ⟨_, hx, .inr (.inl ?_)⟩
        intro y hy
        obtain ⟨z, _, rfl⟩ := List.mem_map.mp hy
        exact ⟨b, .inl ⟨z, rfl⟩⟩
      · cases hs
    · cases hs
  | write b now io =>
    simp only [World.step] at hs
    split at hs
    · split at hs
      · split at hs
        · rename_i s hx; cases hs
          exact ⟨_, one hx, .inr (.inl (by simp))⟩
        · cases hs
      · split at hs
        · split at hs
          · rename_i s hx; cases hs
            exact ⟨_, one hx, .inr (.inl (by simp))⟩
          · cases hs
        · cases hs
    · cases hs
  | sys a =>
    simp only [World.step] at hs
    split at hs
    · split at hs
      · rename_i s hx; cases hs
        exact ⟨_, one hx, .inl ⟨a, rfl, rfl⟩⟩
      · cases hs
    · cases hs
  | app a =>
    simp only [World.step] at hs
    split at hs
    · split at hs
      · split at hs
        · rename_i s hx
          cases hs
          refine ⟨_, hx, .inr ?_⟩
          unfold World.induced
          split
          · split
            · split
              · exact .inl (by simp)
              · exact .inr (.inl rfl)
            · exact .inr (.inr ⟨_, rfl⟩)
            · exact .inl (by simp)
          · split
            · exact .inr (.inr ⟨_, rfl⟩)
            · exact .inl (by simp)
          · exact .inl (by simp)
        · cases hs
      · cases hs
    · cases hs

theorem sysSteps_mono {cfg : Sys.Cfg} (P : Sys.Act → Prop) (Q : Sys.State → Prop)
    (hq : ∀ s a s', Q s → P a → Sys.step cfg s a = some s' → Q s') : ∀ {as : List Sys.Act} {s s' : Sys.State}, (∀ a ∈ as, P a) → Q s →
      sysSteps cfg s as = some s' → Q s' := by
  intro as
  induction as with
  | nil => intro s s' _ h hs; cases hs; exact h
  | cons a as ih =>
    intro s s' ha h hs
    simp only [sysSteps] at hs
    cases hx : Sys.step cfg s a with
    | none => rw [hx] at hs; cases hs
    | some s1 =>
      rw [hx] at hs
      exact ih (fun b hb => ha b (by simp [hb])) (hq _ _ _ h (ha a (by simp)) hx) hs

theorem phase_steps {cfg : Sys.Cfg} {as : List Sys.Act} {s s' : Sys.State} {i : Nat} (hi : i < s.nClients)
    (hs : sysSteps cfg s as = some s') (ha : ∀ a ∈ as, ¬ a.moves i) : (s'.clients i).phase = (s.clients i).phase :=
  (sysSteps_mono (fun a => ¬ a.moves i) (fun t => i < t.nClients ∧ (t.clients i).phase = (s.clients i).phase)
    (fun _ _ _ h1 h2 h3 => ⟨Nat.lt_of_lt_of_le h1.1 (Sys.nClients_mono h3), by rw [Sys.phase_step h3 h1.1 h2, h1.2]⟩) ha ⟨hi, rfl⟩ hs).2

theorem manager_steps {cfg : Sys.Cfg} {as : List Sys.Act} {s s' : Sys.State}
    (hs : sysSteps cfg s as = some s') (ha : ∀ a ∈ as, a ≠ .dropManager) : s'.managerAlive = s.managerAlive :=
  sysSteps_mono (fun a => a ≠ .dropManager) (fun t => t.managerAlive = s.managerAlive)
    (fun _ _ _ h1 h2 h3 => by rw [Sys.manager_step h3 h2, h1]) ha rfl hs

theorem world_phase {cfg : World.Cfg T} {w w' : World T} {x : World.Act} (hs : World.step cfg w x = some w') {i : Nat}
    (hi : i < w.sys.nClients) (ha : ∀ a, x = .sys a → ¬ a.moves i) : (w'.sys.clients i).phase = (w.sys.clients i).phase := by
  obtain ⟨as, h1, h2⟩ := world_acts hs
  refine phase_steps hi h1 ?_
  intro y hy
  rcases h2 with ⟨z, h2, rfl⟩ | h2 | rfl | ⟨n, rfl⟩
  · simp only [List.mem_singleton] at hy; subst hy; exact ha _ h2
  · obtain ⟨b, ⟨r, rfl⟩ | ⟨r, rfl⟩⟩ := h2 y hy <;> exact fun h => h
  · simp only [List.mem_singleton] at hy; subst hy; exact fun h => h
  · simp only [List.mem_cons, List.not_mem_nil, or_false] at hy
    rcases hy with rfl | rfl <;> exact fun h => h

theorem world_manager {cfg : World.Cfg T} {w w' : World T} {x : World.Act} (hs : World.step cfg w x = some w')
    (ha : x ≠ .sys .dropManager) : w'.sys.managerAlive = w.sys.managerAlive := by
  obtain ⟨as, h1, h2⟩ := world_acts hs
  refine manager_steps h1 ?_
  rintro y hy rfl
  rcases h2 with ⟨z, h2, rfl⟩ | h2 | rfl | ⟨n, rfl⟩
  · simp only [List.mem_singleton] at hy; subst hy; exact ha h2
  · obtain ⟨b, ⟨r, hr⟩ | ⟨r, hr⟩⟩ := h2 _ hy <;> cases hr
  · simp at hy
  · simp at hy

/-- A step that is not a call on client `i` leaves the commands made but not handed over as they are. -/
theorem world_starting {cfg : World.Cfg T} {w w' : World T} {x : World.Act} (hs : World.step cfg w x = some w') {i : Nat}
    (hi : i < w.sys.nClients) (ha : ∀ a, x = .sys a → ¬ a.on i) : (w'.sys.clients i).starting = (w.sys.clients i).starting := by
  obtain ⟨as, h1, h2⟩ := world_acts hs
  by_cases hfl : ∃ n, as = [.beginCall cfg.me (.flow n), .submit cfg.me (w.sys.clients cfg.me).starting.length] ∧ i = cfg.me
  · obtain ⟨n, rfl, rfl⟩ := hfl
    simp only [sysSteps] at h1
    cases hx : Sys.step cfg.sys w.sys (.beginCall cfg.me (.flow n)) with
    | none => rw [hx] at h1; cases h1
    | some s1 =>
      rw [hx] at h1
      have hb := begun (cfg := cfg.sys) (s := w.sys) (s' := s1) (i := cfg.me) (c := .flow n) (by simp only [sysSteps, hx])
      obtain ⟨cmd, hp⟩ := put (cfg := cfg.sys) (s := s1) (s' := w'.sys) (i := cfg.me) (n := (w.sys.clients cfg.me).starting.length)
        (by simpa only [sysSteps] using h1)
      rw [hp.starting, hb.starting]
      rw [List.eraseIdx_append_of_length_le (Nat.le_refl _)]
      simp
  · refine (Sys.same_steps h1 hi ?_).starting
    intro y hy
    rcases h2 with ⟨z, h2, rfl⟩ | h2 | rfl | ⟨n, rfl⟩
    · simp only [List.mem_singleton] at hy; subst hy; exact ha _ h2
    · obtain ⟨b, ⟨r, rfl⟩ | ⟨r, rfl⟩⟩ := h2 y hy <;> exact fun h => h
    · simp only [List.mem_singleton] at hy; subst hy; exact fun h => h
    · simp only [List.mem_cons, List.not_mem_nil, or_false] at hy
      have : cfg.me ≠ i := fun h => hfl ⟨n, rfl, h.symm⟩
      rcases hy with rfl | rfl <;> exact this

/-- What a call does next. -/
inductive Doing (s : Sys.State) (j : Job) (as : List Sys.Act) : Prop where
  | alloc (k : UInt64 → Setup Unit) (hp : j.prog = .newId k) (ha : as = [.newClient j.name])
  | send (topic : String) (id : UInt64) (k : Outcome Unit → Setup Unit) (i : Nat) (hp : j.prog = .register topic id k)
      (hc : j.client = some i) (hf : (s.clients i).phase = .fresh) (ha : as = [.sendReg i])
  | recv (topic : String) (id : UInt64) (k : Outcome Unit → Setup Unit) (i : Nat) (hp : j.prog = .register topic id k)
      (hc : j.client = some i) (hf : (s.clients i).phase ≠ .fresh) (ha : as = [.recvReply i])
  | begin (core : Client) (c : Call) (k : Outcome Nat → Prog Unit) (k' : Outcome Unit → Setup Unit) (i : Nat)
      (hp : j.prog = .session core (.hand c k) k') (hc : j.client = some i) (hh : j.handing = none) (ha : as = [.beginCall i c])
  | put (core : Client) (c : Call) (k : Outcome Nat → Prog Unit) (k' : Outcome Unit → Setup Unit) (i : Nat) (tok : Option Nat)
      (hp : j.prog = .session core (.hand c k) k') (hc : j.client = some i) (hh : j.handing = some tok)
      (ha : as = [.submit i (slot s i tok)])
  | wait (core : Client) (t : Nat) (c : Call) (k : Outcome Response → Prog Unit) (k' : Outcome Unit → Setup Unit) (i : Nat)
      (hp : j.prog = .session core (.wait t c k) k') (hc : j.client = some i) (ho : (outcome s t).isSome = true) (ha : as = [])
  | over (core : Client) (o : Outcome Unit) (k' : Outcome Unit → Setup Unit) (i : Nat)
      (hp : j.prog = .session core (.ret o) k') (hc : j.client = some i)
      (ha : as = [] ∨ j.owns = true ∧ as = [.dropClient i])

theorem doing {s : Sys.State} {j : Job} {as : List Sys.Act} (ha : j.acts s = some as) : Doing s j as := by
  unfold Job.acts at ha
  split at ha
  · simp only [Option.some.injEq] at ha; exact .alloc _ (by assumption) ha.symm
  · simp only [Option.some.injEq] at ha
    split at ha
    · exact .send _ _ _ _ (by assumption) (by assumption) (by assumption) ha.symm
    · exact .recv _ _ _ _ (by assumption) (by assumption) (by assumption) ha.symm
  · split at ha
    · simp only [Option.some.injEq] at ha; exact .begin _ _ _ _ _ (by assumption) (by assumption) (by assumption) ha.symm
    · simp only [Option.some.injEq] at ha; exact .put _ _ _ _ _ _ (by assumption) (by assumption) (by assumption) ha.symm
  · split at ha
    · simp only [Option.some.injEq] at ha; exact .wait _ _ _ _ _ _ (by assumption) (by assumption) (by assumption) ha.symm
    · cases ha
  · simp only [Option.some.injEq] at ha; exact .over _ _ _ _ (by assumption) (by assumption) (.inl ha.symm)
  · simp only [Option.some.injEq] at ha
    split at ha
    · exact .over _ _ _ _ (by assumption) (by assumption) (.inr ⟨by assumption, ha.symm⟩)
    · exact .over _ _ _ _ (by assumption) (by assumption) (.inl ha.symm)
  · cases ha

/-- A call that registers belongs to a `connect`. -/
theorem owner {j : Job} (h : Kind j) (ho : j.owns = (match j.made with | .call _ _ => false | _ => true)) :
    (∀ k, j.prog = .newId k → j.owns = true) ∧ ∀ topic id k, j.prog = .register topic id k → j.owns = true := by
  cases h with
  | missing hp => constructor <;> intros <;> simp_all
  | consumer b name topic subscription hb hm hn hs => simp_all
  | producer b name topic hb hm hn hs => simp_all
  | call i p core evs hm hc hp => cases hp <;> constructor <;> intros <;> simp_all

theorem owns_made {cfg : World.Cfg T} {acts : List Act} {log : List World.Act} {a : State T} (h : Run cfg acts log a) :
    ∀ j ∈ a.jobs, j.owns = (match j.made with | .call _ _ => false | _ => true) := by
  refine job_induct (fun _ j => j.owns = (match j.made with | .call _ _ => false | _ => true)) (fun _ _ _ _ _ h _ => h) ?_ ?_
    (fun _ _ h => h) h
  · intro s c _ _; cases c <;> rfl
  · intro s s' j as _ hq _ _ _ _
    obtain ⟨h1, _, h2, _⟩ := after_made s s' j
    rw [h1, h2, hq]

/-- What the phase of its client is to a call. -/
def Fit (s : Sys.State) (i : Nat) (p : Setup Unit) : Prop :=
  match p with
  | .register _ _ _ => (s.clients i).phase = .fresh ∨ (s.clients i).phase = .waiting
  | .session _ _ _ => (s.clients i).phase = .ready
  | _ => True

/-- The call is about to put a command of request `tok` in the channel of client `i`. -/
def Job.puts (i : Nat) (tok : Option Nat) (j : Job) : Bool := decide (j.client = some i) && decide (j.handing = some tok)

structure Live (a : State T) : Prop where
  starting : ∀ i tok, i < a.world.sys.nClients →
    ((a.world.sys.clients i).starting.map Sys.ClientCmd.tok).count tok = a.jobs.countP (Job.puts i tok)
  manager : ∀ j ∈ a.jobs, j.owns = true → j.live = true → j.ended = none → a.world.sys.managerAlive = true
  phase : ∀ j ∈ a.jobs, ∀ i, j.uses i = true → Fit a.world.sys i j.prog
  idle : ∀ j ∈ a.jobs, j.live = false → j.handing = none

theorem fit_eq {s s' : Sys.State} {i : Nat} {p : Setup Unit} (h : (s'.clients i).phase = (s.clients i).phase) (hf : Fit s i p) :
    Fit s' i p := by
  cases p <;> simp_all [Fit]

theorem modify_set {α : Type} {l : List α} {k : Nat} {x : α} (f : α → α) (h : l[k]? = some x) : l.modify k f = l.set k (f x) := by
  apply List.ext_getElem?
  intro n
  rw [List.getElem?_modify, List.getElem?_set]
  by_cases hk : k = n
  · subst hk
    obtain ⟨h1, h2⟩ := List.getElem?_eq_some_iff.mp h
    simp [h1, h2]
  · simp [hk]

theorem countP_modify {l : List Job} {k : Nat} {x : Job} (f : Job → Job) (p : Job → Bool) (h : l[k]? = some x) :
    (l.modify k f).countP p + (if p x then 1 else 0) = l.countP p + (if p (f x) then 1 else 0) := by
  obtain ⟨h1, h2⟩ := List.getElem?_eq_some_iff.mp h
  rw [modify_set f h, List.countP_set h1, h2]
  by_cases hp : p x
  · have : 0 < l.countP p := List.countP_pos_iff.mpr ⟨x, List.mem_of_getElem? h, hp⟩
    simp only [hp, if_true]; omega
  · simp [hp]

theorem nClients_same {cfg : World.Cfg T} {w w' : World T} {x : World.Act} (hs : World.step cfg w x = some w')
    (ha : ∀ name, x ≠ .sys (.newClient name)) : w'.sys.nClients = w.sys.nClients := by
  obtain ⟨as, h1, h2⟩ := world_acts hs
  refine sysSteps_mono (fun a => ∀ name, a ≠ .newClient name) (fun t => t.nClients = w.sys.nClients) ?_ ?_ rfl h1
  · intro s a s' h3 h4 h5
    rw [← h3]
    refine Nat.le_antisymm (Nat.le_of_not_lt fun hlt => ?_) (Sys.nClients_mono h5)
    rcases Sys.client_step h5 hlt with ⟨h6, _⟩ | ⟨_, _, name, h6, _⟩
    · omega
    · exact h4 name h6
  · rintro y hy name rfl
    rcases h2 with ⟨z, h2, rfl⟩ | h2 | rfl | ⟨n, rfl⟩
    · simp only [List.mem_singleton] at hy; subst hy; exact ha name h2
    · obtain ⟨b, ⟨r, hr⟩ | ⟨r, hr⟩⟩ := h2 _ hy <;> cases hr
    · simp at hy
    · simp at hy

/-- Making or handing over a command changes the commands of the client and of the call alike. -/
theorem starting_after {cfg : Sys.Cfg} {s s' : Sys.State} {j : Job} {as : List Sys.Act} (ha : j.acts s = some as)
    (hs : sysSteps cfg s as = some s') (hh : ∀ tok, j.handing = some tok → Handing s j tok) {i : Nat} (hi : i < s.nClients)
    (tok : Option Nat) :
    ((s'.clients i).starting.map Sys.ClientCmd.tok).count tok + (if j.puts i tok then 1 else 0) =
      ((s.clients i).starting.map Sys.ClientCmd.tok).count tok + (if (j.after s s').puts i tok then 1 else 0) := by
  have quiet : (∀ a ∈ as, ¬ a.on i) → (j.after s s').handing = j.handing → (j.handing = none) →
      ((s'.clients i).starting.map Sys.ClientCmd.tok).count tok + (if j.puts i tok then 1 else 0) =
      ((s.clients i).starting.map Sys.ClientCmd.tok).count tok + (if (j.after s s').puts i tok then 1 else 0) := by
    intro h1 h2 h3
    rw [(Sys.same_steps hs hi h1).starting]
    simp [Job.puts, h2, h3]
  have hd := doing ha
  by_cases hp : ∃ core call k k', j.prog = .session core (.hand call k) k'
  · obtain ⟨core, call, k, k', hp⟩ := hp
    cases hd with
    | begin core c k k' i' hp hc hg ha =>
      subst ha
      have hb := begun hs
      by_cases hii : i' = i
      · subst hii
        rw [hb.starting, after_begin hp hc hg]
        simp only [List.map_append, List.map_cons, List.map_nil, List.count_append, List.count_cons, List.count_nil, Nat.zero_add]
        simp [Job.puts, hg, hc]
      · rw [hb.others i (fun h => hii h.symm), after_begin hp hc hg]
        simp [Job.puts, hc, hii]
    | put core c k k' i' tok' hp hc hg ha =>
      subst ha
      obtain ⟨cmd, hput⟩ := put hs
      by_cases hii : i' = i
      · subst hii
        obtain ⟨hlt, hget⟩ := List.getElem?_eq_some_iff.mp hput.at_
        have htok : cmd.tok = tok' := by
          have := List.findIdx_getElem (p := fun c : Sys.ClientCmd => c.tok == tok') (xs := (s.clients i').starting) (w := hlt)
          rw [← hget]
          exact eq_of_beq this
        have hperm := (List.getElem_cons_eraseIdx_perm hlt).map Sys.ClientCmd.tok
        rw [hget, List.map_cons, htok] at hperm
        have hcount := hperm.count_eq tok
        rw [List.count_cons] at hcount
        rw [hput.starting, ← hcount, after_put hp hc hg]
        simp only [Job.puts, hc, hg, decide_true, Bool.true_and, Option.some.injEq, reduceCtorEq, decide_false, Bool.and_false,
          Bool.false_eq_true, if_false, Nat.add_zero, beq_iff_eq, decide_eq_true_eq]
      · rw [hput.others i (fun h => hii h.symm), after_put hp hc hg]
        simp [Job.puts, hc, hii]
    | _ => simp_all
  · have hp' : ∀ core call k k', j.prog ≠ .session core (.hand call k) k' := fun core call k k' h => hp ⟨core, call, k, k', h⟩
    refine quiet ?_ (after_handing hp') (handing_prog hh hp')
    cases hd with
    | over core o k' i' hp hc ha => rcases ha with rfl | ⟨_, rfl⟩ <;> simp [Sys.Act.on]
    | begin core c k k' i' hp hc => exact absurd hp (hp' _ _ _ _)
    | put core c k k' i' tok hp hc => exact absurd hp (hp' _ _ _ _)
    | _ => simp_all [Sys.Act.on]

theorem dropActs_cases {s : Sys.State} {j : Job} : j.dropActs s = [] ∨ ∃ i, j.client = some i ∧ j.owns = true ∧
    ((j.dropActs s = [.cancelReg i] ∧ ((s.clients i).phase = .fresh ∨ (s.clients i).phase = .waiting)) ∨
      j.dropActs s = [.dropClient i] ∧ (s.clients i).phase = .ready) := by
  unfold Job.dropActs
  split
  · rename_i i hc
    split
    · rename_i ho
      split
      · exact .inr ⟨i, hc, ho, .inl ⟨rfl, by assumption⟩⟩
      · split
        · exact .inr ⟨i, hc, ho, .inr ⟨rfl, by assumption⟩⟩
        · exact .inl rfl
    · exact .inl rfl
  · exact .inl rfl

theorem after_reg {s s' : Sys.State} {j : Job} {topic : String} {id : UInt64} {k : Outcome Unit → Setup Unit} {i : Nat}
    (hp : j.prog = .register topic id k) (hc : j.client = some i) :
    (j.after s s').prog = match (s'.clients i).phase with
      | .ready => k (.ok ())
      | .gone => k (.err .channelTerminated)
      | _ => .register topic id k := by
  unfold Job.after
  rw [hp, hc]
  cases hph : (s'.clients i).phase <;> simp only [hph, hp]

/-- What a call becomes fits its client. -/
theorem fit_after {cfg : Sys.Cfg} {s s' : Sys.State} {j : Job} {as : List Sys.Act} (ha : j.acts s = some as)
    (hs : sysSteps cfg s as = some s') (hk : Kind j) (hl : j.live = true)
    (hlt : ∀ i, j.client = some i → i < s.nClients)
    (hf : ∀ i, j.uses i = true → Fit s i j.prog) {i : Nat} (hu : (j.after s s').uses i = true) : Fit s' i (j.after s s').prog := by
  have un := acts_unended ha
  cases doing ha with
  | alloc k hp ha =>
    subst ha
    have hcl : (j.after s s').client = some s.nClients := by unfold Job.after; rw [hp]
    have hpr : (j.after s s').prog = k (UInt64.ofNat s.nClients) := by unfold Job.after; rw [hp]
    have hii : i = s.nClients := by
      have := (uses_iff.mp hu).2.2
      rw [hcl] at this
      exact (Option.some.inj this).symm
    subst hii
    have hph : (s'.clients s.nClients).phase = .fresh := by
      simp only [sysSteps, Sys.step, Sys.newClient] at hs
      split at hs
      · rename_i hx
        split at hx
        · cases hx; cases hs; simp [Sys.State.setClient]
        · cases hx
      · cases hs
    have stage : ∀ {name topic : String} {q : Prog Unit}, Stage name topic q j → Fit s' s.nClients (k (UInt64.ofNat s.nClients)) := by
      intro name topic q hst
      cases hst with
      | new _ hp' =>
        rw [hp] at hp'
        simp only [setup, Setup.newId.injEq] at hp'
        subst hp'
        exact .inl hph
      | registering _ _ _ hp' => rw [hp] at hp'; cases hp'
      | refused _ _ hp' => rw [hp] at hp'; cases hp'
      | calls _ _ _ hp' => cases hp' with
        | running _ hp' => rw [hp] at hp'; cases hp'
        | over _ hp' => rw [hp] at hp'; cases hp'
    rw [hpr]
    cases hk with
    | missing hp' => rw [hp] at hp'; cases hp'
    | consumer b name topic subscription hb hm hn hs => exact stage hs
    | producer b name topic hb hm hn hs => exact stage hs
    | call _ _ _ _ _ _ hp' => cases hp' with
      | running _ hp' => rw [hp] at hp'; cases hp'
      | over _ hp' => rw [hp] at hp'; cases hp'
  | send topic id k i' hp hc _ ha | recv topic id k i' hp hc _ ha =>
    have hreg : ∃ name p, k = registered name p id := by
      have stage : ∀ {name topic : String} {q : Prog Unit}, Stage name topic q j → ∃ name p, k = registered name p id := by
        intro name topic q hst
        cases hst with
        | new _ hp' => rw [hp] at hp'; cases hp'
        | registering _ _ _ hp' => rw [hp] at hp'; cases hp'; exact ⟨_, _, rfl⟩
        | refused _ _ hp' => rw [hp] at hp'; cases hp'
        | calls _ _ _ hp' => cases hp' with
          | running _ hp' => rw [hp] at hp'; cases hp'
          | over _ hp' => rw [hp] at hp'; cases hp'
      cases hk with
      | missing hp' => rw [hp] at hp'; cases hp'
      | consumer b name topic subscription hb hm hn hs => exact stage hs
      | producer b name topic hb hm hn hs => exact stage hs
      | call _ _ _ _ _ _ hp' => cases hp' with
        | running _ hp' => rw [hp] at hp'; cases hp'
        | over _ hp' => rw [hp] at hp'; cases hp'
    obtain ⟨name, q, rfl⟩ := hreg
    have hii : i = i' := by
      rcases uses_after hu with h1 | ⟨k, h1, _⟩
      · have := (uses_iff.mp h1).2.2
        rw [hc] at this
        exact (Option.some.inj this).symm
      · rw [hp] at h1; cases h1
    subst hii
    rw [after_reg hp hc]
    cases hph : (s'.clients i).phase with
    | ready => exact hph
    | gone => trivial
    | fresh => exact .inl hph
    | waiting => exact .inr hph
  | begin core c k k' i' hp hc hg ha =>
    subst ha
    have hu' : j.uses i' = true := uses_iff.mpr ⟨hl, un, hc⟩
    have h1 := hf i' hu'
    rw [after_begin hp hc hg] at hu ⊢
    have hii : i' = i := by
      have := (uses_iff.mp hu).2.2
      simp only [hc, Option.some.injEq] at this
      exact this
    subst hii
    refine fit_eq (phase_steps (hlt _ hc) hs ?_) h1
    simp [Sys.Act.moves]
  | put core c k k' i' tok hp hc hg ha =>
    subst ha
    have hu' : j.uses i' = true := uses_iff.mpr ⟨hl, un, hc⟩
    have h1 := hf i' hu'
    rw [after_put hp hc hg] at hu ⊢
    have hii : i' = i := by
      have := (uses_iff.mp hu).2.2
      simp only [hc, Option.some.injEq] at this
      exact this
    subst hii
    rw [hp] at h1
    have := phase_steps (hlt _ hc) hs (by simp [Sys.Act.moves])
    show (s'.clients i').phase = .ready
    rw [this]; exact h1
  | wait core t c k k' i' hp hc ho ha =>
    subst ha
    cases hs
    have hu' : j.uses i' = true := uses_iff.mpr ⟨hl, un, hc⟩
    have h1 := hf i' hu'
    have hii : i = i' := by
      rcases uses_after hu with h1 | ⟨k, h1, _⟩
      · have := (uses_iff.mp h1).2.2
        rw [hc] at this
        exact (Option.some.inj this).symm
      · rw [hp] at h1; cases h1
    subst hii
    rw [hp] at h1
    obtain ⟨x, hx⟩ := Option.isSome_iff_exists.mp ho
    unfold Job.after
    rw [hp, hc]
    simp only [hx]
    exact h1
  | over core o k' i' hp hc ha =>
    obtain ⟨rfl, _⟩ := kind_ret hk hp
    have hpr : (j.after s s').prog = .ret o := by unfold Job.after; rw [hp, hc]
    rw [hpr]; trivial

/-- Which clients the step of a call moves: its own, if it is a `connect`. -/
theorem acts_moves {s : Sys.State} {j : Job} {as : List Sys.Act} (ha : j.acts s = some as)
    (ho : ∀ topic id k, j.prog = .register topic id k → j.owns = true) {x : Sys.Act} (hx : x ∈ as) {i : Nat} (hm : x.moves i) :
    j.owns = true ∧ j.client = some i := by
  cases doing ha with
  | send topic id k i' hp hc _ ha | recv topic id k i' hp hc _ ha =>
    subst ha
    simp only [List.mem_singleton] at hx
    subst hx
    cases hm
    exact ⟨ho _ _ _ hp, hc⟩
  | over core o k' i' hp hc ha =>
    rcases ha with rfl | ⟨h1, rfl⟩
    · cases hx
    · simp only [List.mem_singleton] at hx
      subst hx
      cases hm
      exact ⟨h1, hc⟩
  | alloc | begin | put | wait => simp_all [Sys.Act.moves]

theorem acts_keep {s : Sys.State} {j : Job} {as : List Sys.Act} (ha : j.acts s = some as) : Sys.Act.dropManager ∉ as := by
  cases doing ha with
  | over core o k' i' hp hc ha => rcases ha with rfl | ⟨h1, rfl⟩ <;> simp
  | _ => simp_all

theorem after_client {s s' : Sys.State} {j : Job} {i : Nat} (h : (j.after s s').client = some i) :
    j.client = some i ∨ i = s.nClients := by
  unfold Job.after at h
  split at h <;> (try split at h) <;> first | exact .inl h | skip
  exact .inr (Option.some.inj h).symm

theorem lookup_run {a : State T} {jobs : List Job} {k : Nat} {jk : Job} {f : Job → Job} (hj : jobs = a.jobs.modify k f)
    (hk : a.jobs[k]? = some jk) {n : Nat} {j : Job} (hn : jobs[n]? = some j) : (n ≠ k ∧ a.jobs[n]? = some j) ∨ (n = k ∧ j = f jk) := by
  rw [hj, List.getElem?_modify] at hn
  cases hx : a.jobs[n]? with
  | none => simp [hx] at hn
  | some j0 =>
    simp only [hx, Option.map_eq_map, Option.map_some, Option.some.injEq] at hn
    split at hn
    · rename_i he
      subst he
      rw [hk] at hx
      cases hx
      exact .inr ⟨rfl, hn.symm⟩
    · rename_i he
      exact .inl ⟨fun h => he h.symm, by rw [hn]⟩

theorem live_of {cfg : World.Cfg T} {acts : List Act} {log : List World.Act} {a : State T} (h : Run cfg acts log a) : Live a := by
  induction h with
  | nil => exact ⟨fun i tok hi => by simp [init, World.init, Sys.init] at hi, fun j hj => by simp [init] at hj,
      fun j hj => by simp [init] at hj, fun j hj => by simp [init] at hj⟩
  | @snoc as log a a' x h hs ih =>
    obtain ⟨hp, hw, hj⟩ := step_some hs
    have hown := own_of h
    cases x with
    | world x =>
      simp only [jobsAfter] at hj
      simp only [possible] at hp
      simp only [induced, worldSteps] at hw
      cases hx : World.step cfg a.world x with
      | none => rw [hx] at hw; cases hw
      | some w =>
        rw [hx] at hw
        simp only [Option.some.injEq] at hw
        rw [hw] at hx
        have hnc := nClients_same hx (by rintro name rfl; simp [free] at hp)
        refine ⟨fun i tok hi => ?_, fun j hm ho hl hu => ?_, fun j hm i hu => ?_, fun j hm => ?_⟩
        · rw [hnc] at hi
          rw [hj, ← ih.starting i tok hi, world_starting hx hi]
          rintro y rfl hon
          cases y <;> first | exact hon.elim | (simp [free] at hp)
        · rw [hj] at hm
          rw [world_manager hx, ih.manager j hm ho hl hu]
          rintro rfl
          simp only [free, List.all_eq_true, Bool.not_eq_true'] at hp
          have := hp j hm
          rw [ho, hl, hu] at this
          simp at this
        · rw [hj] at hm
          refine fit_eq (world_phase hx (lt_of_uses h hm hu) ?_) (ih.phase j hm i hu)
          rintro y rfl hon
          cases y <;> first | exact hon.elim | (simp [free] at hp; done) | skip
          cases hon
          simp only [free, List.all_eq_true, Bool.not_eq_true'] at hp
          rw [hp j hm] at hu
          cases hu
        · rw [hj] at hm; exact ih.idle j hm
    | start c =>
      simp only [jobsAfter] at hj
      simp only [induced, worldSteps, Option.some.injEq] at hw
      refine ⟨fun i tok hi => ?_, fun j hm ho hl hu => ?_, fun j hm i hu => ?_, fun j hm hl => ?_⟩
      · rw [← hw] at hi
        rw [hj, List.countP_append, ← hw, ← ih.starting i tok hi]
        have : Job.puts i tok (c.job a.world.sys) = false := by cases c <;> simp [Start.job, Job.puts]
        simp [this]
      · rw [hj, List.mem_append, List.mem_singleton] at hm
        rw [← hw]
        rcases hm with hm | rfl
        · exact ih.manager j hm ho hl hu
        · cases c with
          | consumer b | producer b => exact hp
          | call i p => simp [Start.job] at ho
      · rw [hj, List.mem_append, List.mem_singleton] at hm
        rw [← hw]
        rcases hm with hm | rfl
        · exact ih.phase j hm i hu
        · have := (uses_iff.mp hu).2.2
          cases c with
          | consumer b | producer b => simp [Start.job] at this
          | call i' p =>
            simp only [Start.job, Option.some.injEq] at this
            subst this
            simp only [possible, Start.possible, Bool.and_eq_true, decide_eq_true_eq] at hp
            exact hp.1.2
      · rw [hj, List.mem_append, List.mem_singleton] at hm
        rcases hm with hm | rfl
        · exact ih.idle j hm hl
        · cases c <;> simp [Start.job] at hl
    | run k =>
      simp only [jobsAfter] at hj
      cases hk : a.jobs[k]? with
      | none => simp [possible, hk] at hp
      | some jk =>
        have hjk := List.mem_of_getElem? hk
        simp only [possible, hk, Bool.and_eq_true] at hp
        obtain ⟨acts', hacts⟩ := Option.isSome_iff_exists.mp hp.2
        simp only [induced, hk, hacts, Option.getD_some] at hw
        have hss := worldSteps_sys hw
        have hkind := kind h jk hjk
        have hseen := seen h jk hjk
        have hreg := (owner hkind (owns_made h jk hjk)).2
        have hun := acts_unended hacts
        have lookup := fun n j hn => lookup_run (n := n) (j := j) hj hk hn
        refine ⟨fun i tok hi => ?_, fun j hm ho hl hu => ?_, fun j hm i hu => ?_, fun j hm hl => ?_⟩
        · have hcount := countP_modify (fun j => j.after a.world.sys a'.world.sys) (Job.puts i tok) hk
          rw [← hj] at hcount
          by_cases hlt : i < a.world.sys.nClients
          · have h1 := starting_after hacts hss (handing_ok h jk hjk) hlt tok
            have h2 := ih.starting i tok hlt
            omega
          · have hz : ∀ j ∈ a.jobs, Job.puts i tok j = false := by
              intro j hm
              simp only [Job.puts, Bool.and_eq_false_iff, decide_eq_false_iff_not]
              left
              intro hc
              have := ((seen h j hm).client i hc).1
              omega
            have h0 : a.jobs.countP (Job.puts i tok) = 0 := by
              rw [List.countP_eq_zero]
              intro j hm; rw [hz j hm]; simp
            rw [h0, hz jk hjk] at hcount
            cases doing hacts with
            | alloc q hq ha =>
              subst ha
              obtain ⟨c0, c1, c2, c3⟩ := newClient_new hss
              have hii : i = a.world.sys.nClients := by omega
              subst hii
              rw [c2]
              have hh : (jk.after a.world.sys a'.world.sys).handing = none := by
                rw [after_handing (fun core call k k' he => by rw [hq] at he; cases he)]
                exact handing_prog (handing_ok h jk hjk) (fun core call k k' he => by rw [hq] at he; cases he)
              have : Job.puts a.world.sys.nClients tok (jk.after a.world.sys a'.world.sys) = false := by
                simp [Job.puts, hh]
              rw [this] at hcount
              simp only [List.map_nil, List.count_nil]
              simp only [Bool.false_eq_true, if_false] at hcount
              omega
            | _ =>
              have : a'.world.sys.nClients = a.world.sys.nClients := by
                refine sysSteps_mono (fun a => ∀ name, a ≠ .newClient name) (fun t => t.nClients = a.world.sys.nClients) ?_ ?_ rfl hss
                · intro s a s' h3 h4 h5
                  rw [← h3]
                  refine Nat.le_antisymm (Nat.le_of_not_lt fun hlt => ?_) (Sys.nClients_mono h5)
                  rcases Sys.client_step h5 hlt with ⟨h6, _⟩ | ⟨_, _, name, h6, _⟩
                  · omega
                  · exact h4 name h6
                · rintro y hy name rfl
                  rename_i ha
                  first
                    | (subst ha; simp at hy; done)
                    | (rcases ha with rfl | ⟨_, rfl⟩ <;> simp at hy)
              omega
        · rw [manager_steps hss (fun y hy he => acts_keep hacts (he ▸ hy))]
          obtain ⟨n, hn⟩ := List.getElem?_of_mem hm
          rcases lookup n j hn with ⟨_, hn⟩ | ⟨rfl, rfl⟩
          · exact ih.manager j (List.mem_of_getElem? hn) ho hl hu
          · rw [(after_made a.world.sys a'.world.sys jk).2.2.1] at ho
            exact ih.manager jk hjk ho hp.1 hun
        · obtain ⟨n, hn⟩ := List.getElem?_of_mem hm
          rcases lookup n j hn with ⟨hnk, hn⟩ | ⟨rfl, rfl⟩
          · refine fit_eq (phase_steps (lt_of_uses h (List.mem_of_getElem? hn) hu) hss ?_) (ih.phase j (List.mem_of_getElem? hn) i hu)
            intro y hy hmv
            obtain ⟨h1, h2⟩ := acts_moves hacts hreg hy hmv
            have := hown.alone k jk i hk h1 (uses_iff.mpr ⟨hp.1, hun, h2⟩) n j hnk hn
            rw [this] at hu; cases hu
          · exact fit_after hacts hss hkind hp.1 (fun i hc => (hseen.client i hc).1) (ih.phase jk hjk) hu
        · obtain ⟨n, hn⟩ := List.getElem?_of_mem hm
          rcases lookup n j hn with ⟨_, hn⟩ | ⟨rfl, rfl⟩
          · exact ih.idle j (List.mem_of_getElem? hn) hl
          · rw [(after_made a.world.sys a'.world.sys jk).2.2.2.1, hp.1] at hl; cases hl
    | drop k =>
      simp only [jobsAfter] at hj
      cases hk : a.jobs[k]? with
      | none => simp [possible, hk] at hp
      | some jk =>
        have hjk := List.mem_of_getElem? hk
        simp only [possible, hk, Bool.and_eq_true, Option.isNone_iff_eq_none] at hp
        simp only [induced, hk] at hw
        have hss := worldSteps_sys hw
        have lookup := fun n j hn => lookup_run (n := n) (j := j) hj hk hn
        have hnc : a'.world.sys.nClients = a.world.sys.nClients := by
          refine sysSteps_mono (fun a => ∀ name, a ≠ .newClient name) (fun t => t.nClients = a.world.sys.nClients) ?_ ?_ rfl hss
          · intro s a s' h3 h4 h5
            rw [← h3]
            refine Nat.le_antisymm (Nat.le_of_not_lt fun hlt => ?_) (Sys.nClients_mono h5)
            rcases Sys.client_step h5 hlt with ⟨h6, _⟩ | ⟨_, _, name, h6, _⟩
            · omega
            · exact h4 name h6
          · rintro y hy name rfl
            rcases dropActs_cases (s := a.world.sys) (j := jk) with h1 | ⟨i, _, _, ⟨h1, _⟩ | ⟨h1, _⟩⟩ <;> simp [h1] at hy
        refine ⟨fun i tok hi => ?_, fun j hm ho hl hu => ?_, fun j hm i hu => ?_, fun j hm hl => ?_⟩
        · rw [hnc] at hi
          have hcount := countP_modify (fun j => { j with live := false }) (Job.puts i tok) hk
          rw [← hj] at hcount
          have h1 := ih.starting i tok hi
          rw [(Sys.same_steps hss hi (fun y hy => dropActs_on hy)).starting, h1]
          have : Job.puts i tok { jk with live := false } = Job.puts i tok jk := rfl
          rw [this] at hcount
          omega
        · rw [manager_steps hss ?_]
          · obtain ⟨n, hn⟩ := List.getElem?_of_mem hm
            rcases lookup n j hn with ⟨_, hn⟩ | ⟨rfl, rfl⟩
            · exact ih.manager j (List.mem_of_getElem? hn) ho hl hu
            · cases hl
          · rintro y hy rfl
            rcases dropActs_cases (s := a.world.sys) (j := jk) with h1 | ⟨i, _, _, ⟨h1, _⟩ | ⟨h1, _⟩⟩ <;> simp [h1] at hy
        · obtain ⟨n, hn⟩ := List.getElem?_of_mem hm
          rcases lookup n j hn with ⟨hnk, hn⟩ | ⟨rfl, rfl⟩
          · refine fit_eq (phase_steps (lt_of_uses h (List.mem_of_getElem? hn) hu) hss ?_) (ih.phase j (List.mem_of_getElem? hn) i hu)
            intro y hy hmv
            have : jk.owns = true ∧ jk.client = some i := by
              rcases dropActs_cases (s := a.world.sys) (j := jk) with h1 | ⟨i', h2, h3, ⟨h1, _⟩ | ⟨h1, _⟩⟩
              · rw [h1] at hy; cases hy
              all_goals
                rw [h1, List.mem_singleton] at hy
                subst hy
                cases hmv
                exact ⟨h3, h2⟩
            have := hown.alone k jk i hk this.1 (uses_iff.mpr ⟨hp.1.1, hp.1.2, this.2⟩) n j hnk hn
            rw [this] at hu; cases hu
          · simp [Job.uses] at hu
        · obtain ⟨n, hn⟩ := List.getElem?_of_mem hm
          rcases lookup n j hn with ⟨_, hn⟩ | ⟨rfl, rfl⟩
          · exact ih.idle j (List.mem_of_getElem? hn) hl
          · exact hp.2

end App
end Neutron
