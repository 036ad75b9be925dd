import Verif.Proof.WorldHeld

/-!
# While the engine authenticates or dials for one client
-/

namespace Neutron.Sys

/-- What steps that are not the engine's leave as it is: what is passed on to the brokers, what is delivered to the clients, who is
registered, which calls are answered.  The clients' commands queue up. -/
structure Unserved (s s' : Sys.State) : Prop where
  mode : s'.mode = s.mode
  vec : s'.vec = s.vec
  addrs : s'.addrs = s.addrs
  sent : s'.sent = s.sent
  dispatches : s'.dispatches = s.dispatches
  resolver : s'.resolver = s.resolver
  outcomes : s'.outcomes = s.outcomes
  clients : ∀ i, i < s.nClients → (s.clients i).queue <+: (s'.clients i).queue ∧ (s'.clients i).handled = (s.clients i).handled ∧
    (s'.clients i).taken ++ (s'.clients i).inbox = (s.clients i).taken ++ (s.clients i).inbox
  count : s.nClients ≤ s'.nClients

theorem Unserved.refl (s : Sys.State) : Unserved s s := ⟨rfl, rfl, rfl, rfl, rfl, rfl, rfl, fun _ _ => ⟨List.prefix_rfl, rfl, rfl⟩, Nat.le_refl _⟩

theorem Unserved.trans {s s' s'' : Sys.State} (h : Unserved s s') (h' : Unserved s' s'') : Unserved s s'' :=
  ⟨h'.mode.trans h.mode, h'.vec.trans h.vec, h'.addrs.trans h.addrs, h'.sent.trans h.sent, h'.dispatches.trans h.dispatches,
    h'.resolver.trans h.resolver, h'.outcomes.trans h.outcomes, fun i hi =>
      have k := h.clients i hi
      have k' := h'.clients i (Nat.lt_of_lt_of_le hi h.count)
      ⟨k.1.trans k'.1, k'.2.1.trans k.2.1, k'.2.2.trans k.2.2⟩, Nat.le_trans h.count h'.count⟩

theorem idle_step {cfg : Cfg} {s s' : State} {a : Act} (hs : step cfg s a = some s') (ha : World.engine a = false)
    (hm : s.mode ≠ .stopped) : Unserved s s' := by
  have same : ∀ j, (s.clients j).queue <+: (s.clients j).queue ∧ (s.clients j).handled = (s.clients j).handled ∧
      (s.clients j).taken ++ (s.clients j).inbox = (s.clients j).taken ++ (s.clients j).inbox :=
    fun j => ⟨List.prefix_rfl, rfl, rfl⟩
  have live : ∀ i, engineEnd s i = true := by
    intro i
    unfold engineEnd
    split
    · rename_i h; exact absurd h hm
    · rfl
  cases step_cases hs with
  | startOk | startFail | outGone | out | inLost | inb | reg | regFail | regClosedStop | regClosed | noConn | connectOk | connectLost => cases ha
  | cmdEnd => exact ⟨rfl, rfl, rfl, rfl, rfl, rfl, rfl, fun j _ => same j, Nat.le_refl _⟩
  | cmdOk b c q =>
    refine ⟨by simp [State.setConn], by simp [State.setConn], by simp [State.setConn], by simp [State.setConn], by simp [State.setConn],
      by simp [State.setConn], by simp [State.setConn], fun j _ => ?_, by simp [State.setConn]⟩
    simpa [State.setConn] using same j
  | cmdFail b c q =>
    refine ⟨by simp [State.setConn], by simp [State.setConn], by simp [State.setConn], by simp [State.setConn], by simp [State.setConn],
      by simp [State.setConn], by simp [State.setConn], fun j _ => ?_, by simp [State.setConn]⟩
    simpa [State.setConn] using same j
  | cmdPanic b c q =>
    refine ⟨by simp [State.setConn], by simp [State.setConn], by simp [State.setConn], by simp [State.setConn], by simp [State.setConn],
      by simp [State.setConn], by simp [State.setConn], fun j _ => ?_, by simp [State.setConn]⟩
    simpa [State.setConn] using same j
  | readEnd => exact ⟨rfl, rfl, rfl, rfl, rfl, rfl, rfl, fun j _ => same j, Nat.le_refl _⟩
  | readSkip => exact ⟨rfl, rfl, rfl, rfl, rfl, rfl, rfl, fun j _ => same j, Nat.le_refl _⟩
  | readConnected => exact ⟨rfl, rfl, rfl, rfl, rfl, rfl, rfl, fun j _ => same j, Nat.le_refl _⟩
  | readForward => exact ⟨rfl, rfl, rfl, rfl, rfl, rfl, rfl, fun j _ => same j, Nat.le_refl _⟩
  | newClient name =>
    refine ⟨rfl, rfl, rfl, rfl, rfl, rfl, rfl, fun j hj => ?_, Nat.le_succ _⟩
    simp only [State.setClient]
    rw [if_neg (Nat.ne_of_lt hj)]
    exact same j
  | sendRegFail i | sendReg i | recvReply i | recvReplyFail i | cancelReg i | oneway i | dropClient i | request i =>
    refine ⟨rfl, rfl, rfl, rfl, rfl, rfl, rfl, fun j _ => ?_, Nat.le_refl _⟩
    simp only [State.setClient]
    split
    · rename_i hj; subst hj; exact ⟨List.prefix_rfl, rfl, rfl⟩
    · exact same j
  | clientNext i =>
    refine ⟨rfl, rfl, rfl, rfl, rfl, rfl, rfl, fun j _ => ?_, Nat.le_refl _⟩
    simp only [State.setClient]
    split
    · rename_i hj; subst hj; exact ⟨List.prefix_rfl, rfl, by simp [*]⟩
    · exact same j
  | submit i k cmd hi hk he =>
    refine ⟨rfl, rfl, rfl, rfl, rfl, rfl, rfl, fun j _ => ?_, Nat.le_refl _⟩
    simp only [State.setClient]
    split
    · rename_i hj; subst hj; exact ⟨List.prefix_append _ _, rfl, rfl⟩
    · exact same j
  | refuse i k cmd hi hk he => rw [live] at he; cases he
  | freeQueue i hi hp he => rw [live] at he; cases he
  | dropManager => exact ⟨rfl, rfl, rfl, rfl, rfl, rfl, rfl, fun j _ => same j, Nat.le_refl _⟩

end Neutron.Sys

namespace Neutron.World

open Neutron

variable {T : Type}

theorem idle_steps {cfg : Sys.Cfg} : ∀ (as : List Sys.Act) {s s' : Sys.State}, sysSteps cfg s as = some s' →
    (∀ a ∈ as, engine a = false) → s.mode ≠ .stopped → Sys.Unserved s s' := by
  intro as
  induction as with
  | nil => intro s s' hs _ _; cases hs; exact .refl _
  | cons a as ih =>
    intro s s' hs ha hm
    simp only [sysSteps] at hs
    cases h1 : Sys.step cfg s a with
    | none => rw [h1] at hs; cases hs
    | some t =>
      rw [h1] at hs
      have k := Sys.idle_step h1 (ha a (by simp)) hm
      exact k.trans (ih hs (fun x hx => ha x (List.mem_cons_of_mem _ hx)) (by rw [k.mode]; exact hm))

theorem induced_no_engine (cfg : Cfg T) (w : World T) (a : Consumer.Act) : ∀ x ∈ induced cfg w a, engine x = false := by
  intro x hx
  unfold induced at hx
  cases a with
  | run i =>
    simp only at hx
    split at hx
    · split at hx
      · cases hx
      · rw [List.mem_singleton] at hx; subst hx; rfl
    · simp only [List.mem_cons, List.not_mem_nil, or_false] at hx
      rcases hx with rfl | rfl <;> rfl
    · cases hx
  | refuse i =>
    simp only at hx
    split at hx
    · simp only [List.mem_cons, List.not_mem_nil, or_false] at hx
      rcases hx with rfl | rfl <;> rfl
    · cases hx
  | _ => cases hx

/-- The engine finishes what it is doing for client `i`. -/
def Act.finishes (i : Nat) : Act → Bool
  | .sys (.engOut j _ _) => decide (j = i)
  | _ => false

/-- While the engine is busy with one client, no other step is the engine's. -/
theorem serving_step {cfg : Cfg T} {w w' : World T} {a : Act} {i : Nat} (hs : step cfg w a = some w') (hf : a.finishes i = false)
    (hv : w.serving = some i) (hm : w.sys.mode ≠ .stopped) :
    w'.serving = some i ∧ Sys.Unserved w.sys w'.sys ∧ ∀ x, a = .sys x → engine x = false := by
  have one : ∀ (x : Sys.Act) s', Sys.step cfg.sys w.sys x = some s' → sysSteps cfg.sys w.sys [x] = some s' := by
    intro x s' h; simp [sysSteps, h]
  cases a with
  | arrive b r =>
    simp only [step] at hs
    split at hs
    · cases hs; exact ⟨hv, .refl _, by simp⟩
    · cases hs
  | poll b ans =>
    simp only [step] at hs
    split at hs
    · split at hs
      · rename_i s' h1
        cases hs
        refine ⟨hv, idle_steps _ h1 (fun x hx => ?_) hm, by simp⟩
        obtain ⟨y, _, rfl⟩ := List.mem_map.mp hx
        rfl
      · cases hs
    · cases hs
  | write b now io =>
    simp only [step] at hs
    split at hs
    · split at hs
      · split at hs
        · rename_i s' h1
          cases hs
          refine ⟨hv, idle_steps _ (one _ _ h1) (fun x hx => ?_) hm, by simp⟩
          rw [List.mem_singleton] at hx; subst hx; rfl
        · cases hs
      · split at hs
        · split at hs
          · rename_i s' h1
            cases hs
            refine ⟨hv, idle_steps _ (one _ _ h1) (fun x hx => ?_) hm, by simp⟩
            rw [List.mem_singleton] at hx; subst hx; rfl
          · cases hs
        · cases hs
    · cases hs
  | hold b =>
    simp only [step] at hs
    split at hs
    · cases hs; exact ⟨hv, .refl _, by simp⟩
    · cases hs
  | serve j =>
    simp only [step] at hs
    split at hs
    · rename_i hc; rw [hv] at hc; cases hc.1
    · cases hs
  | sys x =>
    have he : free cfg w x = true → engine x = false := by
      intro hfr
      cases x <;> first | rfl | skip
      all_goals simp [free, turn, hv, engine] at hfr
      rename_i j _ _
      rw [hfr] at hf; simp [Act.finishes] at hf
    simp only [step] at hs
    split at hs
    · rename_i hfr
      split at hs
      · rename_i s' h1
        cases hs
        refine ⟨?_, idle_steps _ (one _ _ h1) (fun y hy => ?_) hm, fun y hy => ?_⟩
        · simp [sync, he hfr, hv]
        · rw [List.mem_singleton] at hy; subst hy; exact he hfr
        · cases hy; exact he hfr
      · cases hs
    · cases hs
  | app x =>
    simp only [step] at hs
    split at hs
    · split at hs
      · split at hs
        · rename_i s' h1
          cases hs
          exact ⟨hv, idle_steps _ h1 (induced_no_engine cfg w x) hm, by simp⟩
        · cases hs
      · cases hs
    · cases hs

theorem connects_prefix {q q' : List Sys.ClientCmd} (h : q <+: q') (hc : connects q = true) : connects q' = true := by
  obtain ⟨r, rfl⟩ := h
  cases q with
  | nil => cases hc
  | cons c q =>
    obtain ⟨o, t⟩ := c
    cases o <;> first | rfl | cases hc

/-- While the engine is busy with a client, it waits for nothing else: it has taken a `Connect` of a registered client. -/
theorem serving {cfg : Cfg T} {acts : List Act} {w : World T} (h : Run cfg acts w) {i : Nat} (hv : w.serving = some i) :
    w.sys.mode = .idle ∧ i ∈ w.sys.vec ∧ w.sys.addrs ≠ [] ∧ connects (w.sys.clients i).queue = true := by
  induction h generalizing i with
  | nil => cases hv
  | @snoc as w w' a h hs ih =>
    obtain ⟨log, appLog, hp⟩ := proj h
    have hr : Sys.Reachable cfg.sys w.sys := ⟨_, hp.sys⟩
    cases h0 : w.serving with
    | none =>
      have quiet : ∀ {x : Prop}, w'.serving = none → x := fun hn => by rw [hn] at hv; cases hv
      cases a with
      | serve j =>
        simp only [step] at hs
        split at hs
        · rename_i hc
          cases hs
          cases hv
          exact hc.2
        · cases hs
      | arrive b r =>
        simp only [step] at hs
        split at hs
        · cases hs; exact quiet h0
        · cases hs
      | hold b =>
        simp only [step] at hs
        split at hs
        · cases hs; exact quiet h0
        · cases hs
      | poll b ans =>
        simp only [step] at hs
        split at hs
        · split at hs
          · cases hs; exact quiet h0
          · cases hs
        · cases hs
      | write b now io =>
        simp only [step] at hs
        split at hs
        · split at hs
          · split at hs
            · cases hs; exact quiet h0
            · cases hs
          · split at hs
            · split at hs
              · cases hs; exact quiet h0
              · cases hs
            · cases hs
        · cases hs
      | sys x =>
        simp only [step] at hs
        split at hs
        · split at hs
          · cases hs
            refine quiet ?_
            simp only [sync]
            split
            · rfl
            · exact h0
          · cases hs
        · cases hs
      | app x =>
        simp only [step] at hs
        split at hs
        · split at hs
          · split at hs
            · cases hs; exact quiet h0
            · cases hs
          · cases hs
        · cases hs
    | some j =>
      cases hf : a.finishes j with
      | false =>
        obtain ⟨k1, k2, k3, k4⟩ := ih h0
        obtain ⟨m1, m2, _⟩ := serving_step hs hf h0 (by rw [k1]; intro h; cases h)
        obtain rfl : j = i := by rw [m1] at hv; exact Option.some.inj hv
        have hlt : j < w.sys.nClients := ((Sys.wf hr).vecLt j k2)
        exact ⟨m2.mode.trans k1, by rw [m2.vec]; exact k2, by rw [m2.addrs]; exact k3, connects_prefix (m2.clients j hlt).1 k4⟩
      | true =>
        cases a with
        | sys x =>
          cases x with
          | engOut k auth net =>
            simp only [step] at hs
            split at hs
            · split at hs
              · cases hs
                cases hv
              · cases hs
            · cases hs
          | _ => cases hf
        | _ => cases hf

end Neutron.World
