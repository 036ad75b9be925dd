import Verif.Props.Forever
import Verif.Props.Progress

/-!
# Infinite executions, concretely: C143
-/

namespace Neutron.Props

open Neutron Neutron.Sys Neutron.Trace

/-- One action per round. -/
theorem forever_single {cfg : Cfg} {σ : Nat → State} {acts : Nat → Act} (h1 : Reachable cfg (σ 0))
    (h2 : ∀ n, step cfg (σ n) (acts n) = some (σ (n + 1))) (h3 : ∀ n, FirstReady (σ n) (acts n)) : Forever cfg σ fun n => [acts n] :=
  ⟨h1, fun n => .snoc (as := []) .nil (h3 n) (h2 n)⟩

/-- C143: that the clients registered before it fall silent is needed.  In the execution of C41 the engine keeps looping and serves
clients again and again, yet the command of client 1 stays in its channel forever. -/
theorem C143_silence_needed : ∃ (σ : Nat → State) (acts : Nat → List Act) (cmd : ClientCmd), Forever cfg0 σ acts ∧ KeepsLooping σ ∧
    Fair cfg0 σ acts Act.servesSomeone ∧ ∀ n, 1 ∈ (σ n).vec ∧ ((σ n).clients 1).queue.head? = some cmd := by
  obtain ⟨σ, acts, cmd, h1, h2, h3, h4⟩ := C41_refuted
  refine ⟨σ, fun n => [acts n], cmd, forever_single h1 (fun n => (h2 n).1) (fun n => (h2 n).2), fun n => ⟨n, Nat.le_refl _, (h4 n).2.1⟩, fun _ n => ?_, fun n => ⟨by rw [(h4 n).1.1]; simp, (h4 n).2.2⟩⟩
  exact ⟨3 * n + 2, by omega, _, List.mem_singleton.mpr (h3 n).symm, rfl⟩

/-- An execution that ends in a state with a step that changes nothing goes on forever. -/
theorem stutter {cfg : Cfg} {s s' : State} {as : List Act} {loop : Act} (hr : Reachable cfg s) (he : exec cfg s as = some s')
    (hl : step cfg s' loop = some s') (hlo : FirstReady s' loop)
    (ho : ∀ n a t, as[n]? = some a → exec cfg s (as.take n) = some t → FirstReady t a) :
    ∃ (σ : Nat → State) (acts : Nat → Act), (Reachable cfg (σ 0) ∧ (∀ n, step cfg (σ n) (acts n) = some (σ (n + 1))) ∧ ∀ n, FirstReady (σ n) (acts n)) ∧ σ 0 = s ∧ (∀ n, as.length ≤ n → σ n = s') ∧ (∀ n, exec cfg s (as.take n) = some (σ n)) ∧
      ∀ n, acts n = as[n]?.getD loop := by
  have hpre : ∀ n, ∃ t, exec cfg s (as.take n) = some t := by
    intro n
    have := he
    rw [← List.take_append_drop n as, exec_append] at this
    cases hh : exec cfg s (as.take n) with
    | none => rw [hh] at this; cases this
    | some t => exact ⟨t, rfl⟩
  refine ⟨fun n => (exec cfg s (as.take n)).getD s', fun n => as[n]?.getD loop, ⟨?_, ?_, ?_⟩, rfl, ?_, ?_, fun _ => rfl⟩
  · exact hr
  · intro n
    by_cases hn : n < as.length
    · obtain ⟨t, ht⟩ := hpre n
      obtain ⟨u, hu⟩ := hpre (n + 1)
      have e : as.take (n + 1) = as.take n ++ [as[n]] := by simp
      have hu' := hu
      rw [e, exec_append, ht] at hu'
      simp only [List.getElem?_eq_getElem hn, Option.getD_some, ht, hu]
      simp only [Option.bind_some, exec] at hu'
      cases hst : step cfg t as[n] with
      | none => rw [hst] at hu'; cases hu'
      | some x => rw [hst] at hu'; cases hu'; rfl
    · have e1 : as.take n = as := List.take_of_length_le (by omega)
      have e2 : as.take (n + 1) = as := List.take_of_length_le (by omega)
      simp only [List.getElem?_eq_none (by omega : as.length ≤ n), Option.getD_none, e1, e2, he, Option.getD_some]
      exact hl
  · intro n
    by_cases hn : n < as.length
    · obtain ⟨t, ht⟩ := hpre n
      simp only [List.getElem?_eq_getElem hn, Option.getD_some, ht]
      exact ho n _ t (List.getElem?_eq_getElem hn) ht
    · have e1 : as.take n = as := List.take_of_length_le (by omega)
      simp only [List.getElem?_eq_none (by omega : as.length ≤ n), Option.getD_none, e1, he, Option.getD_some]
      exact hlo
  · intro n hn
    simp only [List.take_of_length_le hn, he, Option.getD_some]
  · intro n
    obtain ⟨t, ht⟩ := hpre n
    simp [ht]

/-- What is eventually never possible is not neglected. -/
theorem fair_of_never {cfg : Cfg} {σ : Nat → State} {acts : Nat → List Act} {p : Act → Bool} (N : Nat) (h : ∀ n, N ≤ n → ¬ Enabled cfg (σ n) p) :
    Fair cfg σ acts p := fun hh => by
  obtain ⟨m, hm, he⟩ := hh N
  exact absurd he (h m hm)

/-- Two clients; client 1 has asked for a lookup, and a ping and a message for client 1 have been read. -/
abbrev foreverStart : List Act := boot ++ join 0 ++ join 1 ++ [.beginCall 1 (.lookupTopic "t"), .submit 1 0,
  .connRead b0 (.command pingCommand none), .connRead b0 (.command (messageC 1 [5]) none)]

/-- Everything is served, and the broker answers. -/
abbrev foreverTail : List Act := [.engOut 1 (.ok []) net0, .engIn b0, .engIn b0, .connCmd b0 .ok, .connCmd b0 .ok,
  .connRead b0 (.command (lookupC 0 "pulsar://a:6650" 1 false) (some 0)), .engIn b0]

/-- Client 1 is attached to `b0`. -/
def attachedB (s : State) : Bool :=
  decide (1 ∈ s.vec ∧ (s.clients 1).broker = b0 ∧ (s.clients 1).phase ≠ .gone ∧ s.mode ≠ .stopped)

/-- What kind of command was written. -/
def writtenKinds (s : State) : List Nat := (s.conns b0).written.map fun c => match c.out with
  | .lookupTopic _ => 1
  | .pong => 2
  | _ => 0

theorem forever_states : ∀ n, n ≤ 7 → (go (foreverStart ++ foreverTail.take n)).map (fun s => (attachedB s, s.nClients)) = some (true, 2) := by
  intro n hn
  match n, hn with
  | 0, _ => rfl
  | 1, _ => rfl
  | 2, _ => rfl
  | 3, _ => rfl
  | 4, _ => rfl
  | 5, _ => rfl
  | 6, _ => rfl
  | 7, _ => rfl
  | n + 8, h => omega

/-- A lookup response answers a lookup only. -/
theorem kind_lookup {c : ConnCmd} {l : List ConnCmd} (h : (l ++ [c]).map (fun c => match c.out with
  | .lookupTopic _ => 1
  | .pong => 2
  | _ => 0) = [1]) (x : LookupTopicResponse) : Answers c.out (.lookupTopicResponse x) := by
  have hl : l = [] := by
    have := congrArg List.length h
    simp at this
    exact this
  subst hl
  simp only [List.nil_append, List.map_cons, List.map_nil, List.cons.injEq, and_true] at h
  cases ho : c.out <;> rw [ho] at h <;> first | (cases h; done) | exact trivial

theorem kind_pong {c : ConnCmd} {l : List ConnCmd} (h : (l ++ [c]).map (fun c => match c.out with
  | .lookupTopic _ => 1
  | .pong => 2
  | _ => 0) = [1, 2]) : ¬ ∃ x, Answers c.out x := by
  rw [List.map_append] at h
  have h2 := congrArg List.getLast? h
  simp at h2
  cases ho : c.out <;> rw [ho] at h2 <;> first | (cases h2; done) | (rintro ⟨x, hx⟩; cases x <;> exact hx)

/-- An infinite execution that meets all the hypotheses. -/
theorem forever_run : ∃ (σ : Nat → State) (acts : Nat → List Act) (cmd : ClientCmd), Forever cfg0 σ acts ∧ KeepsLooping σ ∧
    (∀ n, (σ n).nClients ≤ 2 ^ 64) ∧ Fair cfg0 σ acts Act.servesSomeone ∧ Fair cfg0 σ acts (Act.servesClient 1) ∧
    (∀ b, Fair cfg0 σ acts (Act.servesWrites b)) ∧ (∀ b, Fair cfg0 σ acts (Act.servesReads b)) ∧ (∀ b, Works σ acts b) ∧
    (∀ b, BrokerAnswers σ acts b) ∧ (σ 0).vec = [0] ++ 1 :: [] ∧ FallsSilent acts 0 ∧
    (AgainAndAgain fun m => (σ m).mode = .idle ∧ ∀ j, j ∈ [0] → ((σ m).clients j).queue = [] ∧ ((σ m).clients j).phase ≠ .gone) ∧
    ((σ 0).clients 1).queue = [cmd] ∧ cmd.tok = some 0 ∧ ¬ Done (σ 0) 0 ∧ (∀ m, 0 ≤ m → Path cfg0 (Attached 1 b0) (σ m) (acts m) (σ (m + 1))) ∧
    (underway (σ 0) 1 b0).length = 1 ∧ (received (σ 0) 1).length = 0 ∧ pingCount ((σ 0).conns b0).outbox = 1 ∧
    pongCount ((σ 0).conns b0).written = 0 ∧ ((σ 1).conns b0).queue.length = 1 := by
  have hobs : (go foreverStart).map (fun s => ((s.vec, (s.clients 0).queue, (s.clients 0).phase, (s.clients 1).queue.map (·.tok), s.outcomes.length),
      (underway s 1 b0).length, (received s 1).length, pingCount (s.conns b0).outbox, pongCount (s.conns b0).written,
      (exec cfg0 s foreverTail).map fun s' => ((s'.mode, s'.vec, s'.addrs, (s'.conns b0).alive, (s'.clients 0).queue, (s'.clients 1).queue),
        ((s'.clients 0).phase, (s'.clients 1).phase, (s'.conns b0).queue, (s'.conns b0).outbox.length)))) =
    some (([0, 1], [], .ready, [some 0], 0), 1, 0, 1, 0, some ((.idle, [0, 1], [b0], true, [], []), (.ready, .ready, [], 0))) := rfl
  rw [Option.map_eq_some_iff] at hobs
  obtain ⟨s, hgo, hs⟩ := hobs
  simp only [Prod.mk.injEq, Option.map_eq_some_iff] at hs
  obtain ⟨⟨h1, h2, h3, h4, h5⟩, h6, h7, h8, h9, s', he, ⟨e1, e2, e3, e4, e5, e6⟩, e7, e8, e9, e10⟩ := hs
  have hr : Reachable cfg0 s := reachable_of_go hgo
  have e10 := List.length_eq_zero_iff.mp e10
  have hrs' : Reachable cfg0 s' := by
    obtain ⟨as, hrun⟩ := hr
    exact ⟨_, run_of_exec hrun he⟩
  obtain ⟨σ, acts, ⟨F1, F2, F3⟩, hσ0, hσN, hσe, hacts⟩ := stutter (loop := .connRead b0 .error) hr he
    (by simp [step, connRead, e4, e3]) trivial (by
      intro n a t hn ht
      match n with
      | 0 =>
        cases hn
        cases ht
        exact ⟨[0], [], h1, by intro j hj; rw [List.mem_singleton] at hj; subst hj; exact ⟨h2, by rw [h3]; simp⟩⟩
      | 1 | 2 | 3 | 4 | 5 | 6 => cases hn; trivial
      | n + 7 => cases hn)
  have hF := forever_single F1 F2 F3
  have hgoσ : ∀ n, go (foreverStart ++ foreverTail.take n) = some (σ n) := by
    intro n
    unfold go
    rw [exec_append]
    have : exec cfg0 (init cfg0) foreverStart = some s := hgo
    rw [this]
    exact hσe n
  have hstates : ∀ n, attachedB (σ n) = true ∧ (σ n).nClients = 2 := by
    have small : ∀ n, n ≤ 7 → attachedB (σ n) = true ∧ (σ n).nClients = 2 := by
      intro n hn
      have := forever_states n hn
      rw [hgoσ n] at this
      simpa using this
    intro n
    by_cases hn : n ≤ 7
    · exact small n hn
    · rw [hσN n (by simp; omega), ← hσN 7 (by simp)]
      exact small 7 (Nat.le_refl _)
  have hnotC : ∀ j, ¬ Enabled cfg0 s' (Act.servesClient j) := by
    rintro j ⟨a, t, hp, _, hst⟩
    cases a with
    | engOut k auth net =>
      simp only [step, engOut] at hst
      split at hst
      · rename_i hc
        rw [e2] at hc
        have hk : k = 0 ∨ k = 1 := by simpa using hc.2.1
        rcases hk with rfl | rfl
        · rw [e5] at hst; simp [e7] at hst
        · rw [e6] at hst; simp [e8] at hst
      · cases hst
    | _ => cases hp
  have hnotS : ¬ Enabled cfg0 s' Act.servesSomeone := by
    rintro ⟨a, t, hp, ho, hst⟩
    cases a with
    | engOut k auth net =>
      exact hnotC k ⟨_, t, by simp [Act.servesClient], ho, hst⟩
    | _ => cases hp
  have hnotW : ∀ b, ¬ Enabled cfg0 s' (Act.servesWrites b) := by
    rintro j ⟨a, t, hp, _, hst⟩
    cases a with
    | connCmd b w =>
      simp only [step, connCmd] at hst
      split at hst
      · rename_i hc
        rw [e3] at hc
        have hb : b = b0 := by simpa using hc.2
        subst hb
        rw [e9] at hst
        simp [e1] at hst
      · cases hst
    | _ => cases hp
  have hnotR : ∀ b, ¬ Enabled cfg0 s' (Act.servesReads b) := by
    rintro j ⟨a, t, hp, _, hst⟩
    cases a with
    | engIn b =>
      simp only [step, engIn] at hst
      split at hst
      · rename_i hc
        rw [e3] at hc
        have hb : b = b0 := by simpa using hc.2.1
        subst hb
        rw [e10] at hst
        simp [e4] at hst
      · cases hst
    | _ => cases hp
  have hfair : ∀ p : Act → Bool, ¬ Enabled cfg0 s' p → Fair cfg0 σ (fun n => [acts n]) p := fun p hp =>
    fair_of_never 7 fun n hn => by rw [hσN n (by simpa using hn)]; exact hp
  have hactsN : ∀ n, 7 ≤ n → acts n = .connRead b0 .error := by
    intro n hn
    rw [hacts, List.getElem?_eq_none (by simpa using hn)]
    rfl
  have hwrites : ∀ n b w, acts n = .connCmd b w → b = b0 ∧ w = .ok ∧ (n = 3 ∨ n = 4) := by
    intro n b w ha
    by_cases hn : 7 ≤ n
    · rw [hactsN n hn] at ha; cases ha
    · rw [hacts] at ha
      match n, hn with
      | 0, _ | 1, _ | 2, _ | 5, _ | 6, _ => cases ha
      | 3, _ => cases ha; exact ⟨rfl, rfl, .inl rfl⟩
      | 4, _ => cases ha; exact ⟨rfl, rfl, .inr rfl⟩
      | n + 7, hn => omega
  have halive : ∀ b, (s'.conns b).alive = true := by
    intro b
    by_cases hb : b ∈ s'.addrs
    · rw [e3] at hb
      have hb : b = b0 := by simpa using hb
      rw [hb]; exact e4
    · rw [(conn hrs').unused b hb]; rfl
  have hworks : ∀ b, Works σ (fun n => [acts n]) b := by
    intro b
    refine ⟨fun n => ?_, fun n w ha => (hwrites n b w (List.mem_singleton.mp ha).symm).2.1⟩
    have hdead : ∀ k, ((σ n).conns b).alive = false → ((σ (n + k)).conns b).alive = false := by
      intro k hd
      induction k with
      | zero => exact hd
      | succ k ih => exact World.dead_step (forever_reachable hF _) (F2 _) ih
    cases hal : ((σ n).conns b).alive with
    | true => rfl
    | false =>
      have := hdead 7 hal
      rw [hσN (n + 7) (by simp), halive] at this
      cases this
  have hk4 : writtenKinds (σ 4) = [1] := by
    have : (go (foreverStart ++ foreverTail.take 4)).map writtenKinds = some [1] := rfl
    rw [hgoσ 4] at this
    simpa using this
  have hk5 : writtenKinds (σ 5) = [1, 2] := by
    have : (go (foreverStart ++ foreverTail.take 5)).map writtenKinds = some [1, 2] := rfl
    rw [hgoσ 5] at this
    simpa using this
  have hq1 : ((σ 1).conns b0).queue.length = 1 := by
    have : (go (foreverStart ++ foreverTail.take 1)).map (fun s => (s.conns b0).queue.length) = some 1 := rfl
    rw [hgoσ 1] at this
    simpa using this
  have hanswers : ∀ b, BrokerAnswers σ (fun n => [acts n]) b := by
    intro b n d c hw hcd hx
    by_cases ha : ∀ w, acts n ≠ .connCmd b w
    · rw [(processed_step (forever_reachable hF n) (F2 n) b ha).2] at hw
      have : d = [] := by simpa using hw
      subst this
      cases hcd
    · simp only [ne_eq, Classical.not_forall, Classical.not_not] at ha
      obtain ⟨w, ha⟩ := ha
      obtain ⟨x, rfl⟩ : ∃ x, d = [x] := by
        have hs := F2 n
        obtain ⟨rfl, rfl, _⟩ := hwrites n b w ha
        rw [ha] at hs
        cases hq : ((σ n).conns b0).queue with
        | nil =>
          exfalso
          have hst := step_cases hs
          have : d = [] := by
            generalize σ (n + 1) = s2 at hst hw
            cases hst with
            | cmdEnd => simpa [endConn_conns] using hw
            | cmdOk _ c q hl hb hq' => rw [hq] at hq'; cases hq'
          subst this
          cases hcd
        | cons x q => exact ⟨x, List.append_cancel_left (hw.symm.trans (cmd_step hs hq).2)⟩
      rw [List.mem_singleton] at hcd
      subst hcd
      obtain ⟨rfl, rfl, rfl | rfl⟩ := hwrites n b w ha
      · refine ⟨5, lookupC 0 "pulsar://a:6650" 1 false, some 0, _, by omega, List.mem_singleton.mpr (by rw [hacts]; rfl), rfl, ?_⟩
        unfold writtenKinds at hk4
        rw [show (3 : Nat) + 1 = 4 from rfl] at hw
        rw [hw] at hk4
        exact kind_lookup hk4 _
      · unfold writtenKinds at hk5
        rw [show (4 : Nat) + 1 = 5 from rfl] at hw
        rw [hw] at hk5
        exact absurd hx (kind_pong hk5)
  have hatt : ∀ m, Attached 1 b0 (σ m) := fun m => by
    have := (hstates m).1
    unfold attachedB at this
    unfold Attached
    exact of_decide_eq_true this
  have hlate : ∀ n, σ (n + 7) = s' := fun n => hσN _ (by simp)
  obtain ⟨cmd, hcmd⟩ := List.length_eq_one_iff.mp (by simpa using congrArg List.length h4 : (s.clients 1).queue.length = 1)
  refine ⟨σ, fun n => [acts n], cmd, hF, fun n => ⟨n + 7, by omega, by show (σ (n + 7)).mode = _; rw [hlate]; exact e1⟩, fun n => by rw [(hstates n).2]; decide,
    hfair _ hnotS, hfair _ (hnotC 1), fun b => hfair _ (hnotW b), fun b => hfair _ (hnotR b), hworks, hanswers, by rw [hσ0]; exact h1,
    ⟨7, fun m hm a ha => by rw [List.mem_singleton.mp ha, hactsN m hm]; rfl⟩, fun n => ⟨n + 7, by omega, by rw [hlate]; exact e1, ?_⟩, by rw [hσ0]; exact hcmd, ?_, ?_,
    fun m _ => .snoc (as := []) (.nil (hatt m)) (F2 m) (hatt (m + 1)), by rw [hσ0]; exact h6, by rw [hσ0]; exact h7,
    by rw [hσ0]; exact h8, by rw [hσ0]; exact h9, hq1⟩
  · intro j hj
    rw [List.mem_singleton] at hj
    subst hj
    rw [hlate]
    exact ⟨e5, by rw [e7]; simp⟩
  · rw [hcmd] at h4; simpa using h4
  · rintro ⟨r, hr0⟩
    rw [hσ0, List.length_eq_zero_iff.mp h5] at hr0
    cases hr0

/-- C143_commands, C143_in_turn, C143_requests and C143_requests_in_turn: the lookup is passed on and completes. -/
example : ∃ (σ : Nat → State) (acts : Nat → List Act) (cmd : ClientCmd) (m : Nat), Forever cfg0 σ acts ∧ ((σ 0).clients 1).queue = [cmd] ∧
    cmd ∈ (passedOn (σ m).sent 1).map (·.2) ∧ ¬ Done (σ 0) 0 ∧ ∃ m', Done (σ m') 0 := by
  obtain ⟨σ, acts, cmd, hF, hl, hb, f1, f2, f3, f4, hw, ha, hv, hs, ht, hq, hc, hd, _⟩ := forever_run
  have hs' : ∀ j, j ∈ [0] → FallsSilent acts j := by intro j hj; rw [List.mem_singleton] at hj; subst hj; exact hs
  obtain ⟨m, _, hm⟩ := C143_commands hF hl f1 hb hv hs'
  obtain ⟨_, _, _⟩ := C143_in_turn hF f2 hb hv ht
  obtain ⟨m', _, hm'⟩ := C143_requests hF hl hb f1 f3 f4 hw ha hv hs' (cmd := cmd) (t := 0) (by rw [hq]; simp) hc
  obtain ⟨_, _, _⟩ := C143_requests_in_turn hF hb f2 f3 f4 hw ha hv ht (cmd := cmd) (t := 0) (by rw [hq]; simp) hc
  have hr := forever_reachable hF 0
  have hsub := (Sys.cmd hr).submitted 1 ((wf hr).vecLt 1 (by rw [hv]; simp))
  exact ⟨σ, acts, cmd, m, hF, hq, hm.subset (hsub.subset (by rw [hq]; simp)), hd, m', hm'⟩

/-- C143_first: in the execution of C41, in which client 0 makes one call after another, everything it hands over is passed on. -/
example : ∃ (σ : Nat → State) (acts : Nat → List Act), Forever cfg0 σ acts ∧ (∀ n, acts (3 * n + 2) = [.engOut 0 (.ok []) net0]) ∧
    ∀ n, ∃ m, n ≤ m ∧ ((σ n).clients 0).submitted <+: (passedOn (σ m).sent 0).map (·.2) := by
  obtain ⟨σ, acts, cmd, h1, h2, h3, h4⟩ := C41_refuted
  have hF := forever_single h1 (fun n => (h2 n).1) (fun n => (h2 n).2)
  refine ⟨σ, fun n => [acts n], hF, fun n => by simp only [h3], fun n => C143_first hF (fun n => ⟨n, Nat.le_refl _, (h4 n).2.1⟩) (fun _ n => ⟨3 * n + 2, by omega, _, List.mem_singleton.mpr (h3 n).symm, rfl⟩)
    (fun n => by rw [(h4 n).1.2]; decide) (by rw [(h4 n).1.1]; rfl)⟩

/-- C143_reads, C143_written, C143_pings and C143_messages: the ping is answered, the message reaches client 1. -/
example : ∃ (σ : Nat → State) (acts : Nat → List Act), Forever cfg0 σ acts ∧ pongCount ((σ 0).conns b0).written = 0 ∧ (received (σ 0) 1).length = 0 ∧
    (∃ m, 1 ≤ pongCount ((σ m).conns b0).written) ∧ (∃ m, 1 ≤ (received (σ m) 1).length) ∧ (∃ m, 1 ≤ ((σ m).conns b0).dispatched.length) ∧
    ∃ m, 1 ≤ m ∧ 1 ≤ ((σ m).conns b0).written.length := by
  obtain ⟨σ, acts, cmd, hF, hl, hb, f1, f2, f3, f4, hw, ha, hv, hs, ht, hq, hc, hd, hat, hu, hrc, hp, hpw, hq1⟩ := forever_run
  have hvne : (σ 0).vec ≠ [] := by rw [hv]; simp
  obtain ⟨m1, _, k1⟩ := C143_pings hF hl (hw b0) (f4 b0) (f3 b0) hvne
  obtain ⟨m2, _, k2⟩ := C143_messages hF hl hat (f4 b0)
  obtain ⟨m3, _, k3⟩ := C143_reads hF hl (f4 b0) hvne
  obtain ⟨m4, k40, k4⟩ := C143_written hF (hw b0) (f3 b0) 1
  refine ⟨σ, acts, hF, hpw, hrc, ⟨m1, by omega⟩, ⟨m2, ?_⟩, ⟨m3, ?_⟩, m4, k40, ?_⟩
  · have := k2.length_le
    rw [List.length_append] at this
    omega
  · have := k3.length_le
    rw [((conn (forever_reachable hF 0)).ok b0).events, List.length_append] at this
    have h0 : 1 ≤ ((σ 0).conns b0).outbox.length := by rw [← hp]; exact List.countP_le_length
    omega
  · have := k4.length_le
    rw [List.length_append] at this
    omega

end Neutron.Props
