import Verif.Proof.SysCmd
import Verif.Spec.Sys

/-!
# Facts about whole runs
-/

namespace Neutron.Sys

open Neutron

theorem Run.induct {cfg : Cfg} {P : List Act → State → Prop} (h0 : P [] (init cfg))
    (hs : ∀ as s a s', Reachable cfg s → P as s → step cfg s a = some s' → P (as ++ [a]) s') {as : List Act} {s : State}
    (h : Run cfg as s) : P as s := by
  induction h with
  | nil => exact h0
  | snoc hr hstep ih => exact hs _ _ _ _ ⟨_, hr⟩ ih hstep

/-- Only reading from the socket adds to what a connection has read. -/
theorem step_reads {cfg : Cfg} {s s' : State} {a : Act} (hc : Conn s) (hs : step cfg s a = some s') (b : BrokerAddress) :
    ((s'.conns b).reads = (s.conns b).reads ∧ (s'.conns b).connected = (s.conns b).connected) ∨
    ∃ v ans inb, a = .connRead b (.command v ans) ∧ Inbound.ofCommand v = .ok inb ∧
      (((s'.conns b).reads = (s.conns b).reads ++ [⟨inb, ans⟩] ∧ (s'.conns b).connected = (s.conns b).connected) ∨
       ((s'.conns b).reads = (s.conns b).reads ∧ (s'.conns b).connected = (s.conns b).connected ++ [⟨inb, ans⟩])) := by
  have hst := step_cases hs
  clear hs
  cases hst with
  | startOk net hm s2 h2 =>
    rcases h2 with ⟨rfl, hb⟩ | ⟨hb, rfl⟩
    · exact .inl ⟨rfl, rfl⟩
    · left
      show ((dialed s _).conns b).reads = _ ∧ ((dialed s _).conns b).connected = _
      rw [dialed_conns_eq hc hb]; exact ⟨rfl, rfl⟩
  | out i auth net cmd q s' hm hv ha hq he =>
    left
    have hc1 : Conn (takeCmd s i cmd q) := hc.congr (by simp) (by simp) (by simp)
    cases he with
    | failed => simp
    | lost c c2 b' s3 hcc h2 hb hp => simp [hp.conns hc1]
    | sent j hn hj ha hl =>
      simp only [Sys.pushed, setConn_conns]; split
      · rename_i hb; subst hb; simp
      · simp
    | connecting c c2 b' s3 j hcc h2 hb hp hj ha hl =>
      simp only [Sys.pushed, setConn_conns]; split
      · rename_i hb; subst hb; simp [hp.conns hc1]
      · simp [hp.conns hc1]
  | inb b' e q s' hm ha hv hq he =>
    left
    have h1 : ((takeEvent s b' e q).conns b).reads = (s.conns b).reads ∧
        ((takeEvent s b' e q).conns b).connected = (s.conns b).connected := by
      unfold takeEvent; simp only [setConn_conns]; split
      · rename_i hb; subst hb; exact ⟨rfl, rfl⟩
      · exact ⟨rfl, rfl⟩
    cases he with
    | pingFailed => simpa using h1
    | ping =>
      simp only [Sys.pushed, setConn_conns]; split
      · rename_i hb; subst hb; exact h1
      · exact h1
    | other _ => simpa using h1
  | cmdEnd b' w hl ha hq hm | readEnd b' x hl ha hx =>
    left; unfold endConn; simp only [setConn_conns]; split
    · rename_i hb; subst hb; exact ⟨rfl, rfl⟩
    · exact ⟨rfl, rfl⟩
  | cmdOk b' c q hl ha hq =>
    left; simp only [setConn_conns, connTake_conns]; split
    · rename_i hb; subst hb; simp
    · simp
  | cmdFail b' c q hl ha hq =>
    left; simp only [connTake_conns]; split
    · rename_i hb; subst hb; simp
    · simp
  | cmdPanic b' c q hl ha hq =>
    left; unfold endConn; simp only [setConn_conns, connTake_conns]; split
    · rename_i hb; subst hb; simp
    · simp
  | readConnected b' v t inb r res hl ha hv hr =>
    by_cases hb : b = b'
    · subst hb; right; exact ⟨v, t, inb, rfl, hv, .inr (by simp [setConn_conns])⟩
    · left; simp [setConn_conns, hb]
  | readForward b' v t inb hl ha hv hr hm =>
    by_cases hb : b = b'
    · subst hb; right; exact ⟨v, t, inb, rfl, hv, .inl (by simp [setConn_conns])⟩
    · left; simp [setConn_conns, hb]
  | connectOk => left; simp
  | _ => left; exact ⟨rfl, rfl⟩

theorem ReadFrom.mono {as : List Act} {a : Act} {b : BrokerAddress} {inb : Inbound} {ans : Option Tok}
    (h : ReadFrom as b inb ans) : ReadFrom (as ++ [a]) b inb ans := by
  obtain ⟨v, hm, hv⟩ := h
  exact ⟨v, List.mem_append_left _ hm, hv⟩

/-- What a connection has read was delivered by its socket. -/
theorem run_reads {cfg : Cfg} {as : List Act} {s : State} (h : Run cfg as s) :
    ∀ b e, e ∈ (s.conns b).reads ∨ e ∈ (s.conns b).connected → ReadFrom as b e.inb e.answers := by
  refine Run.induct (P := fun as s => ∀ b e, e ∈ (s.conns b).reads ∨ e ∈ (s.conns b).connected → ReadFrom as b e.inb e.answers)
    ?_ ?_ h
  · intro b e he; simp [init, freshConn] at he
  · intro as s a s' hr ih hs b e he
    rcases step_reads (conn hr) hs b with ⟨h1, h2⟩ | ⟨v, ans, inb, rfl, hv, ⟨h1, h2⟩ | ⟨h1, h2⟩⟩
    · rw [h1, h2] at he; exact (ih b e he).mono
    all_goals
      rw [h1, h2] at he
      simp only [List.mem_append, List.mem_singleton] at he
      by_cases hn : e = ⟨inb, ans⟩
      · subst hn; exact ⟨v, by simp, hv⟩
      · exact (ih b e (by simpa [hn] using he)).mono

/-- The engine never leaves `stopped`. -/
theorem stopped_step {cfg : Cfg} {s s' : State} {a : Act} (hs : step cfg s a = some s') (hm : s.mode = .stopped) :
    s'.mode = .stopped := by
  have hst := step_cases hs
  clear hs
  cases hst <;> simp_all

/-- Outcomes are only ever added. -/
theorem outcomes_step {cfg : Cfg} {s s' : State} {a : Act} (hs : step cfg s a = some s') : s.outcomes <+: s'.outcomes := by
  have hst := step_cases hs
  clear hs
  have hms : ∀ (t : State) e b v, t.outcomes <+: (managerSend t e b v).outcomes := by
    intro t e b v; unfold managerSend; split
    · exact List.prefix_append ..
    · exact List.prefix_refl _
  have htc : ∀ i cmd q, s.outcomes <+: (takeCmd s i cmd q).outcomes := by
    intro i cmd q; rw [takeCmd_outcomes]; exact List.prefix_append ..
  cases hst with
  | startOk net hm s2 h2 => rcases h2 with ⟨rfl, hb⟩ | ⟨hb, rfl⟩ <;> exact List.prefix_refl _
  | startFail | outGone | inLost | regClosedStop | noConn | connectLost => exact List.prefix_append ..
  | regFail => exact List.prefix_append ..
  | out i auth net cmd q s' hm hv ha hq he =>
    refine (htc i cmd q).trans ?_
    cases he with
    | failed => exact List.prefix_append ..
    | lost c c2 b s3 hcc h2 hb hp => rw [stop_outcomes, hp.outcomes]; exact List.prefix_append ..
    | sent => exact List.prefix_refl _
    | connecting c c2 b s3 j hcc h2 hb hp hj ha hl => simp only [pushed_outcomes, hp.outcomes]; exact List.prefix_refl _
  | inb b e q s' hm ha hv hq he =>
    cases he with
    | pingFailed => exact List.prefix_append ..
    | ping => exact List.prefix_refl _
    | other _ => exact hms (takeEvent s b e q) _ _ _
  | connectOk => exact hms { s with mode := .idle } _ _ _
  | refuse | freeQueue => exact List.prefix_append ..
  | _ => first | exact List.prefix_refl _ | (simp; done)

end Neutron.Sys
