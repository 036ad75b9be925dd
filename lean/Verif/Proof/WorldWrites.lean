import Verif.Proof.World
import Verif.Proof.SysMade

/-!
# What is written to the sockets
-/

namespace Neutron.Sys

open Neutron

/-- Commands leave a connection's channel only when its task takes them. -/
theorem processed_step {cfg : Cfg} {s s' : State} {a : Act} (h : Reachable cfg s) (hs : step cfg s a = some s') (b : BrokerAddress)
    (ha : ∀ w, a ≠ .connCmd b w) :
    (s'.conns b).processed = (s.conns b).processed ∧ (s'.conns b).written = (s.conns b).written := by
  have hcn := conn h
  cases step_cases hs with
  | startOk net hm s2 h2 =>
    rcases h2 with ⟨rfl, hb⟩ | ⟨hb, rfl⟩
    · simp
    · by_cases hbb : b = cfg.config.brokerAddress
      · subst hbb
        have := hcn.unused _ hb
        simp [dialed, setConn_conns, this]
      · simp [dialed, setConn_conns, hbb]
  | out j auth net cmd q s'' hm hv ha hq he =>
    have hc1 : Conn (takeCmd s j cmd q) := hcn.congr (by simp) (by simp) (by simp)
    cases he with
    | lost c c2 b' s3 hcc h2 hb hp => simp [hp.conns hc1]
    | connecting c c2 b' s3 k hcc h2 hb hp hj ha hl =>
      simp only [Sys.pushed, setConn_conns]; split
      · rename_i hx; subst hx; simp [hp.conns hc1]
      · simp [hp.conns hc1]
    | failed => simp
    | sent =>
      simp only [Sys.pushed, setConn_conns]; split
      · rename_i hx; subst hx; simp
      · simp
  | inb b' e q s'' hm ha hv hq he =>
    have ht : ((takeEvent s b' e q).conns b).written = (s.conns b).written ∧
        ((takeEvent s b' e q).conns b).processed = (s.conns b).processed := by
      unfold takeEvent; simp only [setConn_conns]; split
      · rename_i hx; subst hx; exact ⟨rfl, rfl⟩
      · exact ⟨rfl, rfl⟩
    cases he with
    | pingFailed => simp [ht]
    | ping =>
      simp only [Sys.pushed, setConn_conns]; split
      · rename_i hx; subst hx; simp [ht]
      · simp [ht]
    | other => simp [ht]
  | cmdEnd b' w | readEnd b' =>
    simp only [endConn, setConn_conns]; split
    · rename_i hx; subst hx; simp
    · simp
  | cmdOk b' c q =>
    have : b ≠ b' := by rintro rfl; exact ha _ rfl
    simp [setConn_conns, connTake_conns, this]
  | cmdFail b' c q =>
    have : b ≠ b' := by rintro rfl; exact ha _ rfl
    simp [connTake_conns, this]
  | cmdPanic b' c q =>
    have : b ≠ b' := by rintro rfl; exact ha _ rfl
    simp [endConn, setConn_conns, connTake_conns, this]
  | readConnected b' | readForward b' =>
    simp only [setConn_conns]; split
    · rename_i hx; subst hx; simp
    · simp
  | _ => simp

/-- What a connection's task does with its next command. -/
theorem cmd_step {cfg : Cfg} {s s' : State} {b : BrokerAddress} {w : Write} (hs : step cfg s (.connCmd b w) = some s') {c : ConnCmd}
    {q : List ConnCmd} (hq : (s.conns b).queue = c :: q) :
    (s'.conns b).processed = (s.conns b).processed ++ [c] ∧
    (s'.conns b).written = (s.conns b).written ++ (if w = .ok then [c] else []) := by
  cases step_cases hs with
  | cmdEnd _ _ hl hb hq' => rw [hq] at hq'; cases hq'
  | cmdOk _ c' q' hl hb hq' => rw [hq] at hq'; cases hq'; simp [setConn_conns, connTake_conns]
  | cmdFail _ c' q' hl hb hq' => rw [hq] at hq'; cases hq'; simp [connTake_conns]
  | cmdPanic _ c' q' hl hb hq' => rw [hq] at hq'; cases hq'; simp [endConn, setConn_conns, connTake_conns]

end Neutron.Sys

namespace Neutron.World

open Neutron

variable {T : Type}

/-- What the sockets hold: whole encodings, one after the other, of commands the task took, in that order. -/
def Wrote (oc : Bool) (t : Tx) (processed written : List Sys.ConnCmd) : Prop :=
  ∃ l : List (Sys.ConnCmd × Bytes), Encoded oc l ∧ t.sent ++ t.buffer = (l.map (·.2)).flatten ∧ (l.map (·.1)).Sublist processed ∧
    written.Sublist (l.map (·.1))

theorem push_all (t : Tx) (k : Nat) : (t.push k).sent ++ (t.push k).buffer = t.sent ++ t.buffer := by
  simp [Tx.push]

theorem send_wrote {oc : Bool} {now : UInt64} {t t' : Tx} {c : Sys.ConnCmd} {io : Io} {r : Sys.Write} {P W : List Sys.ConnCmd}
    (h : Wrote oc t P W) (hs : t.send oc now c.out io = some (t', r)) : Wrote oc t' (P ++ [c]) (W ++ if r = .ok then [c] else []) := by
  obtain ⟨l, h1, h2, h3, h4⟩ := h
  have skip : ∀ t'', t''.sent ++ t''.buffer = t.sent ++ t.buffer → Wrote oc t'' (P ++ [c]) W := by
    intro t'' ht
    exact ⟨l, h1, ht.trans h2, h3.trans (List.sublist_append_left ..), h4⟩
  have add : ∀ t'' bytes, (c.out.toCommand now).bind (Codec.encode oc) = .ok bytes → t''.sent ++ t''.buffer = t.sent ++ t.buffer ++ bytes →
      ∀ X, X.Sublist [c] → Wrote oc t'' (P ++ [c]) (W ++ X) := by
    intro t'' bytes hb ht X hX
    refine ⟨l ++ [(c, bytes)], ?_, ?_, ?_, ?_⟩
    · intro x hx
      rcases List.mem_append.mp hx with hx | hx
      · exact h1 x hx
      · rw [List.mem_singleton] at hx; subst hx; exact ⟨now, hb⟩
    · rw [ht, h2]; simp
    · rw [List.map_append]; exact h3.append (List.Sublist.refl _)
    · rw [List.map_append]; exact h4.append hX
  cases io with
  | ok =>
    simp only [Tx.send] at hs
    split at hs
    · rename_i bytes hb
      cases hs
      exact add _ bytes hb (by simp) _ (by simp)
    · cases hs; simpa using skip t rfl
    · cases hs; simpa using skip t rfl
  | failed k =>
    simp only [Tx.send] at hs
    split at hs
    · rename_i bytes hb
      cases hs
      refine add _ bytes hb ?_ _ (by simp)
      rw [push_all]; simp
    · cases hs; simpa using skip t rfl
    · cases hs; simpa using skip t rfl
  | full k =>
    simp only [Tx.send] at hs
    split at hs
    · split at hs
      · cases hs; simpa using skip t rfl
      · cases hs; simpa using skip _ (push_all t k)
    · cases hs

/-- A step of the whole, as seen by the write side of `b`. -/
inductive WriteStep (cfg : Cfg T) (w w' : World T) (b : BrokerAddress) : Act → Prop where
  | same {a : Act} (ht : w'.tx b = w.tx b) (hp : (w'.sys.conns b).processed = (w.sys.conns b).processed)
      (hw : (w'.sys.conns b).written = (w.sys.conns b).written) : WriteStep cfg w w' b a
  | sent (now : UInt64) (io : Io) (c : Sys.ConnCmd) (q : List Sys.ConnCmd) (r : Sys.Write) (hq : (w.sys.conns b).queue = c :: q)
      (ht : (w.tx b).send cfg.overflowChecks now c.out io = some (w'.tx b, r))
      (hp : (w'.sys.conns b).processed = (w.sys.conns b).processed ++ [c])
      (hw : (w'.sys.conns b).written = (w.sys.conns b).written ++ if r = .ok then [c] else []) : WriteStep cfg w w' b (.write b now io)

theorem sysSteps_processed {cfg : Sys.Cfg} {s s' : Sys.State} (hr : Sys.Reachable cfg s) {as : List Sys.Act} (hs : sysSteps cfg s as = some s')
    (b : BrokerAddress) (ha : ∀ w, Sys.Act.connCmd b w ∉ as) :
    (s'.conns b).processed = (s.conns b).processed ∧ (s'.conns b).written = (s.conns b).written := by
  induction as generalizing s with
  | nil => cases hs; exact ⟨rfl, rfl⟩
  | cons a as ih =>
    simp only [sysSteps] at hs
    cases ht : Sys.step cfg s a with
    | none => simp [ht] at hs
    | some t =>
      simp only [ht] at hs
      obtain ⟨h1, h2⟩ := Sys.processed_step hr ht b (fun w hc => ha w (by simp [hc]))
      obtain ⟨h3, h4⟩ := ih (hr.step ht) hs (fun w hc => ha w (List.mem_cons_of_mem _ hc))
      exact ⟨h3.trans h1, h4.trans h2⟩

theorem induced_no_cmd (cfg : Cfg T) (w : World T) (a : Consumer.Act) (b : BrokerAddress) (x : Sys.Write) :
    .connCmd b x ∉ induced cfg w a := by
  unfold induced
  cases a <;> simp only [List.not_mem_nil, not_false_eq_true]
  all_goals split
  all_goals first | (split <;> simp) | simp

theorem write_step {cfg : Cfg T} {acts : List Act} {w w' : World T} {a : Act} (h : Run cfg acts w) (hs : step cfg w a = some w')
    (b : BrokerAddress) : WriteStep cfg w w' b a := by
  obtain ⟨log, appLog, hp⟩ := proj h
  have hr : Sys.Reachable cfg.sys w.sys := ⟨_, hp.sys⟩
  have one : ∀ (x : Sys.Act) s', Sys.step cfg.sys w.sys x = some s' → sysSteps cfg.sys w.sys [x] = some s' := by
    intro x s' h; simp [sysSteps, h]
  cases a with
  | arrive b' r =>
    simp only [step] at hs
    split at hs
    · cases hs; exact .same rfl rfl rfl
    · cases hs
  | hold b' =>
    simp only [step] at hs
    split at hs
    · cases hs; exact .same rfl rfl rfl
    · cases hs
  | serve i' =>
    simp only [step] at hs
    split at hs
    · cases hs; exact .same rfl rfl rfl
    · cases hs
  | poll b' ans =>
    simp only [step] at hs
    split at hs
    · split at hs
      · rename_i s' h1
        cases hs
        obtain ⟨k1, k2⟩ := sysSteps_processed hr h1 b (by simp)
        exact .same rfl k1 k2
      · cases hs
    · cases hs
  | write b' now io =>
    simp only [step] at hs
    split at hs
    · split at hs
      · rename_i hq
        split at hs
        · rename_i s' h1
          cases hs
          by_cases hb : b = b'
          · subst hb
            cases Sys.step_cases h1 with
            | cmdEnd => exact .same rfl (by simp [sync, Sys.endConn, Sys.setConn_conns]) (by simp [sync, Sys.endConn, Sys.setConn_conns])
            | cmdOk _ _ _ _ _ hq' => rw [hq] at hq'; cases hq'
          · obtain ⟨k1, k2⟩ := Sys.processed_step hr h1 b (by intro x hx; cases hx; exact hb rfl)
            exact .same rfl k1 k2
        · cases hs
      · rename_i c q hq
        split at hs
        · rename_i t r hsend
          split at hs
          · rename_i s' h1
            cases hs
            by_cases hb : b = b'
            · subst hb
              obtain ⟨k1, k2⟩ := Sys.cmd_step h1 hq
              exact .sent now io c q r hq (by simpa [sync] using hsend) k1 k2
            · obtain ⟨k1, k2⟩ := Sys.processed_step hr h1 b (by intro x hx; cases hx; exact hb rfl)
              exact .same (by simp [sync, hb]) k1 k2
          · cases hs
        · cases hs
    · cases hs
  | sys x =>
    simp only [step] at hs
    split at hs
    · rename_i hf
      split at hs
      · rename_i s' h1
        cases hs
        obtain ⟨k1, k2⟩ := Sys.processed_step hr h1 b (by rintro v rfl; cases hf)
        exact .same rfl k1 k2
      · cases hs
    · cases hs
  | app x =>
    simp only [step] at hs
    split at hs
    · split at hs
      · split at hs
        · rename_i s' h1
          cases hs
          obtain ⟨k1, k2⟩ := sysSteps_processed hr h1 b (fun v => induced_no_cmd _ _ _ _ _)
          exact .same rfl k1 k2
        · cases hs
      · cases hs
    · cases hs

theorem wrote {cfg : Cfg T} {acts : List Act} {w : World T} (h : Run cfg acts w) (b : BrokerAddress) :
    Wrote cfg.overflowChecks (w.tx b) (w.sys.conns b).processed (w.sys.conns b).written := by
  induction h with
  | nil => exact ⟨[], (fun x hx => by cases hx), rfl, List.nil_sublist _, List.nil_sublist _⟩
  | snoc h hs ih =>
    cases write_step h hs b with
    | same ht hp hw => rw [ht, hp, hw]; exact ih
    | sent now io c q r hq ht hp hw => rw [hp, hw]; exact send_wrote ih ht

/-- As above, and what was reported written has left: the commands fall into those whose bytes the socket has all accepted, and the
others; those reported written are among the former. -/
def Left (oc : Bool) (t : Tx) (processed written : List Sys.ConnCmd) : Prop :=
  ∃ l1 l2 : List (Sys.ConnCmd × Bytes), Encoded oc (l1 ++ l2) ∧ t.sent ++ t.buffer = ((l1 ++ l2).map (·.2)).flatten ∧
    (l1.map (·.2)).flatten <+: t.sent ∧ ((l1 ++ l2).map (·.1)).Sublist processed ∧ written.Sublist (l1.map (·.1))

theorem push_sent (t : Tx) (k : Nat) : t.sent <+: (t.push k).sent := ⟨_, rfl⟩

theorem send_left {oc : Bool} {now : UInt64} {t t' : Tx} {c : Sys.ConnCmd} {io : Io} {r : Sys.Write} {P W : List Sys.ConnCmd}
    (h : Left oc t P W) (hs : t.send oc now c.out io = some (t', r)) : Left oc t' (P ++ [c]) (W ++ if r = .ok then [c] else []) := by
  obtain ⟨l1, l2, h1, h2, h3, h4, h5⟩ := h
  have skip : ∀ t'', t''.sent ++ t''.buffer = t.sent ++ t.buffer → t.sent <+: t''.sent → Left oc t'' (P ++ [c]) W := by
    intro t'' ht hp
    exact ⟨l1, l2, h1, ht.trans h2, h3.trans hp, h4.trans (List.sublist_append_left ..), h5⟩
  have enc : ∀ bytes, (c.out.toCommand now).bind (Codec.encode oc) = .ok bytes → Encoded oc (l1 ++ l2 ++ [(c, bytes)]) := by
    intro bytes hb x hx
    rcases List.mem_append.mp hx with hx | hx
    · exact h1 x hx
    · rw [List.mem_singleton] at hx; subst hx; exact ⟨now, hb⟩
  have subl : ∀ bytes : Bytes, ((l1 ++ l2 ++ [(c, bytes)]).map (·.1)).Sublist (P ++ [c]) := by
    intro bytes; rw [List.map_append]; exact h4.append (List.Sublist.refl _)
  cases io with
  | ok =>
    simp only [Tx.send] at hs
    split at hs
    · rename_i bytes hb
      cases hs
      refine ⟨l1 ++ l2 ++ [(c, bytes)], [], ?_, ?_, ?_, ?_, ?_⟩
      · rw [List.append_nil]; exact enc _ hb
      · simp only [List.append_nil]; rw [h2]; simp
      · show _ <+: t.sent ++ t.buffer ++ bytes
        rw [h2]; simp
      · rw [List.append_nil]; exact subl _
      · rw [if_pos rfl, List.map_append]
        refine List.Sublist.append (h5.trans ?_) (List.Sublist.refl _)
        rw [List.map_append]; exact List.sublist_append_left ..
    · cases hs; simpa using skip t rfl List.prefix_rfl
    · cases hs; simpa using skip t rfl List.prefix_rfl
  | failed k =>
    simp only [Tx.send] at hs
    split at hs
    · rename_i bytes hb
      cases hs
      refine ⟨l1, l2 ++ [(c, bytes)], ?_, ?_, ?_, ?_, by simpa using h5⟩
      · rw [← List.append_assoc]; exact enc _ hb
      · rw [push_all, ← List.append_assoc l1]
        show t.sent ++ (t.buffer ++ bytes) = _
        rw [← List.append_assoc, h2]; simp
      · exact h3.trans (push_sent ⟨t.buffer ++ bytes, t.sent⟩ k)
      · rw [← List.append_assoc]; exact subl _
    · cases hs; simpa using skip t rfl List.prefix_rfl
    · cases hs; simpa using skip t rfl List.prefix_rfl
  | full k =>
    simp only [Tx.send] at hs
    split at hs
    · split at hs
      · cases hs; simpa using skip t rfl List.prefix_rfl
      · cases hs; simpa using skip _ (push_all t k) (push_sent t k)
    · cases hs

theorem left {cfg : Cfg T} {acts : List Act} {w : World T} (h : Run cfg acts w) (b : BrokerAddress) :
    Left cfg.overflowChecks (w.tx b) (w.sys.conns b).processed (w.sys.conns b).written := by
  induction h with
  | nil => exact ⟨[], [], (fun x hx => by cases hx), rfl, List.nil_prefix, List.nil_sublist _, List.nil_sublist _⟩
  | snoc h hs ih =>
    cases write_step h hs b with
    | same ht hp hw => rw [ht, hp, hw]; exact ih
    | sent now io c q r hq ht hp hw => rw [hp, hw]; exact send_left ih ht

/-- Without failures nothing stays behind, and exactly what was written is there. -/
theorem wrote_all {cfg : Cfg T} {acts : List Act} {w : World T} (h : Run cfg acts w) (hn : NoWriteFailure acts) (b : BrokerAddress) :
    (w.tx b).buffer = [] ∧ ∃ l : List (Sys.ConnCmd × Bytes), Encoded cfg.overflowChecks l ∧ (w.tx b).sent = (l.map (·.2)).flatten ∧
      l.map (·.1) = (w.sys.conns b).written := by
  induction h with
  | nil => exact ⟨rfl, [], (fun x hx => by cases hx), rfl, rfl⟩
  | @snoc as w w' a h hs ih =>
    obtain ⟨ih0, l, ih1, ih2, ih3⟩ := ih (fun b now io hm => hn b now io (List.mem_append_left _ hm))
    have hn' : ∀ b now io, a = .write b now io → io = .ok := fun b now io hm => hn b now io (by simp [hm])
    cases write_step h hs b with
    | same ht hp hw => rw [ht, hw]; exact ⟨ih0, l, ih1, ih2, ih3⟩
    | sent now io c q r hq ht hp hw =>
      have := hn' _ _ _ rfl
      subst this
      simp only [Tx.send] at ht
      split at ht
      · rename_i bytes hb
        simp only [Option.some.injEq, Prod.mk.injEq] at ht
        obtain ⟨h1, rfl⟩ := ht
        rw [← h1, hw]
        refine ⟨rfl, l ++ [(c, bytes)], ?_, by simp [ih0, ih2], by simp [ih3]⟩
        intro x hx
        rcases List.mem_append.mp hx with hx | hx
        · exact ih1 x hx
        · rw [List.mem_singleton] at hx; subst hx; exact ⟨now, hb⟩
      · simp only [Option.some.injEq, Prod.mk.injEq] at ht
        obtain ⟨h1, rfl⟩ := ht
        rw [← h1, hw]
        exact ⟨ih0, l, ih1, ih2, by simp [ih3]⟩
      · simp only [Option.some.injEq, Prod.mk.injEq] at ht
        obtain ⟨h1, rfl⟩ := ht
        rw [← h1, hw]
        exact ⟨ih0, l, ih1, ih2, by simp [ih3]⟩

end Neutron.World
