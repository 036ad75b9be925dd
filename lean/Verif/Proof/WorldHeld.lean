import Verif.Proof.WorldWrites
import Verif.Proof.SysService
import Verif.Props.Lifetime
import Verif.Spec.Reach

/-!
# Connections whose writing is held up
-/

namespace Neutron.Sys

/-- A connection with something to write has it until its task does something. -/
theorem busy_step {cfg : Cfg} {s s' : State} {a : Act} (h : Reachable cfg s) (hs : step cfg s a = some s') {b : BrokerAddress}
    (hc : ∀ w, a ≠ .connCmd b w) (hr : ∀ x, a ≠ .connRead b x) (hl : (s.conns b).alive = true) (hq : (s.conns b).queue ≠ []) :
    ((s'.conns b).alive = true ∧ (s'.conns b).queue ≠ []) ∧ (s'.conns b).reads = (s.conns b).reads ∧
      (s'.conns b).connected = (s.conns b).connected := by
  refine ⟨⟨?_, ?_⟩, ?_⟩
  · cases hd : (s'.conns b).alive with
    | true => rfl
    | false =>
      exfalso
      cases Props.C99_why hs hl hd with
      | closed | decoder | conversion | noReader => exact hr _ rfl
      | encoder | noCommands => exact hc _ rfl
  · have hp := (processed_step h hs b hc).1
    have h0 := (conn h).ok b |>.fifo
    have h1 := (conn (h.step hs)).ok b |>.fifo
    obtain ⟨e, he⟩ := sent_prefix hs
    rw [(conn h).accepted b] at h0
    rw [(conn (h.step hs)).accepted b, ← he, sentTo_append, h0, hp, List.append_assoc] at h1
    have := List.append_cancel_left h1
    rw [← this]
    simp [hq]
  · rcases step_reads (conn h) hs b with hx | ⟨v, ans, inb, hx, _⟩
    · exact hx
    · exact absurd hx (hr _)

end Neutron.Sys

namespace Neutron.World

open Neutron

variable {T : Type}

theorem busy_steps {cfg : Sys.Cfg} {b : BrokerAddress} : ∀ (as : List Sys.Act) {s s' : Sys.State}, Sys.Reachable cfg s →
    sysSteps cfg s as = some s' → (∀ w, .connCmd b w ∉ as) → (∀ x, .connRead b x ∉ as) → (s.conns b).alive = true →
    (s.conns b).queue ≠ [] → ((s'.conns b).alive = true ∧ (s'.conns b).queue ≠ []) ∧ (s'.conns b).reads = (s.conns b).reads ∧
      (s'.conns b).connected = (s.conns b).connected := by
  intro as
  induction as with
  | nil => intro s s' _ hs _ _ h1 h2; cases hs; exact ⟨⟨h1, h2⟩, rfl, rfl⟩
  | cons a as ih =>
    intro s s' hr hs hc hx h1 h2
    simp only [sysSteps] at hs
    cases ha : Sys.step cfg s a with
    | none => rw [ha] at hs; cases hs
    | some t =>
      rw [ha] at hs
      obtain ⟨⟨h3, h4⟩, h5, h6⟩ := Sys.busy_step hr ha (fun w he => hc w (by simp [he])) (fun x he => hx x (by simp [he])) h1 h2
      rw [← h5, ← h6]
      exact ih (hr.step ha) hs (fun w hm => hc w (List.mem_cons_of_mem _ hm)) (fun x hm => hx x (List.mem_cons_of_mem _ hm)) h3 h4

theorem induced_no_read (cfg : Cfg T) (w : World T) (a : Consumer.Act) (b : BrokerAddress) (x : Sys.Item) :
    .connRead b x ∉ induced cfg w a := by
  unfold induced
  cases a <;> simp only [List.not_mem_nil, not_false_eq_true]
  all_goals split
  all_goals first | (split <;> simp) | simp

theorem reading_iff {w : World T} {b : BrokerAddress} :
    reading w b = true ↔ (w.sys.conns b).alive = true ∧ b ∈ w.sys.addrs ∧ w.held b = false := by
  simp [reading, running, and_assoc]

/-- A connection whose writing is held up has something to write, and stays so until it has written it. -/
theorem held_step {cfg : Cfg T} {w w' : World T} {a : Act} {b : BrokerAddress} (hr : Sys.Reachable cfg.sys w.sys)
    (hs : step cfg w a = some w') (hw : Act.writes b a = false) (hh : w.held b = true)
    (hb : (w.sys.conns b).alive = true ∧ (w.sys.conns b).queue ≠ []) :
    w'.held b = true ∧ ((w'.sys.conns b).alive = true ∧ (w'.sys.conns b).queue ≠ []) ∧ (w'.sys.conns b).reads = (w.sys.conns b).reads ∧
      (w'.sys.conns b).connected = (w.sys.conns b).connected := by
  have one : ∀ (x : Sys.Act) s', Sys.step cfg.sys w.sys x = some s' → sysSteps cfg.sys w.sys [x] = some s' := by
    intro x s' h; simp [sysSteps, h]
  cases a with
  | arrive b' r =>
    simp only [step] at hs
    split at hs
    · cases hs; exact ⟨hh, hb, rfl, rfl⟩
    · cases hs
  | poll b' ans =>
    simp only [step] at hs
    split at hs
    · rename_i hrd
      have hne : b' ≠ b := by rintro rfl; rw [(reading_iff.mp hrd).2.2] at hh; cases hh
      split at hs
      · rename_i s' h1
        cases hs
        exact ⟨hh, busy_steps _ hr h1 (by simp) (by intro x hx; simp at hx; exact hne hx.2) hb.1 hb.2⟩
      · cases hs
    · cases hs
  | write b' now io =>
    have hne : b' ≠ b := by simpa [Act.writes] using hw
    simp only [step] at hs
    split at hs
    · split at hs
      · split at hs
        · rename_i s' h1
          cases hs
          exact ⟨hh, busy_steps _ hr (one _ _ h1) (by intro x hx; simp at hx; exact hne hx.1.symm) (by simp) hb.1 hb.2⟩
        · cases hs
      · split at hs
        · split at hs
          · rename_i s' h1
            cases hs
            refine ⟨?_, busy_steps _ hr (one _ _ h1) (by intro x hx; simp at hx; exact hne hx.1.symm) (by simp) hb.1 hb.2⟩
            simp only [sync]
            rw [if_neg (Ne.symm hne)]; exact hh
          · cases hs
        · cases hs
    · cases hs
  | serve i =>
    simp only [step] at hs
    split at hs
    · cases hs; exact ⟨hh, hb, rfl, rfl⟩
    · cases hs
  | hold b' =>
    simp only [step] at hs
    split at hs
    · cases hs
      refine ⟨?_, hb, rfl, rfl⟩
      simp only
      split
      · rfl
      · exact hh
    · cases hs
  | sys x =>
    simp only [step] at hs
    split at hs
    · rename_i hf
      split at hs
      · rename_i s' h1
        cases hs
        refine ⟨hh, busy_steps _ hr (one _ _ h1) ?_ ?_ hb.1 hb.2⟩
        · intro v hv; rw [List.mem_singleton] at hv; subst hv; cases hf
        · intro v hv; rw [List.mem_singleton] at hv; subst hv; cases hf
      · cases hs
    · cases hs
  | app x =>
    simp only [step] at hs
    split at hs
    · split at hs
      · split at hs
        · rename_i s' h1
          cases hs
          exact ⟨hh, busy_steps _ hr h1 (induced_no_cmd cfg w x b) (induced_no_read cfg w x b) hb.1 hb.2⟩
        · cases hs
      · cases hs
    · cases hs

/-- What a write leaves behind. -/
theorem write_held {cfg : Cfg T} {w w' : World T} {b : BrokerAddress} {now : UInt64} {io : Io} (hs : step cfg w (.write b now io) = some w')
    (hq : (w.sys.conns b).queue ≠ []) : w'.held b = false := by
  simp only [step] at hs
  split at hs
  · split at hs
    · rename_i hn; exact absurd hn hq
    · split at hs
      · split at hs
        · cases hs; simp [sync]
        · cases hs
      · cases hs
  · cases hs

/-- While the writing of a connection is held up, its task runs and has something to write. -/
theorem held_busy {cfg : Cfg T} {acts : List Act} {w : World T} (h : Run cfg acts w) {b : BrokerAddress} (hh : w.held b = true) :
    (w.sys.conns b).alive = true ∧ (w.sys.conns b).queue ≠ [] := by
  induction h with
  | nil => cases hh
  | @snoc as w w' a h hs ih =>
    obtain ⟨log, appLog, hp⟩ := proj h
    have hr : Sys.Reachable cfg.sys w.sys := ⟨_, hp.sys⟩
    cases h0 : w.held b with
    | true =>
      cases hw : Act.writes b a with
      | false => exact (held_step hr hs hw h0 (ih h0)).2.1
      | true =>
        cases a with
        | write b' now io =>
          have hb : b' = b := by simpa [Act.writes] using hw
          subst hb
          rw [write_held hs (ih h0).2] at hh; cases hh
        | _ => cases hw
    | false =>
      have quiet : w'.held = w.held → (w'.sys.conns b).alive = true ∧ (w'.sys.conns b).queue ≠ [] := by
        intro he; rw [he, h0] at hh; cases hh
      cases a with
      | hold b' =>
        simp only [step] at hs
        split at hs
        · rename_i hc
          cases hs
          simp only at hh
          split at hh
          · rename_i hb; subst hb
            simp only [Bool.and_eq_true, Bool.not_eq_true', List.isEmpty_eq_false_iff] at hc
            exact ⟨(reading_iff.mp hc.1).1, hc.2⟩
          · rw [h0] at hh; cases hh
        · cases hs
      | write b' now io =>
        simp only [step] at hs
        split at hs
        · split at hs
          · split at hs
            · cases hs; exact quiet rfl
            · cases hs
          · split at hs
            · split at hs
              · cases hs
                simp only [sync] at hh
                split at hh
                · cases hh
                · rw [h0] at hh; cases hh
              · cases hs
            · cases hs
        · cases hs
      | arrive b' r =>
        simp only [step] at hs
        split at hs
        · cases hs; exact quiet rfl
        · cases hs
      | poll b' ans =>
        simp only [step] at hs
        split at hs
        · split at hs
          · cases hs; exact quiet rfl
          · cases hs
        · cases hs
      | serve i =>
        simp only [step] at hs
        split at hs
        · cases hs; exact quiet rfl
        · cases hs
      | sys x =>
        simp only [step] at hs
        split at hs
        · split at hs
          · cases hs; exact quiet rfl
          · cases hs
        · cases hs
      | app x =>
        simp only [step] at hs
        split at hs
        · split at hs
          · split at hs
            · cases hs; exact quiet rfl
            · cases hs
          · cases hs
        · cases hs

end Neutron.World
