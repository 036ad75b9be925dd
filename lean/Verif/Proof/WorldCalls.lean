import Verif.Proof.World

/-!
# The calls on the consumer are not held up by the composition
-/

namespace Neutron.Sys

open Neutron

/-- A client stays ready until it is dropped. -/
theorem ready_step {cfg : Cfg} {s s' : State} {a : Act} (h : Reachable cfg s) (hs : step cfg s a = some s') {i : Nat} (hi : i < s.nClients)
    (hr : (s.clients i).phase = .ready) (ha : a ≠ .dropClient i) : i < s'.nClients ∧ (s'.clients i).phase = .ready := by
  refine ⟨Nat.lt_of_lt_of_le hi (nClients_mono hs), ?_⟩
  cases step_cases hs with
  | startOk net hm s2 h2 => rcases h2 with ⟨rfl, hb⟩ | ⟨hb, rfl⟩ <;> simpa using hr
  | out j auth net cmd q s'' hm hv ha hq he =>
    have ht : ((takeCmd s j cmd q).clients i).phase = (s.clients i).phase := by
      rw [takeCmd_clients]; split
      · rename_i hij; subst hij; rfl
      · rfl
    cases he with
    | lost c c2 b s3 hcc h2 hb hp => simp [hp.clients_phase, ht, hr]
    | connecting c c2 b s3 k hcc h2 hb hp hj ha hl => simp [hp.clients_phase, ht, hr]
    | _ => simp [ht, hr]
  | inb b e q s'' hm ha hv hq he =>
    cases he with
    | pingFailed => simpa using hr
    | ping => simpa using hr
    | other hp =>
      rcases managerSend_client (takeEvent s b e q) { e with inb := adjust b e.inb } b false i with hc | ⟨hc, hrc, _⟩
      · rw [hc]; simpa using hr
      · rw [hc]; simpa using hr
  | connectOk r b x e hm hf =>
    rcases managerSend_client { s with mode := .idle } e b true i with hc | ⟨hc, hrc, _⟩
    · rw [hc]; simpa using hr
    · rw [hc]; simpa using hr
  | newClient name hl =>
    have : i ≠ s.nClients := by omega
    simp [setClient_clients, this, hr]
  | dropClient j =>
    have : i ≠ j := by rintro rfl; exact ha rfl
    simp [setClient_clients, this, hr]
  | recvReply j | reg j | regFail j | sendRegFail j | sendReg j  | recvReplyFail j | cancelReg j | request j | oneway j | submit j | refuse j
    | freeQueue j | clientNext j =>
    by_cases hij : i = j
    · subst hij; simp_all [setClient_clients]
    · simp [setClient_clients, hij, hr]
  | _ => simpa using hr

end Neutron.Sys

namespace Neutron.Consumer

variable {T : Type}

theorem run_last {cfg : Cfg T} {l : List Act} {s : State T} (h : Run cfg l s) {as : List Act} {a : Act} (hl : l = as ++ [a]) :
    ∃ t, Run cfg as t ∧ step cfg t a = some s := by
  cases h with
  | nil => simp at hl
  | snoc h hs =>
    obtain ⟨rfl, he⟩ := List.append_inj' hl rfl
    cases he
    exact ⟨_, h, hs⟩

/-- A run is determined by its actions. -/
theorem run_unique {cfg : Cfg T} {as : List Act} {s s' : State T} (h : Run cfg as s) (h' : Run cfg as s') : s = s' := by
  induction h generalizing s' with
  | nil => generalize hl : ([] : List Act) = l at h'
           cases h' with
           | nil => rfl
           | snoc => simp at hl
  | snoc h hs ih =>
    obtain ⟨t, h1, h2⟩ := run_last h' rfl
    rw [ih h1] at hs
    exact Option.some.inj (hs.symm.trans h2)

theorem run_prefix {cfg : Cfg T} {l : List Act} {s : State T} (h : Run cfg l s) : ∀ {as bs : List Act}, l = as ++ bs → ∃ t, Run cfg as t := by
  induction h with
  | nil =>
    intro as bs hl
    obtain ⟨rfl, _⟩ : as = [] ∧ bs = [] := by simpa using hl.symm
    exact ⟨_, .nil⟩
  | @snoc as' s s' a h hs ih =>
    intro as bs hl
    rcases List.eq_nil_or_concat bs with rfl | ⟨bs', b, rfl⟩
    · rw [List.append_nil] at hl; subst hl; exact ⟨_, .snoc h hs⟩
    · rw [List.concat_eq_append, ← List.append_assoc] at hl
      obtain ⟨h1, _⟩ := List.append_inj' hl rfl
      exact ih h1

/-- A longer run goes through the state of a shorter one. -/
theorem exec_of_run {cfg : Cfg T} {as bs : List Act} {s s' : State T} (h : Run cfg as s) (h' : Run cfg (as ++ bs) s') :
    exec cfg s bs = some s' := by
  induction bs generalizing as s with
  | nil => rw [List.append_nil] at h'; rw [run_unique h h']; rfl
  | cons a bs ih =>
    have hx : ∃ t, Run cfg (as ++ [a]) t := run_prefix h' (bs := bs) (by simp)
    obtain ⟨t, ht⟩ := hx
    obtain ⟨u, hu, hs⟩ := run_last ht rfl
    rw [run_unique h hu, exec, hs]
    exact ih ht (by simpa using h')

end Neutron.Consumer

namespace Neutron.World

open Neutron

variable {T : Type}

/-- No call is in progress. -/
def Quiet (w : World T) : Prop := ∀ t ∈ w.app.tasks, t.stage = .ended

/-- The consumer exists and is not dropped. -/
def Usable (cfg : Cfg T) (w : World T) : Prop := cfg.me < w.sys.nClients ∧ (w.sys.clients cfg.me).phase = .ready

theorem quiet_of_free {cfg : Cfg T} {w : World T} (h : free cfg w (.dropClient cfg.me) = true) : Quiet w := by
  intro t ht
  simp only [free, ne_eq, not_true_eq_false, decide_false, Bool.false_or, List.all_eq_true] at h
  have := h t ht
  cases hs : t.stage <;> simp_all

theorem usable_sys {cfg : Cfg T} {w : World T} (hr : Sys.Reachable cfg.sys w.sys) {as : List Sys.Act} {s : Sys.State}
    (hs : sysSteps cfg.sys w.sys as = some s) (ha : .dropClient cfg.me ∉ as) (hu : Usable cfg w) :
    cfg.me < s.nClients ∧ (s.clients cfg.me).phase = .ready := by
  obtain ⟨h1, h2⟩ := hu
  generalize w.sys = t at *
  induction as generalizing t with
  | nil => cases hs; exact ⟨h1, h2⟩
  | cons a as ih =>
    simp only [sysSteps] at hs
    cases ht : Sys.step cfg.sys t a with
    | none => simp [ht] at hs
    | some t' =>
      simp only [ht] at hs
      obtain ⟨h3, h4⟩ := Sys.ready_step hr ht h1 h2 (fun hc => ha (by simp [hc]))
      exact ih (fun hc => ha (List.mem_cons_of_mem _ hc)) t' (hr.step ht) hs h3 h4

theorem induced_no_drop (cfg : Cfg T) (w : World T) (a : Consumer.Act) : .dropClient cfg.me ∉ induced cfg w a := by
  unfold induced
  cases a <;> simp only [List.not_mem_nil, not_false_eq_true]
  all_goals split
  all_goals first | (split <;> simp) | simp

/-- While a call is in progress the consumer is usable. -/
theorem usable {cfg : Cfg T} {acts : List Act} {w : World T} (h : Run cfg acts w) : Quiet w ∨ Usable cfg w := by
  induction h with
  | nil => exact .inl (fun t ht => by cases ht)
  | @snoc as w w' a h hs ih =>
    obtain ⟨log, appLog, hp⟩ := proj h
    have hr : Sys.Reachable cfg.sys w.sys := ⟨_, hp.sys⟩
    have one : ∀ (x : Sys.Act) s', Sys.step cfg.sys w.sys x = some s' → sysSteps cfg.sys w.sys [x] = some s' := by
      intro x s' h; simp [sysSteps, h]
    cases a with
    | arrive b r =>
      simp only [step] at hs
      split at hs
      · cases hs; exact ih
      · cases hs
    | hold b =>
      simp only [step] at hs
      split at hs
      · cases hs; exact ih
      · cases hs
    | serve i' =>
      simp only [step] at hs
      split at hs
      · cases hs; exact ih
      · cases hs
    | poll b ans =>
      simp only [step] at hs
      split at hs
      · split at hs
        · rename_i s' h1
          cases hs
          rcases ih with hq | hu
          · exact .inl hq
          · exact .inr (usable_sys hr h1 (by simp) hu)
        · cases hs
      · cases hs
    | write b now io =>
      simp only [step] at hs
      split at hs
      · split at hs
        · split at hs
          · rename_i s' h1
            cases hs
            rcases ih with hq | hu
            · exact .inl hq
            · exact .inr (usable_sys hr (one _ _ h1) (by simp) hu)
          · cases hs
        · split at hs
          · split at hs
            · rename_i s' h1
              cases hs
              rcases ih with hq | hu
              · exact .inl hq
              · exact .inr (usable_sys hr (one _ _ h1) (by simp) hu)
            · cases hs
          · cases hs
      · cases hs
    | sys x =>
      simp only [step] at hs
      split at hs
      · rename_i hfree
        split at hs
        · rename_i s' h1
          cases hs
          rcases ih with hq | hu
          · exact .inl hq
          · by_cases hd : x = .dropClient cfg.me
            · subst hd
              exact .inl (show Quiet w from quiet_of_free hfree)
            · exact .inr (usable_sys hr (one _ _ h1) (by simpa using Ne.symm hd) hu)
        · cases hs
      · cases hs
    | app x =>
      simp only [step] at hs
      split at hs
      · rename_i hown
        split at hs
        · rename_i app happ
          split at hs
          · rename_i s' h1
            cases hs
            have hu : Usable cfg w ∨ (∀ t ∈ app.tasks, t.stage = .ended) := by
              rcases ih with hq | hu
              · have nolive : ∀ (i : Nat) (t : Consumer.Task T), w.app.tasks[i]? = some t → t.stage = .ended := by
                  intro i t ht; exact hq t (List.mem_of_getElem? ht)
                cases Consumer.step_cases happ with
                | spawn j => 
                  simp only [own, Bool.and_eq_true, decide_eq_true_eq] at hown
                  exact .inl hown
                | deliver => cases hown
                | close => cases hown
                | ret i t ht o hc | load i t ht _ hc | store i t ht _ _ hc | add i t ht _ _ hc | lock i t ht _ hc | write i t ht _ _ hc
                | flow i t ht n k hc | refuse i t ht n k hc | recv i t ht k hc | skip i t ht k hc | gone i t ht k hc
                | plugins i t ht _ hc | loop i t ht _ _ hc | accepted i t ht _ _ hc | rejected i t ht _ _ hc =>
                  rw [nolive _ _ ht] at hc; cases hc
                | cancel i t ht hc => rw [nolive _ _ ht] at hc; cases hc
              · exact .inl hu
            rcases hu with hu | hq
            · exact .inr (usable_sys hr h1 (induced_no_drop _ _ _) hu)
            · exact .inl hq
          · cases hs
        · cases hs
      · cases hs

/-- A step a call can do by itself is a step of the whole. -/
theorem not_held_up {cfg : Cfg T} {acts : List Act} {w : World T} (h : Run cfg acts w) {a : Consumer.Act} (ho : own cfg w a = true)
    {app : Consumer.State T} (hs : Consumer.step cfg.app w.app a = some app) : ∃ s, step cfg w (.app a) = some { w with sys := s, app := app } := by
  obtain ⟨log, appLog, hp⟩ := proj h
  suffices hx : ∃ s, sysSteps cfg.sys w.sys (induced cfg w a) = some s by
    obtain ⟨s, hx⟩ := hx
    exact ⟨s, by simp [step, ho, hs, hx]⟩
  have hu : induced cfg w a ≠ [] → Usable cfg w := by
    intro hne
    rcases usable h with hq | hu
    · exfalso
      refine hne ?_
      unfold induced
      cases a with
      | run i =>
        simp only
        cases ht : w.app.tasks[i]? with
        | none => rfl
        | some t =>
          obtain ⟨j, st⟩ := t
          have : st = .ended := hq _ (List.mem_of_getElem? ht)
          subst this; rfl
      | refuse i =>
        simp only
        cases ht : w.app.tasks[i]? with
        | none => rfl
        | some t =>
          obtain ⟨j, st⟩ := t
          have : st = .ended := hq _ (List.mem_of_getElem? ht)
          subst this; rfl
      | _ => rfl
    · exact hu
  obtain ⟨_, hk⟩ := app_kind ho hs
  rcases hk with ⟨h1, _⟩ | ⟨e, q, h1, h2, _⟩ | ⟨n, h1, _⟩
  · rw [h1]; exact ⟨_, rfl⟩
  · obtain ⟨u1, u2⟩ := hu (by rw [h1]; simp)
    rw [h1]
    have hin := hp.inbox
    rw [h2] at hin
    cases hq : (w.sys.clients cfg.me).inbox with
    | nil => rw [hq] at hin; cases hin
    | cons e' q' => exact ⟨_, by simp [sysSteps, Sys.step, Sys.clientNext, u1, u2, hq]; rfl⟩
  · obtain ⟨u1, u2⟩ := hu (by rw [h1]; simp)
    rw [h1]
    simp only [sysSteps, Sys.step, Sys.beginCall, u1, u2, and_self, if_true, Client.issue, Call.expectsResponse, Bool.false_eq_true, if_false,
      Sys.submit, Sys.setClient_clients, Sys.setClient_nClients]
    simp only [List.getElem?_concat_length]
    split <;> rename_i hc
    · exact ⟨_, rfl⟩
    · split at hc <;> cases hc

/-- Calls made and run by themselves are part of a run of the whole. -/
theorem lift {cfg : Cfg T} {acts : List Act} {w : World T} (h : Run cfg acts w) {bs : List Consumer.Act} {app : Consumer.State T}
    (hs : Consumer.exec cfg.app w.app bs = some app) (hb : ∀ a ∈ bs, ∃ i, a = .run i) :
    ∃ w', exec cfg w (bs.map .app) = some w' ∧ Run cfg (acts ++ bs.map .app) w' ∧ w'.app = app := by
  induction bs generalizing acts w with
  | nil => cases hs; exact ⟨w, rfl, by simpa using h, rfl⟩
  | cons a bs ih =>
    simp only [Consumer.exec] at hs
    cases h1 : Consumer.step cfg.app w.app a with
    | none => simp [h1] at hs
    | some app1 =>
      simp only [h1] at hs
      obtain ⟨i, rfl⟩ := hb a (by simp)
      obtain ⟨s, h2⟩ := not_held_up h (a := .run i) rfl h1
      obtain ⟨w', k1, k2, k3⟩ := ih (h.snoc h2) hs (fun a ha => hb a (List.mem_cons_of_mem _ ha))
      exact ⟨w', by simp [exec, h2, k1], by simpa using k2, k3⟩

end Neutron.World
