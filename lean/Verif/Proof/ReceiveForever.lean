import Verif.Spec.ReceiveForever
import Verif.Proof.Returns
import Verif.Props.ReceiveForever
import Verif.Props.EndToEnd

/-!
# From executions of everything to executions of the consumer
-/

namespace Neutron.Props

open Neutron Neutron.App Neutron.World

variable {T : Type}

theorem end_open {s : Sys.State} (h : s.mode ≠ .stopped) (i : Nat) : Sys.engineEnd s i = true := by
  unfold Sys.engineEnd
  cases hm : s.mode <;> simp_all

/-- Nothing happened to the consumer, or an event was put in its channel. -/
def Fed (a a' : Consumer.State T) : Prop := a' = a ∨ ∃ e, a' = { a with inbox := a.inbox ++ [e] }

theorem sync_fed {cfg : World.Cfg T} {w w0 : World T} {s' : Sys.State} {x : Sys.Act} (hr : Sys.Reachable cfg.sys w.sys)
    (hin : w.app.inbox = (w.sys.clients cfg.me).inbox.map (·.inb)) (hop : w.app.isOpen = true)
    (hs : Sys.step cfg.sys w.sys x = some s') (hm : s'.mode ≠ .stopped) (hx : x ≠ .clientNext cfg.me) (h0 : w0.app = w.app) :
    Fed w.app (sync cfg w0 s').app := by
  have ho := end_open hm cfg.me
  cases Sys.channel_step (Sys.blank hr) hs cfg.me with
  | same hq ht =>
    left
    simp only [sync, hq, ho, h0, ← hin, ← hop]
  | taken e q ha => exact absurd ha hx
  | added e hq =>
    right
    refine ⟨e.inb, ?_⟩
    simp only [sync, hq, ho, h0, List.map_append, List.map_cons, List.map_nil, ← hin, ← hop]

theorem world_fed {cfg : World.Cfg T} {acts : List World.Act} {w w' : World T} {x : World.Act} (h : World.Run cfg acts w)
    (hs : World.step cfg w x = some w') (hm : w.sys.mode ≠ .stopped) (hm' : w'.sys.mode ≠ .stopped) (hx : ∀ a, x ≠ .app a) :
    Fed w.app w'.app := by
  obtain ⟨log, appLog, hp⟩ := proj h
  have hr : Sys.Reachable cfg.sys w.sys := ⟨_, hp.sys⟩
  have hin := hp.inbox
  have hop : w.app.isOpen = true := by rw [hp.isOpen]; exact end_open hm _
  cases x with
  | arrive b r =>
    simp only [World.step] at hs
    split at hs
    · cases hs; exact .inl rfl
    · cases hs
  | hold b =>
    simp only [World.step] at hs
    split at hs
    · cases hs; exact .inl rfl
    · cases hs
  | serve i' =>
    simp only [World.step] at hs
    split at hs
    · cases hs; exact .inl rfl
    · cases hs
  | poll b ans =>
    simp only [World.step] at hs
    split at hs
    · cases hi : item ans (Framed.pollNext (w.rx b).framed (w.rx b).socket).1 with
      | none =>
        rw [hi] at hs
        simp only [Option.toList_none, List.map_nil, sysSteps, Option.some.injEq] at hs
        subst hs
        left
        simp only [sync, ← hin, end_open hm, ← hop]
      | some it =>
        rw [hi] at hs
        simp only [Option.toList_some, List.map_cons, List.map_nil, sysSteps] at hs
        cases h1 : Sys.step cfg.sys w.sys (.connRead b it) with
        | none => simp [h1] at hs
        | some s1 =>
          simp only [h1, Option.some.injEq] at hs
          subst hs
          exact sync_fed hr hin hop h1 hm' (by simp) rfl
    · cases hs
  | write b now io =>
    simp only [World.step] at hs
    split at hs
    · split at hs
      · split at hs
        · rename_i s1 h1; cases hs
          exact sync_fed hr hin hop h1 hm' (by simp) rfl
        · cases hs
      · split at hs
        · split at hs
          · rename_i s1 h1; cases hs
            exact sync_fed hr hin hop h1 hm' (by simp) rfl
          · cases hs
        · cases hs
    · cases hs
  | sys a =>
    simp only [World.step] at hs
    split at hs
    · rename_i hf
      split at hs
      · rename_i s1 h1; cases hs
        refine sync_fed hr hin hop h1 hm' ?_ rfl
        rintro rfl; simp [World.free] at hf
      · cases hs
    · cases hs
  | app a => exact absurd rfl (hx a)

theorem acts_short {s : Sys.State} {j : Job} {as : List Sys.Act} (h : j.acts s = some as) : as = [] ∨ ∃ a, as = [a] := by
  unfold Job.acts at h
  repeat' split at h
  all_goals first
    | (cases h; done)
    | (cases h; exact .inl rfl)
    | (cases h; exact .inr ⟨_, rfl⟩)

theorem drop_short {s : Sys.State} {j : Job} : j.dropActs s = [] ∨ ∃ a, j.dropActs s = [a] := by
  unfold Job.dropActs
  repeat' split
  all_goals first
    | exact .inl rfl
    | exact .inr ⟨_, rfl⟩

theorem app_fed {cfg : World.Cfg T} {acts : List App.Act} {log : List World.Act} {a a' : App.State T} {x : App.Act} (h : App.Run cfg acts log a)
    (hs : App.step cfg a x = some a') (hm : a.world.sys.mode ≠ .stopped) (hm' : a'.world.sys.mode ≠ .stopped)
    (hx : ∀ c, x ≠ .world (.app c)) : Fed a.world.app a'.world.app := by
  obtain ⟨_, hw, _⟩ := step_some hs
  have hrw := run_world h
  have few : ∀ l : List Sys.Act, (l = [] ∨ ∃ y, l = [y]) → worldSteps cfg a.world (l.map .sys) = some a'.world → Fed a.world.app a'.world.app := by
    rintro l (rfl | ⟨y, rfl⟩) hl
    · simp only [List.map_nil, worldSteps, Option.some.injEq] at hl
      rw [hl]; exact .inl rfl
    · simp only [List.map_cons, List.map_nil, worldSteps] at hl
      cases h1 : World.step cfg a.world (.sys y) with
      | none => rw [h1] at hl; cases hl
      | some w1 =>
        rw [h1] at hl
        simp only [Option.some.injEq] at hl
        subst hl
        exact world_fed hrw h1 hm hm' (by simp)
  cases x with
  | world y =>
    simp only [App.induced, worldSteps] at hw
    cases h1 : World.step cfg a.world y with
    | none => rw [h1] at hw; cases hw
    | some w1 =>
      rw [h1] at hw
      simp only [Option.some.injEq] at hw
      subst hw
      exact world_fed hrw h1 hm hm' fun c e => hx c (by rw [e])
  | start c => exact few [] (.inl rfl) hw
  | run k =>
    simp only [App.induced] at hw
    split at hw
    · rename_i j hj
      refine few _ ?_ hw
      cases hja : j.acts a.world.sys with
      | none => exact .inl rfl
      | some as => exact acts_short hja
    · exact few [] (.inl rfl) hw
  | drop k =>
    simp only [App.induced] at hw
    split at hw
    · exact few _ drop_short hw
    · exact few [] (.inl rfl) hw

/-- What happens to the consumer in step `n`. -/
def onConsumer (σ : Nat → App.State T) (acts : Nat → App.Act) (n : Nat) : Option Consumer.Act :=
  match acts n with
  | .world (.app a) => some a
  | _ => match (σ (n + 1)).world.app.inbox.drop (σ n).world.app.inbox.length with
    | [] => none
    | e :: _ => some (.deliver e)

theorem on_app {σ : Nat → App.State T} {acts : Nat → App.Act} {n : Nat} {c : Consumer.Act} (h : acts n = .world (.app c)) :
    onConsumer σ acts n = some c := by
  unfold onConsumer; rw [h]

theorem on_other {σ : Nat → App.State T} {acts : Nat → App.Act} {n : Nat} {c : Consumer.Act} (h : onConsumer σ acts n = some c)
    (hc : ∀ e, c ≠ .deliver e) : acts n = .world (.app c) := by
  unfold onConsumer at h
  split at h
  · rename_i a ha; cases h; exact ha
  · split at h
    · cases h
    · cases h; exact absurd rfl (hc _)

theorem consumer_forever {cfg : World.Cfg T} {σ : Nat → App.State T} {acts : Nat → App.Act} (h : App.Forever cfg σ acts)
    (hm : ∀ n, (σ n).world.sys.mode ≠ .stopped) :
    Consumer.Forever cfg.app [] (fun n => (σ n).world.app) (onConsumer σ acts) := by
  refine ⟨?_, fun n => ?_⟩
  · rw [h.start]; exact .nil
  · obtain ⟨as, log, hr⟩ := run_at h n
    by_cases hx : ∃ c, acts n = .world (.app c)
    · obtain ⟨c, hc⟩ := hx
      rw [on_app hc]
      have hs := h.steps n
      rw [hc] at hs
      obtain ⟨_, hw, _⟩ := step_some hs
      simp only [App.induced, worldSteps] at hw
      cases h1 : World.step cfg (σ n).world (.app c) with
      | none => rw [h1] at hw; cases hw
      | some w1 =>
        rw [h1] at hw
        simp only [Option.some.injEq] at hw
        simp only [World.step] at h1
        split at h1
        · split at h1
          · rename_i app ha
            split at h1
            · cases h1
              dsimp only
              rw [ha, ← hw]
            · cases h1
          · cases h1
        · cases h1
    · have hf := app_fed hr (h.steps n) (hm n) (hm (n + 1)) fun c e => hx ⟨c, e⟩
      have ho : (σ n).world.app.isOpen = true := by
        obtain ⟨_, _, hp⟩ := proj (run_world hr)
        rw [hp.isOpen]; exact end_open (hm n) _
      have hon : onConsumer σ acts n = match (σ (n + 1)).world.app.inbox.drop (σ n).world.app.inbox.length with
          | [] => none
          | e :: _ => some (.deliver e) := by
        unfold onConsumer
        split
        · rename_i c hc; exact absurd ⟨c, hc⟩ hx
        · rfl
      rcases hf with he | ⟨e, he⟩
      · rw [hon, he]; simp
      · rw [hon, he]
        simp [Consumer.step, ho]

theorem fair_receiver {cfg : World.Cfg T} {σ : Nat → App.State T} {acts : Nat → App.Act} (h : App.Forever cfg σ acts)
    (hm : ∀ n, (σ n).world.sys.mode ≠ .stopped) (hA : App.Attended cfg σ acts) :
    Consumer.Attended cfg.app (fun n => (σ n).world.app) (onConsumer σ acts) := by
  refine ⟨fun n => ?_, fun i hi => ?_, fun i hi => ?_⟩
  · obtain ⟨as, log, hr⟩ := run_at h n
    obtain ⟨_, _, hp⟩ := proj (run_world hr)
    show (σ n).world.app.isOpen = true
    rw [hp.isOpen]; exact end_open (hm n) _
  · intro n
    obtain ⟨m, h1, h2⟩ := hA.calls i (fun n => by
      obtain ⟨m, h1, s', h2⟩ := hi n
      obtain ⟨as, log, hr⟩ := run_at h m
      obtain ⟨w', hw, _⟩ := C70_calls_go_on (run_world hr) h2
      refine ⟨m, h1, ⟨w', (σ m).jobs⟩, ?_⟩
      simp only [App.step, App.possible, App.free, if_true, App.induced, worldSteps, hw]
      rfl) n
    exact ⟨m, h1, on_app h2⟩
  · intro n
    obtain ⟨m, h1, r, h2⟩ := hA.plugins i hi n
    exact ⟨m, h1, r, on_app h2⟩

theorem no_batches {cfg : World.Cfg T} {σ : Nat → App.State T} {acts : Nat → App.Act} (hb : NoBatches acts) (n k : Nat) :
    Consumer.Job.batch k ∉ Consumer.jobs (Consumer.history [] (onConsumer σ acts) n) := by
  induction n with
  | zero => simp [Consumer.history, Consumer.jobs]
  | succ n ih =>
    simp only [Consumer.history, Consumer.jobs_append, List.mem_append, not_or]
    refine ⟨ih, ?_⟩
    cases ho : onConsumer σ acts n with
    | none => simp [Consumer.jobs]
    | some c =>
      cases c with
      | spawn j =>
        have := on_other ho (by simp)
        simp only [Option.toList_some, Consumer.jobs, List.mem_singleton]
        rintro rfl
        exact hb n k this
      | deliver e => cases e <;> simp [Consumer.jobs]
      | _ => simp [Consumer.jobs]

/-- What has been delivered to the consumer is what its client has received. -/
theorem delivered_received {cfg : World.Cfg T} {σ : Nat → App.State T} {acts : Nat → App.Act} (h : App.Forever cfg σ acts)
    (hm : ∀ n, (σ n).world.sys.mode ≠ .stopped) {n : Nat} (hi : cfg.me < (σ n).world.sys.nClients) :
    Consumer.delivered (Consumer.history [] (onConsumer σ acts) n) = received (sysOf σ n) cfg.me := by
  obtain ⟨as, log, hr⟩ := run_at h n
  obtain ⟨log', appLog, hp⟩ := proj (run_world hr)
  have h1 := Consumer.received_delivered ((consumer_forever h hm).run n)
  have h2 := Consumer.received_delivered hp.app
  rw [← h1, h2, hp.delivered]
  have hr' : Sys.Reachable cfg.sys (σ n).world.sys := ⟨_, hp.sys⟩
  unfold received Sys.addressedTo sysOf
  symm
  rw [List.filter_eq_self]
  intro m hmem
  unfold Sys.messagesIn at hmem
  rw [List.mem_filterMap] at hmem
  obtain ⟨e, he, hem⟩ := hmem
  have he' : e.inb = .message m := by
    cases hx : e.inb <;> simp [hx] at hem
    rw [hem]
  have := C26_ids hr' hi he (id := m.consumerId) (by rw [he']; rfl)
  rw [(Sys.wf hr').ids _ hi] at *
  simpa using this.symm

theorem does_short {cfg : World.Cfg T} {a : App.State T} {x : App.Act} :
    App.does cfg a x = [] ∨ (∃ y, App.does cfg a x = [y]) ∨ ∃ i c y, App.does cfg a x = [.beginCall i c, y] := by
  cases x with
  | start c => exact .inl rfl
  | run k =>
    simp only [App.does]
    split
    · rename_i j hj
      cases hja : j.acts a.world.sys with
      | none => exact .inl rfl
      | some as =>
        rcases acts_short hja with rfl | ⟨y, rfl⟩
        · exact .inl rfl
        · exact .inr (.inl ⟨y, rfl⟩)
    · exact .inl rfl
  | drop k =>
    simp only [App.does]
    split
    · rcases drop_short (s := a.world.sys) (j := ‹_›) with h | ⟨y, h⟩
      · exact .inl h
      · exact .inr (.inl ⟨y, h⟩)
    · exact .inl rfl
  | world x =>
    cases x with
    | arrive | hold | serve => exact .inl rfl
    | poll b ans =>
      simp only [App.does, World.does]
      cases item ans (Framed.pollNext (a.world.rx b).framed (a.world.rx b).socket).1 with
      | none => exact .inl rfl
      | some it => exact .inr (.inl ⟨_, rfl⟩)
    | write b now io =>
      simp only [App.does, World.does]
      split
      · exact .inr (.inl ⟨_, rfl⟩)
      · split
        · exact .inr (.inl ⟨_, rfl⟩)
        · exact .inl rfl
    | sys y => exact .inr (.inl ⟨y, rfl⟩)
    | app y =>
      simp only [App.does, World.does, World.induced]
      repeat' split
      all_goals first
        | exact .inl rfl
        | exact .inr (.inl ⟨_, rfl⟩)
        | exact .inr (.inr ⟨_, _, _, rfl⟩)

/-- A client that is attached before and after a round is attached during it. -/
theorem round_path {cfg : World.Cfg T} {σ : Nat → App.State T} {acts : Nat → App.Act} (h : App.Forever cfg σ acts) {i n : Nat} {b : BrokerAddress}
    (h1 : Attached i b (sysOf σ n)) (h2 : Attached i b (sysOf σ (n + 1))) :
    Sys.Path cfg.sys (Attached i b) (sysOf σ n) (roundsOf cfg σ acts n) (sysOf σ (n + 1)) := by
  have hd := app_does (h.steps n)
  unfold roundsOf
  revert hd
  show sysSteps cfg.sys (sysOf σ n) _ = some (sysOf σ (n + 1)) → _
  intro hd
  rcases does_short (cfg := cfg) (a := σ n) (x := acts n) with he | ⟨y, he⟩ | ⟨i', c, y, he⟩
  · rw [he] at hd ⊢
    simp only [sysSteps, Option.some.injEq] at hd
    rw [← hd]; exact .nil h1
  · rw [he] at hd ⊢
    simp only [sysSteps] at hd
    cases hs : Sys.step cfg.sys (sysOf σ n) y with
    | none => rw [hs] at hd; cases hd
    | some s1 =>
      rw [hs] at hd
      simp only [Option.some.injEq] at hd
      subst hd
      exact .snoc (as := []) (.nil h1) hs h2
  · rw [he] at hd ⊢
    simp only [sysSteps] at hd
    cases hs : Sys.step cfg.sys (sysOf σ n) (.beginCall i' c) with
    | none => rw [hs] at hd; cases hd
    | some s1 =>
      rw [hs] at hd
      dsimp only at hd
      cases hs' : Sys.step cfg.sys s1 y with
      | none => rw [hs'] at hd; cases hd
      | some s2 =>
        simp only [hs', Option.some.injEq] at hd
        subst hd
        refine .snoc (as := [_]) (.snoc (as := []) (.nil h1) hs ?_) hs' h2
        rcases begin_attached i b _ _ _ _ hs (.inl h1) with hx | hx
        · exact hx
        · exfalso
          have : s1.mode = (sysOf σ n).mode := by
            cases Sys.step_cases hs with
            | request | oneway => rfl
          rw [this] at hx
          exact h1.2.2.2 hx

end Neutron.Props
