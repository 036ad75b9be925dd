import Verif.Spec.Waiting
import Verif.Proof.AppLive

/-!
# C120: a call is held up only by what it waits for
-/

namespace Neutron.Props

open Neutron App World

variable {T : Type}

theorem outcome_none {s : Sys.State} {t : Nat} : outcome s t = none ↔ Unsettled s t := by
  unfold outcome Unsettled
  constructor
  · intro h res hm
    cases hf : s.outcomes.find? (fun p => p.1 == t) with
    | none =>
      have := List.find?_eq_none.mp hf _ hm
      simp at this
    | some p =>
      rw [hf] at h
      obtain ⟨t', r⟩ := p
      cases r <;> simp at h
  · intro h
    cases hf : s.outcomes.find? (fun p => p.1 == t) with
    | none => rfl
    | some p =>
      obtain ⟨t', r⟩ := p
      have h1 := List.find?_some hf
      have h2 := List.mem_of_find?_eq_some hf
      simp only [beq_iff_eq] at h1
      subst h1
      exact absurd h2 (h r)

theorem run_one {cfg : World.Cfg T} {a : App.State T} {k : Nat} {j : Job} {y : Sys.Act} {s' : Sys.State} (hk : a.jobs[k]? = some j)
    (hl : j.live = true) (ha : j.acts a.world.sys = some [y]) (hf : World.free cfg a.world y = true)
    (hs : Sys.step cfg.sys a.world.sys y = some s') : ∃ a', App.step cfg a (.run k) = some a' := by
  have hp : App.possible cfg a (.run k) = true := by simp [App.possible, hk, hl, ha]
  let w := { a.world with serving := if World.engine y then none else a.world.serving }
  refine ⟨⟨World.sync cfg w s', jobsAfter a (World.sync cfg w s').sys (.run k)⟩, ?_⟩
  unfold App.step
  rw [if_pos hp]
  have : worldSteps cfg a.world (App.induced a (.run k)) = some (World.sync cfg w s') := by
    simp only [w, App.induced, hk, ha, Option.getD_some, List.map_cons, List.map_nil, worldSteps, World.step, hf, if_true, hs]
  rw [this]

theorem run_none {cfg : World.Cfg T} {a : App.State T} {k : Nat} {j : Job} (hk : a.jobs[k]? = some j)
    (hl : j.live = true) (ha : j.acts a.world.sys = some []) : ∃ a', App.step cfg a (.run k) = some a' := by
  have hp : App.possible cfg a (.run k) = true := by simp [App.possible, hk, hl, ha]
  refine ⟨⟨a.world, jobsAfter a a.world.sys (.run k)⟩, ?_⟩
  unfold App.step
  rw [if_pos hp]
  simp only [App.induced, hk, ha, Option.getD_some, List.map_nil, worldSteps]

theorem no_starting {cfg : World.Cfg T} {acts : List App.Act} {log : List World.Act} {a : App.State T} (h : App.Run cfg acts log a)
    {j : Job} (hj : j ∈ a.jobs) (ho : j.owns = true) {i : Nat} (hu : j.uses i = true) (hh : j.handing = none) :
    (a.world.sys.clients i).starting = [] := by
  have := ((own_of h).mine j hj ho i hu).starting
  rw [pending_nil hh] at this
  simpa [Sys.issueAll] using this

theorem drop_free {cfg : World.Cfg T} {acts : List App.Act} {log : List World.Act} {a : App.State T} (h : App.Run cfg acts log a)
    {j : Job} (hj : j ∈ a.jobs) (ho : j.owns = true) {i : Nat} (hu : j.uses i = true) :
    World.free cfg a.world (.dropClient i) = true := by
  simp only [World.free, Bool.or_eq_true, decide_eq_true_eq]
  by_cases hi : i = cfg.me
  · right
    subst hi
    rw [(own_of h).tasks j hj ho hu]
    rfl
  · exact .inl hi

/-- **C120.** A call in progress can make a step, unless it waits for the response to a request that has been neither answered nor
dropped, or for the engine's reply to the registration of its client; then it cannot. -/
theorem C120_progress {cfg : World.Cfg T} {acts : List App.Act} {log : List World.Act} {a : App.State T} (h : App.Run cfg acts log a)
    {k : Nat} {j : Job} (hk : a.jobs[k]? = some j) (hl : j.live = true) (he : j.ended = none) :
    (∃ a', App.step cfg a (.run k) = some a') ↔ ¬ Held a.world.sys j := by
  have hj := List.mem_of_getElem? hk
  have hkind := kind h j hj
  have hlive := live_of h
  have hown := owner hkind (owns_made h j hj)
  constructor
  · rintro ⟨a', hs⟩ (⟨t, ⟨core, call, q, q', hp⟩, hu⟩ | ⟨i, ⟨hc, topic, id, q, hp⟩, h1, h2, h3⟩)
    · have := (step_some hs).1
      simp only [App.possible, hk, Bool.and_eq_true] at this
      obtain ⟨as, ha⟩ := Option.isSome_iff_exists.mp this.2
      cases doing ha with
      | wait core t c q q' i hp' hc ho =>
        rw [hp] at hp'
        cases hp'
        rw [outcome_none.mpr hu] at ho
        cases ho
      | _ => simp_all
    · obtain ⟨_, hw, _⟩ := step_some hs
      simp [App.induced, hk, Job.acts, hp, hc, h1, worldSteps, World.step, World.free, Sys.step, Sys.recvReply, h2, h3] at hw
  · intro hn
    cases hp : j.prog with
    | ret o => rw [ended_ret.mpr hp] at he; cases he
    | newId q =>
      have hm := hlive.manager j hj (hown.1 q hp) hl he
      have hs : ∃ s', Sys.step cfg.sys a.world.sys (.newClient j.name) = some s' := by
        simp [Sys.step, Sys.newClient, hm]
      obtain ⟨s', hs⟩ := hs
      exact run_one hk hl (by simp only [Job.acts, hp]) rfl hs
    | register topic id q =>
      have hm := hlive.manager j hj (hown.2 _ _ _ hp) hl he
      have hc : ∃ i, j.client = some i := by
        have stage : ∀ {name topic : String} {p : Prog Unit}, Stage name topic p j → ∃ i, j.client = some i := by
          intro name topic p hst
          cases hst with
          | new _ hp' => rw [hp] at hp'; cases hp'
          | registering i hc => exact ⟨i, hc⟩
          | refused i hc => exact ⟨i, hc⟩
          | calls i _ hc => exact ⟨i, hc⟩
        cases hkind with
        | missing hp' => rw [hp] at hp'; cases hp'
        | consumer b name topic subscription hb hm hn hs => exact stage hs
        | producer b name topic hb hm hn hs => exact stage hs
        | call i _ _ _ _ hc => exact ⟨i, hc⟩
      obtain ⟨i, hc⟩ := hc
      have hu := uses_iff.mpr ⟨hl, he, hc⟩
      have hlt := lt_of_uses h hj hu
      have hf := hlive.phase j hj i hu
      rw [hp] at hf
      rcases hf with hf | hf
      · have hs : ∃ s', Sys.step cfg.sys a.world.sys (.sendReg i) = some s' := by
          simp only [Sys.step, Sys.sendReg, hm, hlt, hf, and_self, if_true]
          split <;> exact ⟨_, rfl⟩
        obtain ⟨s', hs⟩ := hs
        exact run_one hk hl (by simp only [Job.acts, hp, hc, hf, if_true]) rfl hs
      · have hs : ∃ s', Sys.step cfg.sys a.world.sys (.recvReply i) = some s' := by
          simp only [Sys.step, Sys.recvReply, hm, hlt, hf, and_self, if_true]
          split
          · exact ⟨_, rfl⟩
          · split
            · exact ⟨_, rfl⟩
            · rename_i hr hst
              exact absurd (.inr ⟨i, ⟨hc, topic, id, q, hp⟩, hf, by omega, hst⟩) hn
        obtain ⟨s', hs⟩ := hs
        exact run_one hk hl (by simp [Job.acts, hp, hc, hf]) rfl hs
    | session core p q' =>
      obtain ⟨rfl, i, hc⟩ := kind_ret hkind hp
      have hu := uses_iff.mpr ⟨hl, he, hc⟩
      have hlt := lt_of_uses h hj hu
      have hf := hlive.phase j hj i hu
      rw [hp] at hf
      have hf : (a.world.sys.clients i).phase = .ready := hf
      cases p with
      | hand call q =>
        cases hh : j.handing with
        | none =>
          have hs : ∃ s', Sys.step cfg.sys a.world.sys (.beginCall i call) = some s' := by
            simp only [Sys.step, Sys.beginCall]
            rw [if_pos ⟨hlt, hf⟩]
            split <;> exact ⟨_, rfl⟩
          obtain ⟨s', hs⟩ := hs
          exact run_one hk hl (by simp only [Job.acts, hp, hc, hh]) rfl hs
        | some tok =>
          have hmem : tok ∈ (a.world.sys.clients i).starting.map Sys.ClientCmd.tok := by
            refine List.count_pos_iff.mp ?_
            rw [hlive.starting i tok hlt]
            exact List.countP_pos_iff.mpr ⟨j, hj, by simp [Job.puts, hc, hh]⟩
          obtain ⟨cmd, hcmd, htok⟩ := List.mem_map.mp hmem
          have hslot : slot a.world.sys i tok < (a.world.sys.clients i).starting.length := by
            unfold slot
            exact List.findIdx_lt_length_of_exists ⟨cmd, hcmd, by rw [htok]; exact beq_self_eq_true (α := Option Nat) tok⟩
          have hs : ∃ s', Sys.step cfg.sys a.world.sys (.submit i (slot a.world.sys i tok)) = some s' := by
            simp only [Sys.step, Sys.submit, hlt, if_true, List.getElem?_eq_getElem hslot]
            split <;> exact ⟨_, rfl⟩
          obtain ⟨s', hs⟩ := hs
          exact run_one hk hl (by simp only [Job.acts, hp, hc, hh]) rfl hs
      | wait t call q =>
        cases ho : outcome a.world.sys t with
        | none => exact absurd (.inl ⟨t, ⟨core, call, q, _, hp⟩, outcome_none.mp ho⟩) hn
        | some x => exact run_none hk hl (by simp [Job.acts, hp, hc, ho])
      | ret o =>
        have hh := handing_prog (handing_ok h j hj) (fun core call k k' h => by rw [hp] at h; cases h)
        by_cases ho : j.owns = true
        · cases o with
          | ok u => exact run_none hk hl (by simp only [Job.acts, hp, hc])
          | err e | panic =>
            have hs : ∃ s', Sys.step cfg.sys a.world.sys (.dropClient i) = some s' := by
              simp only [Sys.step, Sys.dropClient]
              rw [if_pos ⟨hlt, hf, no_starting h hj ho hu hh⟩]
              exact ⟨_, rfl⟩
            obtain ⟨s', hs⟩ := hs
            exact run_one hk hl (by simp only [Job.acts, hp, hc, ho, if_true]) (drop_free h hj ho hu) hs
        · have ho : j.owns = false := by simpa using ho
          cases o with
          | ok u => exact run_none hk hl (by simp only [Job.acts, hp, hc])
          | err e | panic => exact run_none hk hl (by simp [Job.acts, hp, hc, ho])

/-- Making steps of its own, the call ends, or comes to wait. -/
def Settles (cfg : World.Cfg T) (acts : List App.Act) (k : Nat) (c : Start) : Prop :=
  ∃ n log a j, App.Run cfg (acts ++ List.replicate n (.run k)) log a ∧ a.jobs[k]? = some j ∧ j.live = true ∧ j.made = c ∧
    ((∃ o, j.ended = some o) ∨ Held a.world.sys j)

theorem settles_step {cfg : World.Cfg T} {acts : List App.Act} {k : Nat} {c : Start} (h : Settles cfg (acts ++ [.run k]) k c) :
    Settles cfg acts k c := by
  obtain ⟨n, log, a, j, h1, h2⟩ := h
  refine ⟨n + 1, log, a, j, ?_, h2⟩
  rw [List.replicate_succ]
  simpa using h1

/-- One step of a call that does not wait. -/
theorem own_step {cfg : World.Cfg T} {acts : List App.Act} {log : List World.Act} {a : App.State T} (h : App.Run cfg acts log a)
    {k : Nat} {j : Job} (hk : a.jobs[k]? = some j) (hl : j.live = true) (he : j.ended = none) (hh : ¬ Held a.world.sys j) :
    ∃ as log' a', App.Run cfg (acts ++ [.run k]) log' a' ∧ log' = log ++ as.map .sys ∧ j.acts a.world.sys = some as ∧
      sysSteps cfg.sys a.world.sys as = some a'.world.sys ∧ a'.jobs[k]? = some (j.after a.world.sys a'.world.sys) ∧
      (j.after a.world.sys a'.world.sys).live = true ∧ (j.after a.world.sys a'.world.sys).made = j.made := by
  obtain ⟨a', hs⟩ := (C120_progress h hk hl he).mpr hh
  obtain ⟨hp, hw, hj⟩ := step_some hs
  simp only [App.possible, hk, Bool.and_eq_true] at hp
  obtain ⟨as, ha⟩ := Option.isSome_iff_exists.mp hp.2
  simp only [App.induced, hk, ha, Option.getD_some] at hw
  obtain ⟨m1, _, _, m4, _⟩ := after_made a.world.sys a'.world.sys j
  refine ⟨as, _, a', .snoc h hs, by simp [App.induced, hk, ha], ha, worldSteps_sys hw, ?_, by rw [m4, hl], m1⟩
  rw [hj]
  simp [jobsAfter, hk]

theorem settles_session {cfg : World.Cfg T} {k : Nat} {c : Start} {core : Client} (p : Prog Unit) :
    ∀ {acts : List App.Act} {log : List World.Act} {a : App.State T}, App.Run cfg acts log a → ∀ {j : Job}, a.jobs[k]? = some j →
      j.live = true → j.made = c → j.prog = .session core p .ret → Settles cfg acts k c := by
  induction p with
  | ret o =>
    intro acts log a h j hk hl hm hp
    have he : j.ended = none := by unfold Job.ended; rw [hp]
    by_cases hh : Held a.world.sys j
    · exact ⟨0, log, a, j, by simpa using h, hk, hl, hm, .inr hh⟩
    · obtain ⟨as, log', a', h', _, ha, _, hk', hl', hm'⟩ := own_step h hk hl he hh
      obtain ⟨_, i, hc⟩ := kind_ret (kind h j (List.mem_of_getElem? hk)) hp
      refine settles_step ⟨0, log', a', _, by simpa using h', hk', hl', hm'.trans hm, .inl ⟨o, ended_ret.mpr ?_⟩⟩
      unfold Job.after; rw [hp, hc]
  | wait t call q ih =>
    intro acts log a h j hk hl hm hp
    have he : j.ended = none := by unfold Job.ended; rw [hp]
    by_cases hh : Held a.world.sys j
    · exact ⟨0, log, a, j, by simpa using h, hk, hl, hm, .inr hh⟩
    · obtain ⟨as, log', a', h', _, ha, _, hk', hl', hm'⟩ := own_step h hk hl he hh
      obtain ⟨_, i, hc⟩ := kind_ret (kind h j (List.mem_of_getElem? hk)) hp
      cases ho : outcome a.world.sys t with
      | none => exact absurd (.inl ⟨t, ⟨core, call, q, _, hp⟩, outcome_none.mp ho⟩) hh
      | some x =>
        refine settles_step (ih (call.resolve x) h' hk' hl' (hm'.trans hm) ?_)
        unfold Job.after; rw [hp, hc]; simp only [ho]
  | hand call q ih =>
    intro acts log a h j hk hl hm hp
    have notHeld : ∀ (s : Sys.State) (j' : Job), j'.prog = .session core (.hand call q) .ret → ¬ Held s j' := by
      rintro s j' hp' (⟨t, ⟨_, _, _, _, h1⟩, _⟩ | ⟨i, ⟨_, _, _, _, h1⟩, _⟩) <;> rw [hp'] at h1 <;> cases h1
    have second : ∀ {acts : List App.Act} {log : List World.Act} {a : App.State T}, App.Run cfg acts log a → ∀ {j : Job},
        a.jobs[k]? = some j → j.live = true → j.made = c → j.prog = .session core (.hand call q) .ret → ∀ tok, j.handing = some tok →
        Settles cfg acts k c := by
      intro acts log a h j hk hl hm hp tok hg
      have he : j.ended = none := by unfold Job.ended; rw [hp]
      obtain ⟨as, log', a', h', _, ha, _, hk', hl', hm'⟩ := own_step h hk hl he (notHeld _ _ hp)
      obtain ⟨_, i, hc⟩ := kind_ret (kind h j (List.mem_of_getElem? hk)) hp
      refine settles_step (ih (if Sys.engineEnd a.world.sys i then .ok (tok.getD 0) else .err .channelTerminated) h' hk' hl'
        (hm'.trans hm) ?_)
      rw [after_put hp hc hg]
    cases hg : j.handing with
    | some tok => exact second h hk hl hm hp tok hg
    | none =>
      have he : j.ended = none := by unfold Job.ended; rw [hp]
      obtain ⟨as, log', a', h', _, ha, _, hk', hl', hm'⟩ := own_step h hk hl he (notHeld _ _ hp)
      obtain ⟨_, i, hc⟩ := kind_ret (kind h j (List.mem_of_getElem? hk)) hp
      rw [after_begin hp hc hg] at hk' hl' hm'
      exact settles_step (second h' hk' hl' (hm'.trans hm) hp _ rfl)

theorem stage_register {j : Job} (h : Kind j) {topic : String} {id : UInt64} {q : Outcome Unit → Setup Unit}
    (hp : j.prog = .register topic id q) : (∃ i, j.client = some i) ∧ ∃ name p, q = registered name p id := by
  have stage : ∀ {name topic : String} {p : Prog Unit}, Stage name topic p j → (∃ i, j.client = some i) ∧
      ∃ name p, q = registered name p id := by
    intro name topic p hst
    cases hst with
    | new _ hp' => rw [hp] at hp'; cases hp'
    | registering i hc _ hp' => rw [hp] at hp'; cases hp'; exact ⟨⟨i, hc⟩, _, _, rfl⟩
    | refused _ _ hp' => rw [hp] at hp'; cases hp'
    | calls _ _ _ hp' => cases hp' with
      | running _ hp' => rw [hp] at hp'; cases hp'
      | over _ hp' => rw [hp] at hp'; cases hp'
  cases h with
  | missing hp' => rw [hp] at hp'; cases hp'
  | consumer b name topic subscription hb hm hn hs => exact stage hs
  | producer b name topic hb hm hn hs => exact stage hs
  | call _ _ _ _ _ _ hp' => cases hp' with
    | running _ hp' => rw [hp] at hp'; cases hp'
    | over _ hp' => rw [hp] at hp'; cases hp'

theorem settles_after_reg {cfg : World.Cfg T} {k : Nat} {c : Start} {acts : List App.Act} {log : List World.Act} {a : App.State T}
    (h : App.Run cfg acts log a) {j : Job} (hk : a.jobs[k]? = some j) (hl : j.live = true) (hm : j.made = c) {name : String}
    {p : Prog Unit} {id : UInt64} {r : Outcome Unit} (hp : j.prog = registered name p id r) : Settles cfg acts k c := by
  cases r with
  | ok u => exact settles_session p h hk hl hm hp
  | err e => exact ⟨0, log, a, j, by simpa using h, hk, hl, hm, .inl ⟨_, ended_ret.mpr hp⟩⟩
  | panic => exact ⟨0, log, a, j, by simpa using h, hk, hl, hm, .inl ⟨_, ended_ret.mpr hp⟩⟩

theorem recv_phase {cfg : Sys.Cfg} {s s' : Sys.State} {i : Nat} (hs : sysSteps cfg s [.recvReply i] = some s') :
    (s'.clients i).phase = .ready ∨ (s'.clients i).phase = .gone := by
  simp only [sysSteps, Sys.step, Sys.recvReply] at hs
  split at hs
  · rename_i hx
    split at hx
    · split at hx
      · cases hx; cases hs; left; simp [Sys.State.setClient]
      · split at hx
        · cases hx; cases hs; right; simp [Sys.State.setClient]
        · cases hx
    · cases hx
  · cases hs

theorem send_phase {cfg : Sys.Cfg} {s s' : Sys.State} {i : Nat} (hs : sysSteps cfg s [.sendReg i] = some s') :
    (s'.clients i).phase = .waiting ∨ (s'.clients i).phase = .gone := by
  simp only [sysSteps, Sys.step, Sys.sendReg] at hs
  split at hs
  · rename_i hx
    split at hx
    · split at hx
      · cases hx; cases hs; right; simp [Sys.State.setClient]
      · cases hx; cases hs; left; simp [Sys.State.setClient]
    · cases hx
  · cases hs

theorem settles_waiting {cfg : World.Cfg T} {k : Nat} {c : Start} {acts : List App.Act} {log : List World.Act} {a : App.State T}
    (h : App.Run cfg acts log a) {j : Job} (hk : a.jobs[k]? = some j) (hl : j.live = true) (hm : j.made = c) {topic : String}
    {id : UInt64} {q : Outcome Unit → Setup Unit} (hp : j.prog = .register topic id q) {i : Nat} (hc : j.client = some i)
    (hf : (a.world.sys.clients i).phase = .waiting) : Settles cfg acts k c := by
  have he : j.ended = none := by unfold Job.ended; rw [hp]
  obtain ⟨_, name, p, rfl⟩ := stage_register (kind h j (List.mem_of_getElem? hk)) hp
  by_cases hh : Held a.world.sys j
  · exact ⟨0, log, a, j, by simpa using h, hk, hl, hm, .inr hh⟩
  · obtain ⟨as, log', a', h', _, ha, hs, hk', hl', hm'⟩ := own_step h hk hl he hh
    have hp' := after_reg (s := a.world.sys) (s' := a'.world.sys) hp hc
    have has : as = [.recvReply i] := by
      simp [Job.acts, hp, hc, hf] at ha
      exact ha.symm
    subst has
    have hph := recv_phase hs
    rcases hph with hph | hph <;>
    · rw [hph] at hp'
      exact settles_step (settles_after_reg h' hk' hl' (hm'.trans hm) hp')

theorem settles_register {cfg : World.Cfg T} {k : Nat} {c : Start} {acts : List App.Act} {log : List World.Act} {a : App.State T}
    (h : App.Run cfg acts log a) {j : Job} (hk : a.jobs[k]? = some j) (hl : j.live = true) (hm : j.made = c) {topic : String}
    {id : UInt64} {q : Outcome Unit → Setup Unit} (hp : j.prog = .register topic id q) : Settles cfg acts k c := by
  have he : j.ended = none := by unfold Job.ended; rw [hp]
  have hj := List.mem_of_getElem? hk
  obtain ⟨⟨i, hc⟩, name, p, rfl⟩ := stage_register (kind h j hj) hp
  have hf := (live_of h).phase j hj i (uses_iff.mpr ⟨hl, he, hc⟩)
  rw [hp] at hf
  rcases hf with hf | hf
  · have hh : ¬ Held a.world.sys j := by
      rintro (⟨t, ⟨_, _, _, _, h1⟩, _⟩ | ⟨i', ⟨h1, _⟩, h2, _⟩)
      · rw [hp] at h1; cases h1
      · rw [hc] at h1; cases h1; rw [hf] at h2; cases h2
    obtain ⟨as, log', a', h', _, ha, hs, hk', hl', hm'⟩ := own_step h hk hl he hh
    have hp' := after_reg (s := a.world.sys) (s' := a'.world.sys) hp hc
    have has : as = [.sendReg i] := by
      simp only [Job.acts, hp, hc, hf, if_true, Option.some.injEq] at ha
      exact ha.symm
    subst has
    have hph := send_phase hs
    rcases hph with hph | hph
    · rw [hph] at hp'
      have hc' : (j.after a.world.sys a'.world.sys).client = some i := by
        unfold Job.after; rw [hp, hc]; simp only [hph, hc]
      exact settles_step (settles_waiting h' hk' hl' (hm'.trans hm) hp' hc' hph)
    · rw [hph] at hp'
      exact settles_step (settles_after_reg h' hk' hl' (hm'.trans hm) hp')
  · exact settles_waiting h hk hl hm hp hc hf

/-- **C120.** Left to itself, a call ends, or comes to wait for a response that has not arrived or for the reply to its
registration: it does not go on for ever, and nothing else keeps it. -/
theorem C120_returns {cfg : World.Cfg T} {acts : List App.Act} {log : List World.Act} {a : App.State T} (h : App.Run cfg acts log a)
    {k : Nat} {j : Job} (hk : a.jobs[k]? = some j) (hl : j.live = true) : Settles cfg acts k j.made := by
  have hj := List.mem_of_getElem? hk
  cases hp : j.prog with
  | ret o => exact ⟨0, log, a, j, by simpa using h, hk, hl, rfl, .inl ⟨o, ended_ret.mpr hp⟩⟩
  | session core p q =>
    obtain ⟨rfl, _⟩ := kind_ret (kind h j hj) hp
    exact settles_session p h hk hl rfl hp
  | register topic id q => exact settles_register h hk hl rfl hp
  | newId q =>
    have he : j.ended = none := by unfold Job.ended; rw [hp]
    have hh : ¬ Held a.world.sys j := by
      rintro (⟨t, ⟨_, _, _, _, h1⟩, _⟩ | ⟨i', ⟨_, _, _, _, h1⟩, _⟩) <;> rw [hp] at h1 <;> cases h1
    obtain ⟨as, log', a', h', _, ha, hs, hk', hl', hm'⟩ := own_step h hk hl he hh
    have hp' : (j.after a.world.sys a'.world.sys).prog = q (UInt64.ofNat a.world.sys.nClients) := by unfold Job.after; rw [hp]
    have hreg : ∃ topic id r, q (UInt64.ofNat a.world.sys.nClients) = .register topic id r := by
      have stage : ∀ {name topic : String} {p : Prog Unit}, Stage name topic p j →
          ∃ topic id r, q (UInt64.ofNat a.world.sys.nClients) = .register topic id r := by
        intro name topic p hst
        cases hst with
        | new _ hp' =>
          rw [hp] at hp'
          simp only [setup, Setup.newId.injEq] at hp'
          subst hp'
          exact ⟨_, _, _, rfl⟩
        | registering _ _ _ hp' => rw [hp] at hp'; cases hp'
        | refused _ _ hp' => rw [hp] at hp'; cases hp'
        | calls _ _ _ hp' => cases hp' with
          | running _ hp' => rw [hp] at hp'; cases hp'
          | over _ hp' => rw [hp] at hp'; cases hp'
      cases kind h j hj with
      | missing hp' => rw [hp] at hp'; cases hp'
      | consumer b name topic subscription hb hm hn hs => exact stage hs
      | producer b name topic hb hm hn hs => exact stage hs
      | call _ _ _ _ _ _ hp' => cases hp' with
        | running _ hp' => rw [hp] at hp'; cases hp'
        | over _ hp' => rw [hp] at hp'; cases hp'
    obtain ⟨topic, id, r, hr⟩ := hreg
    exact settles_step (settles_register h' hk' hl' hm' (hp'.trans hr))

/-- **C120.** A call can be dropped whenever it waits: dropping a `connect` drops its client, if it has one; dropping any other call leaves
the client as it is. -/
theorem C120_can_drop {cfg : World.Cfg T} {acts : List App.Act} {log : List World.Act} {a : App.State T} (h : App.Run cfg acts log a)
    {k : Nat} {j : Job} (hk : a.jobs[k]? = some j) (hl : j.live = true) (hw : Held a.world.sys j) :
    ∃ a', App.step cfg a (.drop k) = some a' ∧ ∀ i, j.client = some i →
      ((∃ b, j.made = .consumer b) ∨ (∃ b, j.made = .producer b) → (a'.world.sys.clients i).phase = .gone) ∧
      (∀ i' p, j.made = .call i' p → a'.world = a.world) := by
  have hj := List.mem_of_getElem? hk
  have he : j.ended = none := by
    rcases hw with ⟨t, ⟨_, _, _, _, h1⟩, _⟩ | ⟨i', ⟨_, _, _, _, h1⟩, _⟩ <;> unfold Job.ended <;> rw [h1]
  have hh : j.handing = none := by
    refine handing_prog (handing_ok h j hj) ?_
    intro core call q q' hp
    rcases hw with ⟨t, ⟨_, _, _, _, h1⟩, _⟩ | ⟨i', ⟨_, _, _, _, h1⟩, _⟩ <;> rw [hp] at h1 <;> cases h1
  have hp : App.possible cfg a (.drop k) = true := by simp [App.possible, hk, hl, he, hh]
  have howns := owns_made h j hj
  have none' : j.dropActs a.world.sys = [] → App.step cfg a (.drop k) = some ⟨a.world, jobsAfter a a.world.sys (.drop k)⟩ := by
    intro hd
    unfold App.step
    rw [if_pos hp]
    simp only [App.induced, hk, hd, List.map_nil, worldSteps]
  have one : ∀ y s', j.dropActs a.world.sys = [y] → World.free cfg a.world y = true → Sys.step cfg.sys a.world.sys y = some s' →
      App.step cfg a (.drop k) =
        some ⟨World.sync cfg { a.world with serving := if World.engine y then none else a.world.serving } s', jobsAfter a s' (.drop k)⟩ := by
    intro y s' hd hf hs
    unfold App.step
    rw [if_pos hp]
    simp only [App.induced, hk, hd, List.map_cons, List.map_nil, worldSteps, World.step, hf, if_true, hs, World.sync]
  cases hc : j.client with
  | none => exact ⟨_, none' (by simp [Job.dropActs, hc]), by simp⟩
  | some i =>
    have hu := uses_iff.mpr ⟨hl, he, hc⟩
    have hlt := lt_of_uses h hj hu
    cases ho : j.owns with
    | false =>
      refine ⟨_, none' (by simp [Job.dropActs, hc, ho]), fun i' _ => ⟨?_, fun _ _ _ => rfl⟩⟩
      rintro (⟨b, hb⟩ | ⟨b, hb⟩) <;> rw [hb, ho] at howns <;> cases howns
    | true =>
      have ncall : ∀ i' p, j.made ≠ .call i' p := by
        intro i' p hb; rw [hb, ho] at howns; cases howns
      by_cases hf : (a.world.sys.clients i).phase = .fresh ∨ (a.world.sys.clients i).phase = .waiting
      · refine ⟨_, one (.cancelReg i) (a.world.sys.setClient i { a.world.sys.clients i with phase := .gone })
          (by simp only [Job.dropActs, hc, ho, hf, if_true]) rfl ?_, ?_⟩
        · simp only [Sys.step, Sys.cancelReg]
          rw [if_pos ⟨hlt, hf⟩]
        · intro i' hi'
          cases hi'
          refine ⟨fun _ => ?_, fun i' p hb => absurd hb (ncall i' p)⟩
          show ((a.world.sys.setClient i { a.world.sys.clients i with phase := .gone }).clients i).phase = .gone
          simp [Sys.State.setClient]
      · have hr : (a.world.sys.clients i).phase = .ready := by
          have := (live_of h).phase j hj i hu
          rcases hw with ⟨t, ⟨_, _, _, _, h1⟩, _⟩ | ⟨i', ⟨_, _, _, _, h1⟩, _⟩
          · rw [h1] at this; exact this
          · rw [h1] at this; exact absurd this hf
        refine ⟨_, one (.dropClient i) (a.world.sys.setClient i { a.world.sys.clients i with phase := .gone })
          (by simp [Job.dropActs, hc, ho, hr]) (drop_free h hj ho hu) ?_, ?_⟩
        · simp only [Sys.step, Sys.dropClient]
          rw [if_pos ⟨hlt, hr, no_starting h hj ho hu hh⟩]
        · intro i' hi'
          cases hi'
          refine ⟨fun _ => ?_, fun i' p hb => absurd hb (ncall i' p)⟩
          show ((a.world.sys.setClient i { a.world.sys.clients i with phase := .gone }).clients i).phase = .gone
          simp [Sys.State.setClient]

end Neutron.Props
