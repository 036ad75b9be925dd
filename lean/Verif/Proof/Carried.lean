import Verif.Spec.Carried
import Verif.Props.Returns
import Verif.Props.Reach
import Verif.Props.AppAsked

/-!
# Lemmas for C146
-/

namespace Neutron.Sys

/-- Whoever has begun a call is registered, or its registration is on the way. -/
def Announced (s : State) : Prop := ∀ i, i < s.nClients →
  ((s.clients i).starting ≠ [] ∨ (s.clients i).submitted ≠ []) → i ∈ s.vec ∨ i ∈ s.regQueue

theorem Announced.congr {s s' : State} (h : Announced s) (hn : s'.nClients = s.nClients) (hv : s'.vec = s.vec)
    (hr : s'.regQueue = s.regQueue) (hp : ∀ k, (s'.clients k).starting = (s.clients k).starting)
    (hq : ∀ k, (s'.clients k).submitted = (s.clients k).submitted) : Announced s' := by
  intro i hi hx
  rw [hp, hq] at hx; rw [hv, hr]; exact h i (hn ▸ hi) hx

theorem announced {cfg : Cfg} {s : State} (h : Reachable cfg s) : Announced s := by
  refine h.induct (P := Announced) (fun i hi => absurd hi (Nat.not_lt_zero i)) ?_
  intro s a s' hr ih hs
  cases step_cases hs with
  | startOk net hm s2 h2 => rcases h2 with ⟨rfl, hb⟩ | ⟨hb, rfl⟩ <;> (apply ih.congr <;> simp)
  | out j auth net cmd q s'' hm hv ha hq he =>
    have h1 : Announced (takeCmd s j cmd q) := by
      apply ih.congr <;> simp
    cases he with
    | lost c c2 b s3 hcc h2 hb hp =>
      exact h1.congr (by simp [hp.nClients]) (by simp [hp.vec]) (by simp [hp.regQueue]) (fun k => by simp [hp.clients_starting])
        (fun k => by simp [hp.clients_submitted])
    | connecting c c2 b s3 k hcc h2 hb hp hj ha hl =>
      exact h1.congr (by simp [hp.nClients]) (by simp [hp.vec]) (by simp [hp.regQueue]) (fun k => by simp [hp.clients_starting])
        (fun k => by simp [hp.clients_submitted])
    | failed => exact h1
    | sent => exact h1
  | inb b e q s'' hm ha hv hq he => cases he <;> (apply ih.congr <;> simp)
  | connectOk => apply ih.congr <;> simp
  | reg j q hm hc hq hl | regFail j q hm hc hq hl =>
    intro i hi hx
    have := ih i hi (by
      simp only [stop_clients, setClient_clients] at hx
      split at hx
      · rename_i hij; subst hij; exact hx
      · exact hx)
    rw [hq] at this
    simp only [stop_vec, stop_regQueue, List.mem_append, List.mem_cons, List.mem_singleton, List.not_mem_nil, or_false] at this ⊢
    rcases this with h | h | h
    · exact .inl (.inl h)
    · exact .inl (.inr h)
    · exact .inr h
  | sendReg j hl hj hp hm =>
    intro i hi hx
    by_cases hij : i = j
    · subst hij; exact .inr (by simp)
    · have := ih i hi (by simpa [setClient_clients, hij] using hx)
      rcases this with h | h
      · exact .inl h
      · exact .inr (by simp [h])
  | newClient name hl =>
    intro i hi hx
    by_cases hij : i = s.nClients
    · subst hij; simp [setClient_clients] at hx
    · simp only at hi
      exact ih i (by omega) (by simpa [setClient_clients, hij] using hx)
  | sendRegFail j | recvReplyFail j | cancelReg j | dropClient j | recvReply j | clientNext j | freeQueue j =>
    refine ih.congr (by simp) (by simp) (by simp) (fun k => ?_) (fun k => ?_)
    all_goals
      simp only [setClient_clients]; split
      · rename_i hk; subst hk; rfl
      · rfl
  | request j c hj hp | oneway j c hj hp =>
    intro i hi hx
    by_cases hij : i = j
    · subst hij; exact known hr i hj (.inr hp)
    · exact ih i (by simpa using hi) (by simpa [setClient_clients, hij] using hx)
  | submit j k cmd hj hk | refuse j k cmd hj hk =>
    intro i hi hx
    by_cases hij : i = j
    · subst hij
      refine ih i hj (.inl fun h0 => ?_)
      rw [h0] at hk; cases hk
    · exact ih i (by simpa using hi) (by simpa [setClient_clients, hij] using hx)
  | _ => apply ih.congr <;> simp

end Neutron.Sys

namespace Neutron.Props

open Neutron Neutron.App Neutron.World Neutron.Sys

variable {T : Type}

/-- A client that is served: what it has handed over is passed on. -/
theorem served_passes {cfg : World.Cfg T} {σ : Nat → App.State T} {acts : Nat → App.Act} (h : App.Forever cfg σ acts)
    (hl : KeepsLooping (sysOf σ)) (hb : ∀ n, (sysOf σ n).nClients ≤ 2 ^ 64) {i : Nat} (hs : Served cfg σ acts i) {n : Nat}
    (hv : i ∈ (sysOf σ n).vec) : ∃ m, n ≤ m ∧ ((sysOf σ n).clients i).submitted <+: (passedOn (sysOf σ m).sent i).map (·.2) := by
  rcases hs with ⟨hf, hs⟩ | ⟨ht, hf⟩
  · obtain ⟨before, y, after, hsp, rfl, hbf⟩ := split_first (fun z => z = i) _ i hv rfl
    exact C143_commands (app_forever h) hl hf hb hsp fun i' hi' => hs i' ⟨hbf i' hi', n, before, after, hsp, hi'⟩
  · obtain ⟨before, after, hsp⟩ := List.append_of_mem hv
    refine C143_in_turn (app_forever h) hf hb hsp fun N => ?_
    obtain ⟨m, hm, hid, hbf⟩ := ht (max n N)
    obtain ⟨r, hr⟩ := vec_to (app_forever h) (by omega : n ≤ m)
    exact ⟨m, by omega, hid, hbf before (after ++ r) (by rw [← hr, hsp]; simp)⟩

/-- What was passed on to a working connection is received. -/
theorem sent_received {cfg : World.Cfg T} {σ : Nat → App.State T} {acts : Nat → App.Act} (h : App.Forever cfg σ acts)
    (hp : KeepWorking cfg.sys (sysOf σ) (roundsOf cfg σ acts)) (hfit : ∀ n, World.Fits (σ n).world) {n : Nat} {b : BrokerAddress}
    {c : ConnCmd} (hc : (b, c) ∈ (sysOf σ n).sent) :
    ∃ m v now, n ≤ m ∧ Received ((σ m).world.tx b).sent v ∧ c.out.toCommand now = .ok v := by
  have hF := app_forever h
  have hr := forever_reachable hF n
  obtain ⟨m, hm, hpre⟩ := C143_written hF (hp.works b) (hp.writes b) n
  have hw : c ∈ ((sysOf σ m).conns b).written := by
    refine hpre.subset ?_
    have hacc : c ∈ ((sysOf σ n).conns b).accepted := by
      rw [(Sys.conn hr).accepted b]
      exact List.mem_filterMap.mpr ⟨(b, c), hc, by simp⟩
    rw [((Sys.conn hr).ok b).fifo] at hacc
    obtain ⟨⟨d, d1, d2, _⟩, _⟩ := path_writes (forever_reachable hF 0) (continues_to hF (Nat.zero_le n)) b (works_slice (hp.works b) _ _)
    have h0 : ((sysOf σ 0).conns b).processed = [] ∧ ((sysOf σ 0).conns b).written = [] := by
      unfold sysOf; rw [h.start]; exact ⟨rfl, rfl⟩
    rw [h0.1] at d1
    rw [h0.2] at d2
    rw [d1, ← d2] at hacc
    exact hacc
  obtain ⟨as, log, hrun⟩ := run_at h m
  obtain ⟨v, now, hv, hrec⟩ := received_written (run_world hrun) (hfit m) hw
  exact ⟨m, v, now, hm, hrec, hv⟩

theorem hands_within {α : Type} {p : Prog α} {evs : List Ev} {q : Prog α} (h : Within p evs q) : ∀ (cs : List Call), HandsOver cs p →
    (∀ c r, .handed c r ∈ evs → ∃ t, r = .ok t) →
    (∃ pre post, cs = pre ++ post ∧ HandsOver post q ∧ ∀ c ∈ pre, ∃ t, .handed c (.ok t) ∈ evs) := by
  induction h with
  | here => intro cs hc _; exact ⟨[], cs, rfl, hc, by simp⟩
  | hand r hw ih =>
    rename_i evs c k
    intro cs hc hok
    obtain ⟨t, rfl⟩ := hok c r (by simp)
    obtain ⟨pre, post, rfl, h1, h2⟩ := ih cs hc (fun c r hm => hok c r (by simp [hm]))
    cases post with
    | nil =>
      refine ⟨pre, [], rfl, ?_, fun c hm => ?_⟩
      · unfold HandsOver; trivial
      · obtain ⟨t, ht⟩ := h2 c hm; exact ⟨t, by simp [ht]⟩
    | cons c' post =>
      obtain ⟨rfl, h3⟩ := h1
      refine ⟨pre ++ [c], post, by simp, h3 t, fun c' hm => ?_⟩
      rcases List.mem_append.mp hm with hm | hm
      · obtain ⟨t, ht⟩ := h2 c' hm; exact ⟨t, by simp [ht]⟩
      · rw [List.mem_singleton] at hm; subst hm; exact ⟨t, by simp⟩
  | wait r hw ih =>
    intro cs hc hok
    obtain ⟨pre, post, rfl, h1, h2⟩ := ih cs hc (fun c r hm => hok c r (by simp [hm]))
    cases post with
    | nil =>
      refine ⟨pre, [], rfl, ?_, fun c hm => ?_⟩
      · unfold HandsOver; trivial
      · obtain ⟨t, ht⟩ := h2 c hm; exact ⟨t, by simp [ht]⟩
    | cons c' post => exact absurd h1 (by unfold HandsOver; simp)

/-- When the call waits or is over, it has handed over its commands. -/
theorem handed_by {cfg : World.Cfg T} {as : List App.Act} {log : List World.Act} {a : App.State T} (h : App.Run cfg as log a)
    (hm : a.world.sys.mode ≠ .stopped) {j : Job} (hj : j ∈ a.jobs) {i : Nat} {p : Prog Unit} (hmade : j.made = .call i p)
    {cs : List Call} (hc : HandsOver cs p) (hw : j.ended ≠ none ∨ ∃ t, j.Awaits t) :
    j.client = some i ∧ ∀ c ∈ cs, ∃ t, .handed c (.ok t) ∈ j.events := by
  obtain ⟨hcl, hin⟩ := within h j hj i p hmade
  refine ⟨hcl, ?_⟩
  have hok : ∀ c r, Ev.handed c r ∈ j.events → ∃ t, r = .ok t := by
    intro c r he
    obtain ⟨ev, hev, hx⟩ := List.mem_filterMap.mp he
    split at hx
    · rename_i core ev'
      cases hx
      have hf := (seen h j hj).events i hcl _ _ hev
      cases r with
      | ok t => exact ⟨t, rfl⟩
      | err e => exact absurd (refused_stopped h j hj core c e hev) hm
      | panic => exact hf.elim
    · cases hx
  have fin : ∀ q, Within p j.events q → ((∃ o, q = .ret o) ∨ ∃ t c k, q = .wait t c k) → ∀ c ∈ cs, ∃ t, .handed c (.ok t) ∈ j.events := by
    intro q hq hx
    obtain ⟨pre, post, rfl, h1, h2⟩ := hands_within hq cs hc hok
    cases post with
    | nil => simpa using h2
    | cons c post => rcases hx with ⟨o, rfl⟩ | ⟨t, c', k, rfl⟩ <;> exact h1.elim
  rcases hin with ⟨core, q, h1, h2⟩ | ⟨o, h1, h2⟩
  · rcases hw with hw | ⟨t, c', cl, q', q'', hw⟩
    · exact absurd (by unfold Job.ended; rw [h1]) hw
    · rw [h1] at hw
      cases hw
      exact fin _ h2 (.inr ⟨_, _, _, rfl⟩)
  · exact fin _ h2 (.inl ⟨o, rfl⟩)

theorem job_kept {cfg : World.Cfg T} {a a' : App.State T} {x : App.Act} (hs : App.step cfg a x = some a') {k : Nat} {j : Job}
    (hk : a.jobs[k]? = some j) : ∃ j', a'.jobs[k]? = some j' ∧ j'.made = j.made := by
  by_cases h1 : x = .run k
  · subst h1
    rw [(step_some hs).2.2]
    exact ⟨_, by simp [jobsAfter, hk]; rfl, (after_made _ _ _).1⟩
  · by_cases h2 : x = .drop k
    · subst h2
      rw [(step_some hs).2.2]
      exact ⟨{ j with live := false }, by simp [jobsAfter, hk], rfl⟩
    · exact ⟨j, job_same hs hk h1 h2, rfl⟩

theorem made_to {cfg : World.Cfg T} {σ : Nat → App.State T} {acts : Nat → App.Act} (h : App.Forever cfg σ acts) {k : Nat} {n m : Nat}
    (hnm : n ≤ m) {j : Job} (hk : (σ n).jobs[k]? = some j) : ∃ j', (σ m).jobs[k]? = some j' ∧ j'.made = j.made := by
  induction m with
  | zero => obtain rfl : n = 0 := by omega
            exact ⟨j, hk, rfl⟩
  | succ m ih =>
    by_cases he : n = m + 1
    · subst he; exact ⟨j, hk, rfl⟩
    · obtain ⟨j1, h1, h2⟩ := ih (by omega)
      obtain ⟨j2, h3, h4⟩ := job_kept (h.steps m) h1
      exact ⟨j2, h3, h4.trans h2⟩

theorem name_to {cfg : World.Cfg T} {σ : Nat → App.State T} {acts : Nat → App.Act} (h : App.Forever cfg σ acts) {i n m : Nat}
    (hnm : n ≤ m) (hi : i < (sysOf σ n).nClients) :
    ((sysOf σ m).clients i).core.clientName = ((sysOf σ n).clients i).core.clientName := by
  have key : ∀ {s s' : Sys.State} {as : List Sys.Act}, Continues cfg.sys s as s' → i < s.nClients →
      i < s'.nClients ∧ (s'.clients i).core.clientName = (s.clients i).core.clientName := by
    intro s s' as hp hi
    induction hp with
    | nil => exact ⟨hi, rfl⟩
    | snoc _ hs _ ih => exact ⟨Nat.lt_of_lt_of_le ih.1 (Sys.nClients_mono hs), (App.name_step hs ih.1).trans ih.2⟩
  exact (key (continues_to (app_forever h) hnm) hi).2

/-- A call comes to a point where it waits or is over. -/
theorem rests {cfg : World.Cfg T} {σ : Nat → App.State T} {acts : Nat → App.Act} (h : App.Forever cfg σ acts)
    (hloop : KeepsLooping (sysOf σ)) (hregs : Fair cfg.sys (sysOf σ) (roundsOf cfg σ acts) Act.servesRegs) {k n : Nat} {j : Job}
    (hk : (σ n).jobs[k]? = some j) (hl : j.live = true) (hd : ∀ m, acts m ≠ .drop k) (hf : FairTo cfg σ acts k) :
    ∃ m j', (σ m).jobs[k]? = some j' ∧ j'.made = j.made ∧ (j'.ended ≠ none ∨ ∃ t, j'.Awaits t) := by
  by_cases hx : ∃ m j' t, (σ m).jobs[k]? = some j' ∧ j'.made = j.made ∧ j'.Awaits t
  · obtain ⟨m, j', t, h1, h2, h3⟩ := hx
    exact ⟨m, j', h1, h2, .inr ⟨t, h3⟩⟩
  · obtain ⟨m, hm, j', o, h1, h2⟩ := returns_of h hd hf hloop hregs hk hl fun n' j' t h1 _ h3 h2 => absurd ⟨n', j', t, h1, h3, h2⟩ hx
    obtain ⟨j2, h3, h4⟩ := made_to h hm hk
    rw [h1] at h3
    cases h3
    exact ⟨m, j', h1, h4, .inl (by rw [h2]; simp)⟩

/-- A command that has been handed over is passed on as it should be and received. -/
theorem submitted_received {cfg : World.Cfg T} {σ : Nat → App.State T} {acts : Nat → App.Act} (h : App.Forever cfg σ acts)
    (hp : KeepWorking cfg.sys (sysOf σ) (roundsOf cfg σ acts)) (hb : ∀ n, (sysOf σ n).nClients ≤ 2 ^ 64)
    (hfit : ∀ n, World.Fits (σ n).world) {i : Nat} (hs : Served cfg σ acts i) {n : Nat} (hi : i < (sysOf σ n).nClients) {cmd : ClientCmd}
    (hc : cmd ∈ ((sysOf σ n).clients i).submitted) :
    Reaches σ fun v => ∃ now out, Outbound.toCommand now out = .ok v ∧ Sys.Passes cfg.sys cmd.out out := by
  have hF := app_forever h
  obtain ⟨m1, hm1, hv⟩ := registered_later hF hp.loops hp.regs
    (announced (forever_reachable hF n) i hi (.inr (List.ne_nil_of_mem hc)))
  obtain ⟨_, hmono, _⟩ := path_client (continues_to hF hm1) hi
  obtain ⟨m2, hm2, hpre⟩ := served_passes h hp.loops hb hs hv
  obtain ⟨⟨b, cmd'⟩, hpm, rfl⟩ := List.mem_map.mp (hpre.subset (hmono.subset hc))
  obtain ⟨⟨b', k⟩, hk, hkx⟩ := List.mem_filterMap.mp hpm
  have hso := (Sys.cmd (forever_reachable hF m2)).sentOk b' k hk
  simp only [] at hkx
  split at hkx
  · rename_i j' cmd2 horig
    split at hkx
    · cases hkx
      rw [horig] at hso
      obtain ⟨m3, v, now, hm3, hrec, hvn⟩ := sent_received h hp hfit hk
      exact ⟨m3, b, v, hrec, now, k.out, hvn, hso.2.2⟩
    · cases hkx
  · cases hkx

/-! ## What the calls of the library hand over -/

theorem hands_andThen {α β : Type} {f : Outcome α → Prog β} : ∀ (cs : List Call) (p : Prog α), HandsOver cs p → HandsOver cs (p.andThen f) := by
  intro cs
  induction cs with
  | nil => intro p _; unfold HandsOver; trivial
  | cons c cs ih =>
    intro p h
    cases p with
    | ret o => exact h.elim
    | wait t c' k => exact h.elim
    | hand c' k => exact ⟨h.1, fun t => ih _ (h.2 t)⟩

theorem hands_bind {α β : Type} {f : α → Prog β} (cs : List Call) (p : Prog α) (h : HandsOver cs p) : HandsOver cs (p >>= f) :=
  hands_andThen cs p h

theorem hands_call (c : Call) : HandsOver [c] (Session.call c) :=
  hands_bind _ _ ⟨rfl, fun _ => by unfold HandsOver; trivial⟩

theorem hands_all : ∀ (cs : List (Outcome Call)), HandsOver (cs.filterMap fun c => match c with | .ok c => some c | _ => none)
    (Session.handAll cs) := by
  intro cs
  induction cs with
  | nil => simp [HandsOver]
  | cons o cs ih =>
    cases o with
    | ok c => exact ⟨rfl, fun t => hands_bind _ _ ih⟩
    | err e => exact ih
    | panic => exact ih

end Neutron.Props
