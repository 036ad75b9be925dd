import Verif.Spec.Supply
import Verif.Proof.ReceiveForever
import Verif.Proof.Carried
import Verif.Proof.WorldFlow
import Verif.Props.ReceiveForeverAll
import Verif.Props.OneStream
import Verif.Props.Permits

/-!
# Lemmas for C148
-/

namespace Neutron.Consumer

open Neutron

variable {T : Type}

/-- While the engine's end of the channel is there, the calls in progress can only return with one thing to hand out. -/
theorem running_all {cfg : Cfg T} {as : List Act} {s : State T} (h : Run cfg as s) : s.isOpen = true → (∀ k, Job.batch k ∉ jobs as) →
    ∀ (i : Nat) (t : Task T) (c : Code T), s.tasks[i]? = some t → t.stage = .running c →
      All False (fun _ => True) (fun o => (handed o).length = 1) True c := by
  induction h with
  | nil => intro _ _ i t c ht; simp [init] at ht
  | @snoc as s s' a h hs ih =>
    intro ho hj i t c ht hst
    have hj' : ∀ k, Job.batch k ∉ jobs as := fun k hm => hj k (by rw [jobs_append]; exact List.mem_append_left _ hm)
    have go : ∀ {i' : Nat} {t' : Task T} {st : Stage T}, s.isOpen = true → (s.tasks.set i' { t' with stage := st })[i]? = some t →
        (∀ c, st = .running c → All False (fun _ => True) (fun o => (handed o).length = 1) True c) →
        All False (fun _ => True) (fun o => (handed o).length = 1) True c := by
      intro i' t' st ho ht hx
      rcases upd ht with ⟨_, rfl⟩ | ⟨_, h1⟩
      · exact hx c hst
      · exact ih ho hj' i t c h1 hst
    cases step_cases hs with
    | deliver e => exact ih ho hj' i t c ht hst
    | close => cases ho
    | spawn j =>
      simp only at ht
      rw [List.getElem?_append] at ht
      split at ht
      · exact ih ho hj' i t c ht hst
      · rw [List.getElem?_singleton] at ht
        split at ht
        · cases ht
          cases hst
          cases j with
          | batch k => exact absurd (by simp [jobs_append, jobs]) (hj k)
          | _ => exact all_nextMessage cfg
        · cases ht
    | ret i' t' ht' o hc =>
      refine go ho ht fun c hx => ?_
      unfold after at hx
      split at hx <;> cases hx
    | load i' t' ht' k hc => exact go ho ht fun c hx => by cases hx; exact ih ho hj' i' t' _ ht' hc _
    | store i' t' ht' n k hc => exact go ho ht fun c hx => by cases hx; have := ih ho hj' i' t' (.store n k) ht' hc; exact this
    | add i' t' ht' n k hc => exact go ho ht fun c hx => by cases hx; have := ih ho hj' i' t' (.add n k) ht' hc; exact this
    | flow i' t' ht' n k hc => exact go ho ht fun c hx => by cases hx; exact (ih ho hj' i' t' _ ht' hc).1
    | lock i' t' ht' k hc => exact go ho ht fun c hx => by cases hx; exact ih ho hj' i' t' _ ht' hc _
    | write i' t' ht' b k hc => exact go ho ht fun c hx => by cases hx; have := ih ho hj' i' t' (.write b k) ht' hc; exact this
    | recv i' t' ht' k hc m q hq => exact go ho ht fun c hx => by cases hx; exact (ih ho hj' i' t' _ ht' hc).2.1 m trivial
    | skip => exact ih ho hj' i t c ht hst
    | gone i' t' ht' k hc hq ho' => exact absurd ho (by show s.isOpen ≠ true; rw [ho']; simp)
    | plugins i' t' ht' m hc => exact go ho ht fun c hx => by cases hx
    | loop i' t' ht' m k hc => exact go ho ht fun c hx => by cases hx; exact all_nextMessage cfg
    | refuse i' t' ht' n k hc ho' => exact absurd ho (by show s.isOpen ≠ true; rw [ho']; simp)
    | accepted i' t' ht' m k hc => exact go ho ht fun c hx => by cases hx
    | rejected i' t' ht' m k hc => exact go ho ht fun c hx => by cases hx
    | cancel i' t' ht' hw => exact go ho ht fun c hx => by cases hx

theorem pending_after {cfg : Cfg T} {s s' : State T} {x : Message} (hs : Step cfg s (.deliver (.message x)) s') :
    pendingIn s'.inbox ≠ [] := by
  cases hs
  simp [pendingIn]

section
variable {cfg : Cfg T} {past : List Act} {σ : Nat → State T} {acts : Nat → Option Act}

/-- As much as is wanted is handed out, or some call waits forever with nothing there. -/
theorem more_or_waits (h : Forever cfg past σ acts) (hA : Attended cfg σ acts) (hj : ∀ n k, Job.batch k ∉ jobs (history past acts n))
    (hl : ∀ n, ∃ m, n ≤ m ∧ ∃ i c, atCode (σ m) i c ∧ NotDropped acts i m) (n d : Nat) :
    ∃ m, n ≤ m ∧ (d ≤ (σ m).handedOut.length ∨ ∃ j k, ∀ m', m ≤ m' → atCode (σ m') j (.recv k) ∧ pendingIn (σ m').inbox = []) := by
  induction d with
  | zero => exact ⟨n, Nat.le_refl _, .inl (Nat.zero_le _)⟩
  | succ d ih =>
    obtain ⟨m, hm, hd | he⟩ := ih
    · obtain ⟨m1, hm1, i, c, hc, hnd⟩ := hl m
      rcases gets_or_waits h hA hnd hc with ⟨m2, o, hm2, hr, t, ht, hst⟩ | ⟨j, m2, k, hm2, hw⟩
      · refine ⟨m2 + 1, by omega, .inl ?_⟩
        have h1 := (Props.handedOut_grow h (show m ≤ m2 by omega)).length_le
        have h2 : (σ (m2 + 1)).handedOut = (σ m2).handedOut ++ handed o := by simp [State.handedOut, ← hr]
        have h3 : (handed o).length = 1 := running_all (h.run m2) (hA.isOpen m2) (hj m2) i t _ ht hst
        rw [h2, List.length_append, h3]; omega
      · exact ⟨m2, by omega, .inr ⟨j, k, hw⟩⟩
    · exact ⟨m, hm, .inr he⟩

/-- While nothing is in the channel nothing is put there. -/
theorem none_delivered (h : Forever cfg past σ acts) {n : Nat} (hp : ∀ m, n ≤ m → pendingIn (σ m).inbox = []) {m : Nat} (hm : n ≤ m) :
    delivered (history past acts m) = delivered (history past acts n) := by
  induction m with
  | zero => obtain rfl : n = 0 := by omega
            rfl
  | succ m ih =>
    by_cases he : n = m + 1
    · subst he; rfl
    · rw [← ih (by omega)]
      simp only [history, delivered_append]
      cases ha : acts m with
      | none => simp [delivered]
      | some a =>
        have hs := h.act ha
        have hp' := hp (m + 1) (by omega)
        cases a with
        | deliver e =>
          cases e with
          | message x =>
            exact absurd hp' (pending_after hs)
          | _ => simp [delivered]
        | _ => simp [delivered]

theorem atMost_history (h : Forever cfg [] σ acts) {N : Nat} (hn : ∀ m, (σ m).live ≤ N) (n : Nat) : AtMost cfg N (history [] acts n) (σ n) := by
  induction n with
  | zero =>
    have h0 := run_unique h.start .nil
    rw [h0]; exact .nil
  | succ n ih =>
    simp only [history]
    cases ha : acts n with
    | none => rw [h.idle ha]; simpa using ih
    | some a =>
      have hs := h.steps n
      rw [ha] at hs
      exact .snoc ih hs (hn (n + 1))

/-- While a call waits with no message in the channel, more permits have been granted than used. -/
theorem more_granted {N : Nat} {as : List Act} {s : State T} (h : AtMost cfg N as s)
    (hP : 0 < cfg.permits.toNat) (hP3 : 3 * cfg.permits.toNat < 4294967296) (hn : N ≤ cfg.permits.toNat + 1)
    (hm : ∀ m ∈ delivered as, isSingle m = true ∧ decodable cfg.decode m) {i : Nat} (hw : s.waiting i) (hp : pendingIn s.inbox = []) :
    (delivered as).length < s.grants := by
  have hr := atMost_run h
  have h1 := Props.not_starved_used h hP hP3 hn hm hw
  have h2 := received_delivered hr
  rw [hp, List.append_nil] at h2
  have h3 : s.used = (delivered as).length := by
    unfold State.used
    rw [h2]
    clear h h1 h2 hr
    generalize delivered as = l at hm
    induction l with
    | nil => rfl
    | cons m ms ih =>
      have hm1 := (hm m (by simp)).1
      rw [List.map_cons, List.sum_cons, ih fun m' hm' => hm m' (List.mem_cons_of_mem _ hm'), List.length_cons]
      cases m with
      | single => simp [weight, Nat.add_comm]
      | batch => cases hm1
  omega

end

end Neutron.Consumer

namespace Neutron.Props

open Neutron Neutron.App Neutron.World

variable {T : Type}

theorem reads_sys {cfg : World.Cfg T} (l : List Sys.Act) : ∀ {w w' : World T}, worldSteps cfg w (l.map .sys) = some w' →
    ∀ i b, readFor w' i b = readFor w i b := by
  induction l with
  | nil => intro w w' h i b; simp only [List.map_nil, worldSteps, Option.some.injEq] at h; rw [h]
  | cons x l ih =>
    intro w w' h i b
    simp only [List.map_cons, worldSteps] at h
    cases h1 : World.step cfg w (.sys x) with
    | none => rw [h1] at h; cases h
    | some w1 =>
      rw [h1] at h
      rw [ih h i b]
      rcases readFor_step h1 i b with h2 | ⟨_, _, h2, _⟩
      · exact h2
      · cases h2

/-- Each step of everything does at most one thing to the world. -/
theorem one_step {cfg : World.Cfg T} {a a' : App.State T} {x : App.Act} (hs : App.step cfg a x = some a') :
    a'.world = a.world ∨ (∃ y, World.step cfg a.world (.sys y) = some a'.world) ∨
      ∃ y, x = .world y ∧ World.step cfg a.world y = some a'.world := by
  obtain ⟨_, hw, _⟩ := step_some hs
  have few : ∀ l : List Sys.Act, (l = [] ∨ ∃ y, l = [y]) → worldSteps cfg a.world (l.map .sys) = some a'.world →
      a'.world = a.world ∨ ∃ y, World.step cfg a.world (.sys y) = some a'.world := by
    rintro l (rfl | ⟨y, rfl⟩) hl
    · simp only [List.map_nil, worldSteps, Option.some.injEq] at hl
      exact .inl hl.symm
    · simp only [List.map_cons, List.map_nil, worldSteps] at hl
      cases h1 : World.step cfg a.world (.sys y) with
      | none => rw [h1] at hl; cases hl
      | some w1 =>
        rw [h1] at hl
        simp only [Option.some.injEq] at hl
        exact .inr ⟨y, by rw [h1, hl]⟩
  have lift : (a'.world = a.world ∨ ∃ y, World.step cfg a.world (.sys y) = some a'.world) →
      a'.world = a.world ∨ (∃ y, World.step cfg a.world (.sys y) = some a'.world) ∨
      ∃ y, x = .world y ∧ World.step cfg a.world y = some a'.world := by
    rintro (h | h)
    · exact .inl h
    · exact .inr (.inl h)
  cases x with
  | world y =>
    simp only [App.induced, worldSteps] at hw
    cases h1 : World.step cfg a.world y with
    | none => rw [h1] at hw; cases hw
    | some w1 =>
      rw [h1] at hw
      simp only [Option.some.injEq] at hw
      exact .inr (.inr ⟨y, rfl, by rw [← hw]; exact h1⟩)
  | start c => exact lift (few [] (.inl rfl) hw)
  | run k =>
    simp only [App.induced] at hw
    split at hw
    · rename_i j hj
      refine lift (few _ ?_ hw)
      cases hja : j.acts a.world.sys with
      | none => exact .inl rfl
      | some as => exact acts_short hja
    · exact lift (few [] (.inl rfl) hw)
  | drop k =>
    simp only [App.induced] at hw
    split at hw
    · exact lift (few _ drop_short hw)
    · exact lift (few [] (.inl rfl) hw)

/-- What a step adds to what has been read for a client. -/
theorem reads_only {cfg : World.Cfg T} {a a' : App.State T} {x : App.Act} (hs : App.step cfg a x = some a') (i : Nat) (b : BrokerAddress) :
    readFor a'.world i b = readFor a.world i b ∨ ∃ answers v, x = .world (.poll b answers) ∧
      (Framed.pollNext (a.world.rx b).framed (a.world.rx b).socket).1 = .item v ∧ IsMessageFor v (UInt64.ofNat i) := by
  rcases one_step hs with h | ⟨y, h⟩ | ⟨y, rfl, h⟩
  · rw [h]; exact .inl rfl
  · rcases readFor_step h i b with h2 | ⟨_, _, h2, _⟩
    · exact .inl h2
    · cases h2
  · rcases readFor_step h i b with h2 | ⟨ans, v, rfl, h2⟩
    · exact .inl h2
    · exact .inr ⟨ans, v, rfl, h2⟩

section
variable {cfg : World.Cfg T} {σ : Nat → App.State T} {acts : Nat → App.Act}

/-- From the worlds of an infinite execution to a path of worlds. -/
theorem world_path (h : App.Forever cfg σ acts) {P : World T → Prop} {n : Nat} (hP : ∀ m, n ≤ m → P (σ m).world) :
    ∀ {m : Nat}, n ≤ m → ∃ as, World.Path cfg P (σ n).world as (σ m).world := by
  intro m hm
  induction m with
  | zero => obtain rfl : n = 0 := by omega
            exact ⟨[], .nil (hP 0 hm)⟩
  | succ m ih =>
    by_cases he : n = m + 1
    · subst he; exact ⟨[], .nil (hP _ hm)⟩
    · obtain ⟨as, ih⟩ := ih (by omega)
      rcases one_step (h.steps m) with h1 | ⟨y, h1⟩ | ⟨y, _, h1⟩
      · rw [h1]; exact ⟨as, ih⟩
      · exact ⟨_, .snoc ih h1 (hP _ hm)⟩
      · exact ⟨_, .snoc ih h1 (hP _ hm)⟩

theorem placed_to (h : App.Forever cfg σ acts) {i n m : Nat} {b : BrokerAddress} (hnm : n ≤ m) (hp : Placed (σ n).world i b) :
    Placed (σ m).world i b := by
  induction m with
  | zero => obtain rfl : n = 0 := by omega
            exact hp
  | succ m ih =>
    by_cases he : n = m + 1
    · subst he; exact hp
    · have ih := ih (by omega)
      rcases one_step (h.steps m) with h1 | ⟨y, h1⟩ | ⟨y, _, h1⟩
      · rw [h1]; exact ih
      · exact ih.step h1
      · exact ih.step h1

theorem placed_lt (h : App.Forever cfg σ acts) {i n : Nat} {b : BrokerAddress} (hp : Placed (σ n).world i b) : i < (sysOf σ n).nClients := by
  obtain ⟨cm, hc, _⟩ := hp
  obtain ⟨⟨b', c⟩, k1, k2⟩ := List.mem_filterMap.mp hc
  have := (Sys.cmd (forever_reachable (app_forever h) n)).sentOk b' c k1
  cases ho : c.origin with
  | none => simp [ho] at k2
  | some y =>
    obtain ⟨j, cm'⟩ := y
    rw [ho] at this
    simp only [ho, Option.ite_none_right_eq_some] at k2
    have hj : j = i := k2.1
    subst hj
    exact this.1

/-- A consumer that keeps asking is not dropped. -/
theorem not_gone (h : App.Forever cfg σ acts) (hask : KeepsAsking σ acts) (n : Nat) (hi : cfg.me < (sysOf σ n).nClients) :
    ((sysOf σ n).clients cfg.me).phase ≠ .gone := by
  intro hg
  obtain ⟨m, hm, i, t, c, ht, hc, _⟩ := hask n
  have key : ∀ {s s' : Sys.State} {as : List Sys.Act}, Sys.Continues cfg.sys s as s' → cfg.me < s.nClients →
      (s.clients cfg.me).phase = .gone → cfg.me < s'.nClients ∧ (s'.clients cfg.me).phase = .gone := by
    intro s s' as hp hi hg
    induction hp with
    | nil => exact ⟨hi, hg⟩
    | snoc _ hs _ ih => exact ⟨Nat.lt_of_lt_of_le ih.1 (Sys.nClients_mono hs), Sys.gone_step hs ih.1 ih.2⟩
  have hg' := (key (continues_to (app_forever h) hm) hi hg).2
  obtain ⟨_, _, hr⟩ := run_at h m
  rcases usable (run_world hr) with hq | hu
  · rw [hq t (List.mem_of_getElem? ht)] at hc; cases hc
  · have : ((σ m).world.sys.clients cfg.me).phase = .gone := hg'
    rw [hu.2] at this; cases this

/-- The consumer comes to one connection before anything is read for it, and stays there. -/
theorem placed_first (h : App.Forever cfg σ acts) (hb : ∀ n, (sysOf σ n).nClients ≤ 2 ^ 64) (hfit : ∀ n, World.Fits (σ n).world)
    (hof : ∀ n, App.Offers (σ n)) (hd : DeliverOnlySubscribed σ acts) (hme : cfg.me < 2 ^ 64) {n : Nat} {b : BrokerAddress}
    (hp : Placed (σ n).world cfg.me b) :
    ∃ n1, n1 ≤ n ∧ Placed (σ n1).world cfg.me b ∧ ∀ b', readFor (σ n1).world cfg.me b' = [] := by
  obtain ⟨n1, _, ⟨b1, h1⟩, hleast⟩ := least (P := fun k => ∃ b', Placed (σ k).world cfg.me b') (Nat.zero_le n) ⟨b, hp⟩
  have hle : n1 ≤ n := Nat.le_of_not_lt fun hc => hleast n (Nat.zero_le _) hc ⟨b, hp⟩
  have hnone : ∀ k, k ≤ n1 → ∀ b', readFor (σ k).world cfg.me b' = [] := by
    intro k
    induction k with
    | zero => intro _ b'; rw [h.start]; rfl
    | succ k ih =>
      intro hk b'
      rcases reads_only (h.steps k) cfg.me b' with h2 | ⟨ans, v, h2, h3, h4⟩
      · rw [h2]; exact ih (by omega) b'
      · exfalso
        obtain ⟨m, hm1, hm2⟩ := hd k b' ans v _ h2 h3 h4
        obtain ⟨_, _, hr⟩ := run_at h k
        obtain ⟨_, hpl⟩ := late_of (run_world hr) (hfit k) (hb k) hme hm1 (.inr (.inl hm2))
        exact hleast k (Nat.zero_le _) (by omega) ⟨b', hpl⟩
  refine ⟨n1, hle, ?_, hnone n1 (Nat.le_refl _)⟩
  obtain ⟨_, _, hr⟩ := run_at h n
  have := (regular_of (i := cfg.me) hr (hof n) (hfit n) (hb n)).one (run_world hr) (placed_lt h hp) hp (placed_to h hle h1)
  rw [← this]; exact h1

theorem attached_at (h : App.Forever cfg σ acts) (hl : Sys.KeepsLooping (sysOf σ)) (hb : ∀ n, (sysOf σ n).nClients ≤ 2 ^ 64)
    (hfit : ∀ n, World.Fits (σ n).world) (hof : ∀ n, App.Offers (σ n)) (hask : KeepsAsking σ acts) {n : Nat} {b : BrokerAddress}
    (hp : Placed (σ n).world cfg.me b) : Attached cfg.me b (sysOf σ n) := by
  obtain ⟨_, _, hr⟩ := run_at h n
  have hi := placed_lt h hp
  obtain ⟨cm, h1, h2⟩ := hp
  exact Sys.attached_of (forever_reachable (app_forever h) n) (hb n) hi
    ((regular_of (i := cfg.me) hr (hof n) (hfit n) (hb n)).settled hi) (not_gone h hask n hi) (never_stopped h hl n) h1 h2

/-- What the consumer has granted the broker will have been given. -/
theorem eventually_given (h : App.Forever cfg σ acts) (hp : Sys.KeepWorking cfg.sys (sysOf σ) (roundsOf cfg σ acts))
    (hb : ∀ n, (sysOf σ n).nClients ≤ 2 ^ 64) (hfit : ∀ n, World.Fits (σ n).world) (hof : ∀ n, App.Offers (σ n))
    (hs : Served cfg σ acts cfg.me) (hP : cfg.app.permits = 250) {n : Nat} {b : BrokerAddress} (hpl : Placed (σ n).world cfg.me b)
    (hat : Attached cfg.me b (sysOf σ n)) {j : Job} (hj : j ∈ (σ n).jobs) {builder : ConsumerBuilder Unit} (hm : j.made = .consumer builder)
    (hc : j.client = some cfg.me) (he : j.ended = some (.ok ())) :
    ∃ m, n ≤ m ∧ Given (σ m).world b (UInt64.ofNat cfg.me) (σ n).world.app.grants := by
  have hF := app_forever h
  obtain ⟨_, _, hrun⟩ := run_at h n
  obtain ⟨hown, t, ht⟩ := first_flow hrun hj hm he
  obtain ⟨hi, hsub⟩ := flows hrun j hj hown hc 500 t ht
  have hgr : (σ n).world.app.grants ≤ ((Sys.flowsOf ((sysOf σ n).clients cfg.me).submitted).map (·.toNat)).sum := by
    obtain ⟨lg, al, hp⟩ := proj (run_world hrun)
    obtain ⟨l, hl⟩ := granted_head hp.app
    have : (σ n).world.app.grants = (((500 : UInt32) :: (σ n).world.app.granted.tail).map (·.toNat)).sum := by
      unfold Consumer.State.grants
      rw [hl, hP]
      rfl
    rw [this]
    exact (hsub.map _).sum_le_sum fun _ _ => Nat.zero_le _
  obtain ⟨m1, hm1, hpre⟩ := served_passes h hp.loops hb hs hat.1
  have hr1 := forever_reachable hF m1
  have hsum := sent_permits (i := cfg.me) (b := b) (cfg := cfg.sys) (sysOf σ m1).sent
    (fun b' cmd hmem ⟨f, hf⟩ => by
      obtain ⟨_, _, hrun1⟩ := run_at h m1
      have hpl1 := placed_to h hm1 hpl
      exact (regular_of (i := cfg.me) hrun1 (hof m1) (hfit m1) (hb m1)).one (run_world hrun1) (placed_lt h hpl1) hpl1
        ⟨cmd, hmem, by rw [hf]; trivial⟩)
    (fun b' c hcm j' cmd ho => by
      have := (Sys.cmd hr1).sentOk b' c hcm
      rw [ho] at this
      exact this.2.2)
  obtain ⟨m2, hm2, hw⟩ := C143_written hF (hp.works b) (hp.writes b) m1
  obtain ⟨⟨d, d1, d2, _⟩, _⟩ := path_writes (forever_reachable hF 0) (continues_to hF (Nat.zero_le m1)) b (works_slice (hp.works b) _ _)
  have h0 : ((sysOf σ 0).conns b).processed = [] ∧ ((sysOf σ 0).conns b).written = [] := by
    unfold sysOf; rw [h.start]; exact ⟨rfl, rfl⟩
  rw [h0.1, List.nil_append] at d1
  rw [h0.2, List.nil_append] at d2
  have hfifo := ((Sys.conn hr1).ok b).fifo
  rw [(Sys.conn hr1).accepted b, d1, ← d2] at hfifo
  rw [hfifo] at hsum
  obtain ⟨_, _, hrun2⟩ := run_at h m2
  obtain ⟨fs, g1, g2⟩ := written_given (run_world hrun2) cfg.me b (hfit m2)
  refine ⟨m2, by omega, fs, g1, Nat.le_trans hgr (Nat.le_trans ?_ g2)⟩
  refine Nat.le_trans ?_ ((hw.map (permitsOf cfg.me)).sublist.sum_le_sum fun _ _ => Nat.zero_le _)
  rw [← hsum]
  obtain ⟨q, hq⟩ := hpre
  rw [← hq, Sys.flowsOf_append, List.map_append, List.sum_append]
  exact Nat.le_add_right _ _

theorem ended_job_stays {a a' : App.State T} {x : App.Act} (hs : App.step cfg a x = some a') {j : Job} (hj : j ∈ a.jobs) {o : Outcome Unit}
    (he : j.ended = some o) : j ∈ a'.jobs := by
  obtain ⟨k, hk⟩ := List.getElem?_of_mem hj
  refine List.mem_of_getElem? (job_same hs hk ?_ ?_)
  · rintro rfl
    have := (step_some hs).1
    simp only [App.possible, hk] at this
    cases ha : j.acts a.world.sys with
    | none => simp [ha] at this
    | some as => rw [acts_unended ha] at he; cases he
  · rintro rfl
    have := (step_some hs).1
    simp only [App.possible, hk] at this
    simp [he] at this

theorem ended_job_to (h : App.Forever cfg σ acts) {n m : Nat} (hnm : n ≤ m) {j : Job} (hj : j ∈ (σ n).jobs) {o : Outcome Unit}
    (he : j.ended = some o) : j ∈ (σ m).jobs := by
  induction m with
  | zero => obtain rfl : n = 0 := by omega
            exact hj
  | succ m ih =>
    by_cases hx : n = m + 1
    · subst hx; exact hj
    · exact ended_job_stays (h.steps m) (ih (by omega)) he

end

end Neutron.Props
