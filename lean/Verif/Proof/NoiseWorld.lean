import Verif.Proof.Noise
import Verif.Proof.App

/-!
# The same for the consumer, the instance around it and the application
-/

namespace Neutron.Consumer

open Neutron

variable {T : Type}

/-- The next step of the call is to take an event. -/
def Receiving (s : State T) (i : Nat) : Prop := ∃ j k, s.tasks[i]? = some ⟨j, .running (.recv k)⟩

/-- Every step of a call but taking an event is the same whatever is in the channel. -/
theorem step_inbox {cfg : Cfg T} {s s' : State T} {a : Act} (hs : step cfg s a = some s') (ho : ∀ e, a ≠ .deliver e)
    (hr : ∀ i, a = .run i → ¬ Receiving s i) (I : List Inbound) :
    s'.inbox = s.inbox ∧ step cfg { s with inbox := I } a = some { s' with inbox := I } := by
  cases a with
  | deliver e => exact absurd rfl (ho e)
  | close => cases hs; exact ⟨rfl, rfl⟩
  | spawn j => cases hs; exact ⟨rfl, rfl⟩
  | cancel i =>
    simp only [step] at hs ⊢
    cases ht : s.tasks[i]? with
    | none => rw [ht] at hs; cases hs
    | some t =>
      simp only [ht] at hs ⊢
      split at hs
      · rename_i hw; cases hs; rw [if_pos hw]; exact ⟨rfl, rfl⟩
      · cases hs
  | refuse i =>
    simp only [step] at hs ⊢
    cases ht : s.tasks[i]? with
    | none => rw [ht] at hs; cases hs
    | some t =>
      obtain ⟨j, st⟩ := t
      simp only [ht] at hs ⊢
      cases st with
      | running c =>
        cases c with
        | flow n k =>
          simp only [] at hs ⊢
          split at hs
          · cases hs
          · rename_i hw; cases hs; rw [if_neg hw]; exact ⟨rfl, rfl⟩
        | _ => cases hs
      | _ => cases hs
  | offer i r =>
    simp only [step] at hs ⊢
    cases ht : s.tasks[i]? with
    | none => rw [ht] at hs; cases hs
    | some t =>
      obtain ⟨j, st⟩ := t
      simp only [ht] at hs ⊢
      cases st with
      | offering m k =>
        simp only [] at hs ⊢
        split at hs
        · rename_i hw
          rw [if_pos hw]
          cases r <;> (cases hs; exact ⟨rfl, rfl⟩)
        · cases hs
      | _ => cases hs
  | run i =>
    simp only [step] at hs ⊢
    cases ht : s.tasks[i]? with
    | none => rw [ht] at hs; cases hs
    | some t =>
      have hn := hr i rfl
      obtain ⟨j, st⟩ := t
      simp only [ht] at hs ⊢
      cases st with
      | running c =>
        simp only [runTask] at hs ⊢
        cases c with
        | recv k => exact absurd ⟨j, k, ht⟩ hn
        | flow n k =>
          simp only [runCode] at hs ⊢
          split at hs
          · rename_i hw; cases hs; rw [if_pos hw]; exact ⟨rfl, rfl⟩
          · cases hs
        | lock k =>
          simp only [runCode] at hs ⊢
          split at hs
          · rename_i hw; cases hs; rw [if_pos hw]; exact ⟨rfl, rfl⟩
          · cases hs
        | _ => cases hs; exact ⟨rfl, rfl⟩
      | plugins m =>
        simp only [runTask] at hs ⊢
        split at hs
        · rename_i hw; cases hs; rw [if_pos hw]; exact ⟨rfl, rfl⟩
        · cases hs
      | offering m k =>
        simp only [runTask] at hs ⊢
        split at hs
        · cases hs
        · rename_i hw; cases hs; rw [if_neg hw]; exact ⟨rfl, rfl⟩
      | ended => cases hs

end Neutron.Consumer

namespace Neutron.World

open Neutron App

variable {T : Type}

/-- The consumer's channel is the client's. -/
def Synced (cfg : Cfg T) (w : World T) : Prop := w.app.inbox = (w.sys.clients cfg.me).inbox.map (·.inb)

/-- Two worlds that differ only in what nobody looks at. -/
structure Like (cfg : Cfg T) (w v : World T) : Prop where
  sys : Sys.Like w.sys v.sys
  app : { w.app with inbox := [] } = { v.app with inbox := [] }
  rx : w.rx = v.rx
  tx : w.tx = v.tx
  held : w.held = v.held
  serving : w.serving = v.serving
  left : Synced cfg w
  right : Synced cfg v

theorem Like.symm {cfg : Cfg T} {w v : World T} (h : Like cfg w v) : Like cfg v w :=
  ⟨h.sys.symm, h.app.symm, h.rx.symm, h.tx.symm, h.held.symm, h.serving.symm, h.right, h.left⟩

/-- The action takes an event. -/
def Takes (w : World T) : Act → Prop
  | .sys (.clientNext _) => True
  | .app (.run i) => Consumer.Receiving w.app i
  | _ => False

theorem Like.tasks {cfg : Cfg T} {w v : World T} (h : Like cfg w v) : w.app.tasks = v.app.tasks := by
  have := congrArg Consumer.State.tasks h.app; exact this

theorem Like.mode {cfg : Cfg T} {w v : World T} (h : Like cfg w v) : w.sys.mode = v.sys.mode := by
  have := congrArg Sys.State.mode h.sys; exact this

theorem Like.conn {cfg : Cfg T} {w v : World T} (h : Like cfg w v) (b : BrokerAddress) : Sys.scrubConn (w.sys.conns b) = Sys.scrubConn (v.sys.conns b) :=
  congrFun (congrArg Sys.State.conns h.sys) b

theorem Like.addrs {cfg : Cfg T} {w v : World T} (h : Like cfg w v) : w.sys.addrs = v.sys.addrs := by
  have := congrArg Sys.State.addrs h.sys; exact this

theorem like_engineEnd {s u : Sys.State} (h : Sys.Like s u) (i : Nat) : Sys.engineEnd s i = Sys.engineEnd u i := by
  rw [← Sys.scrub_engineEnd, ← Sys.scrub_engineEnd u, show Sys.scrub s = Sys.scrub u from h]

theorem like_sync {cfg : Cfg T} {w v : World T} {s u : Sys.State} (hs : Sys.Like s u) (app : { w.app with inbox := [] } = { v.app with inbox := [] })
    (rx : w.rx = v.rx) (tx : w.tx = v.tx) (held : w.held = v.held) (serving : w.serving = v.serving) : Like cfg (sync cfg w s) (sync cfg v u) where
  sys := hs
  app := by
    simp only [sync, Consumer.State.mk.injEq, like_engineEnd hs] at app ⊢
    simp_all
  rx := rx
  tx := tx
  held := held
  serving := serving
  left := rfl
  right := rfl

theorem like_sysSteps {cfg : Sys.Cfg} {as : List Sys.Act} (ha : ∀ i, .clientNext i ∉ as) : ∀ {s u s' : Sys.State}, Sys.Like s u →
    sysSteps cfg s as = some s' → ∃ u', sysSteps cfg u as = some u' ∧ Sys.Like s' u' := by
  induction as with
  | nil => intro s u s' hl hs; cases hs; exact ⟨u, rfl, hl⟩
  | cons a as ih =>
    intro s u s' hl hs
    simp only [sysSteps] at hs ⊢
    cases h1 : Sys.step cfg s a with
    | none => simp [h1] at hs
    | some s1 =>
      simp only [h1] at hs
      obtain ⟨u1, h2, h3⟩ := Sys.like_step hl (fun i hi => ha i (by simp [hi])) h1
      simp only [h2]
      exact ih (fun i hi => ha i (List.mem_cons_of_mem _ hi)) h3 hs

theorem Like.running {cfg : Cfg T} {w v : World T} (h : Like cfg w v) (b : BrokerAddress) : running w b = running v b := by
  have h1 : (w.sys.conns b).alive = (v.sys.conns b).alive := by have := congrArg Sys.ConnSt.alive (h.conn b); exact this
  unfold World.running
  rw [h1, h.addrs]

theorem Like.reading {cfg : Cfg T} {w v : World T} (h : Like cfg w v) (b : BrokerAddress) : reading w b = reading v b := by
  unfold World.reading
  rw [h.running, h.held]

theorem Like.queue {cfg : Cfg T} {w v : World T} (h : Like cfg w v) (b : BrokerAddress) : (w.sys.conns b).queue = (v.sys.conns b).queue := by
  have := congrArg Sys.ConnSt.queue (h.conn b); exact this

theorem Like.clientQueue {cfg : Cfg T} {w v : World T} (h : Like cfg w v) (i : Nat) : (w.sys.clients i).queue = (v.sys.clients i).queue := by
  have := congrArg Sys.ClientSt.queue (h.sys.clients i); exact this

theorem Like.starting {cfg : Cfg T} {w v : World T} (h : Like cfg w v) (i : Nat) : (w.sys.clients i).starting = (v.sys.clients i).starting := by
  have := congrArg Sys.ClientSt.starting (h.sys.clients i); exact this

theorem Like.phase {cfg : Cfg T} {w v : World T} (h : Like cfg w v) (i : Nat) : (w.sys.clients i).phase = (v.sys.clients i).phase := by
  have := congrArg Sys.ClientSt.phase (h.sys.clients i); exact this

theorem Like.nClients {cfg : Cfg T} {w v : World T} (h : Like cfg w v) : w.sys.nClients = v.sys.nClients := by
  have := congrArg Sys.State.nClients h.sys; exact this

theorem Like.free {cfg : Cfg T} {w v : World T} (h : Like cfg w v) (a : Sys.Act) : free cfg w a = free cfg v a := by
  cases a <;> simp only [World.free, turn, h.serving, h.tasks]

theorem Like.own {cfg : Cfg T} {w v : World T} (h : Like cfg w v) (a : Consumer.Act) : own cfg w a = own cfg v a := by
  cases a <;> simp only [World.own, h.nClients, h.phase]

/-- Handing over a command leaves the inbox as it is. -/
theorem hand_inbox {cfg : Sys.Cfg} {s s' : Sys.State} {j : Nat} {call : Call} {k : Nat}
    (hs : sysSteps cfg s [.beginCall j call, .submit j k] = some s') (i : Nat) : (s'.clients i).inbox = (s.clients i).inbox := by
  simp only [sysSteps, Sys.step] at hs
  cases h1 : Sys.beginCall s j call with
  | none => simp [h1] at hs
  | some s1 =>
    simp only [h1] at hs
    cases h2 : Sys.submit s1 j k with
    | none => simp [h2] at hs
    | some s2 =>
      simp only [h2, Option.some.injEq] at hs
      subst hs
      have e1 : (s1.clients i).inbox = (s.clients i).inbox := by
        unfold Sys.beginCall at h1
        split at h1
        · simp only [] at h1
          split at h1 <;> (cases h1; by_cases hij : i = j <;> simp [Sys.State.setClient, hij])
        · cases h1
      have e2 : (s2.clients i).inbox = (s1.clients i).inbox := by
        unfold Sys.submit at h2
        split at h2
        · simp only [] at h2
          split at h2
          · cases h2
          · split at h2 <;> (cases h2; by_cases hij : i = j <;> simp [Sys.State.setClient, hij])
        · cases h2
      rw [e2, e1]

theorem like_app_eq {cfg : Cfg T} {w v : World T} (h : Like cfg w v) : v.app = { w.app with inbox := v.app.inbox } := by
  have := h.app
  simp only [Consumer.State.mk.injEq] at this
  cases hv : v.app
  simp_all

/-- Every action but taking an event does the same in both worlds. -/
theorem like_plain {cfg : Cfg T} {w v w' : World T} (hl : Like cfg w v) {a : Act} (ha : ¬ Takes w a) (hs : step cfg w a = some w') :
    ∃ v', step cfg v a = some v' ∧ Like cfg w' v' := by
  cases a with
  | arrive b r =>
    simp only [step, ← hl.addrs] at hs ⊢
    split at hs
    · rename_i hb
      cases hs
      rw [if_pos hb]
      exact ⟨_, rfl, hl.sys, hl.app, by rw [hl.rx], hl.tx, hl.held, hl.serving, hl.left, hl.right⟩
    · cases hs
  | hold b =>
    simp only [step, ← hl.reading, ← hl.queue] at hs ⊢
    split at hs
    · rename_i hb
      cases hs
      rw [if_pos hb]
      exact ⟨_, rfl, hl.sys, hl.app, hl.rx, hl.tx, by rw [hl.held], hl.serving, hl.left, hl.right⟩
    · cases hs
  | serve i =>
    simp only [step, ← hl.serving, ← hl.mode, ← hl.sys.vec, ← hl.addrs, ← hl.clientQueue] at hs ⊢
    split at hs
    · rename_i hb
      cases hs
      rw [if_pos hb]
      exact ⟨_, rfl, hl.sys, hl.app, hl.rx, hl.tx, hl.held, rfl, hl.left, hl.right⟩
    · cases hs
  | poll b answers =>
    simp only [step, ← hl.reading, ← hl.rx] at hs ⊢
    split at hs
    · rename_i hb
      rw [if_pos hb]
      split at hs
      · rename_i s h1
        cases hs
        obtain ⟨u, h2, h3⟩ := like_sysSteps (by intro i hi; obtain ⟨x, _, hx⟩ := List.mem_map.mp hi; cases hx) hl.sys h1
        rw [h2]
        exact ⟨_, rfl, like_sync h3 hl.app rfl hl.tx hl.held hl.serving⟩
      · cases hs
    · cases hs
  | write b now io =>
    simp only [step, ← hl.running, ← hl.queue, ← hl.tx] at hs ⊢
    split at hs
    · rename_i hb
      rw [if_pos hb]
      cases hq : (w.sys.conns b).queue with
      | nil =>
        simp only [hq] at hs ⊢
        split at hs
        · rename_i s h1
          cases hs
          obtain ⟨u, h2, h3⟩ := Sys.like_step hl.sys (by intro i hi; cases hi) h1
          rw [h2]
          exact ⟨_, rfl, like_sync h3 hl.app hl.rx hl.tx hl.held hl.serving⟩
        · cases hs
      | cons c q =>
        simp only [hq] at hs ⊢
        split at hs
        · rename_i t r h0
          split at hs
          · rename_i s h1
            cases hs
            obtain ⟨u, h2, h3⟩ := Sys.like_step hl.sys (by intro i hi; cases hi) h1
            rw [h2]
            exact ⟨_, rfl, like_sync h3 hl.app hl.rx (by rw [hl.tx]) (by rw [hl.held]) hl.serving⟩
          · cases hs
        · cases hs
    · cases hs
  | sys a =>
    simp only [step, ← hl.free] at hs ⊢
    split at hs
    · rename_i hb
      rw [if_pos hb]
      split at hs
      · rename_i s h1
        cases hs
        obtain ⟨u, h2, h3⟩ := Sys.like_step hl.sys (by rintro i rfl; exact ha trivial) h1
        rw [h2]
        exact ⟨_, rfl, like_sync h3 hl.app hl.rx hl.tx hl.held (by rw [hl.serving])⟩
      · cases hs
    · cases hs
  | app a =>
    simp only [step, ← hl.own] at hs ⊢
    split at hs
    · rename_i hb
      rw [if_pos hb]
      split at hs
      · rename_i app h1
        split at hs
        · rename_i s h2
          cases hs
          have hn : ∀ e, a ≠ .deliver e := by rintro e rfl; cases hb
          have hr : ∀ i, a = .run i → ¬ Consumer.Receiving w.app i := by rintro i rfl hr; exact ha hr
          obtain ⟨e1, e2⟩ := Consumer.step_inbox h1 hn hr v.app.inbox
          rw [← like_app_eq hl] at e2
          have hi : induced cfg v a = induced cfg w a ∧ (induced cfg w a = [] ∨ ∃ n, induced cfg w a = [.beginCall cfg.me (.flow n),
              .submit cfg.me (w.sys.clients cfg.me).starting.length]) := by
            cases a with
            | run i =>
              simp only [induced, ← hl.tasks, ← hl.starting]
              have := hr i rfl
              cases ht : w.app.tasks[i]? with
              | none => exact ⟨by trivial, .inl (by trivial)⟩
              | some t =>
                obtain ⟨j, st⟩ := t
                cases st with
                | running c =>
                  cases c with
                  | recv k => exact absurd ⟨j, k, ht⟩ this
                  | flow n k => exact ⟨by trivial, .inr ⟨n, by trivial⟩⟩
                  | _ => exact ⟨by trivial, .inl (by trivial)⟩
                | _ => exact ⟨by trivial, .inl (by trivial)⟩
            | refuse i =>
              simp only [induced, ← hl.tasks, ← hl.starting]
              cases ht : w.app.tasks[i]? with
              | none => exact ⟨by trivial, .inl (by trivial)⟩
              | some t =>
                obtain ⟨j, st⟩ := t
                cases st with
                | running c =>
                  cases c with
                  | flow n k => exact ⟨by trivial, .inr ⟨n, by trivial⟩⟩
                  | _ => exact ⟨by trivial, .inl (by trivial)⟩
                | _ => exact ⟨by trivial, .inl (by trivial)⟩
            | _ => exact ⟨by trivial, .inl (by trivial)⟩
          obtain ⟨hi1, hi2⟩ := hi
          obtain ⟨u, h3, h4⟩ := like_sysSteps (by
            intro i hm
            rcases hi2 with h | ⟨n, h⟩
            · rw [h] at hm; cases hm
            · rw [h] at hm; simp at hm) hl.sys h2
          rw [e2, hi1]
          simp only [h3]
          refine ⟨_, rfl, h4, rfl, hl.rx, hl.tx, hl.held, hl.serving, ?_, ?_⟩
          · show app.inbox = _
            rw [e1, hl.left]
            rcases hi2 with h | ⟨n, h⟩
            · rw [h] at h2; cases h2; rfl
            · rw [h] at h2; simp only [hand_inbox h2]
          · show v.app.inbox = _
            rw [hl.right]
            rcases hi2 with h | ⟨n, h⟩
            · rw [h] at h3; cases h3; rfl
            · rw [h] at h3; simp only [hand_inbox h3]
        · cases hs
      · cases hs
    · cases hs

/-! ## Taking an event -/

/-- The action is done `k` times. -/
inductive Repeat (cfg : Cfg T) (a : Act) : Nat → World T → World T → Prop where
  | zero (w : World T) : Repeat cfg a 0 w w
  | succ {k : Nat} {w v u : World T} : step cfg w a = some v → Repeat cfg a k v u → Repeat cfg a (k + 1) w u

theorem Repeat.snoc {cfg : Cfg T} {a : Act} {k : Nat} {w v u : World T} (h : Repeat cfg a k w v) (hs : step cfg v a = some u) :
    Repeat cfg a (k + 1) w u := by
  induction h with
  | zero w => exact .succ hs (.zero _)
  | succ h1 _ ih => exact .succ h1 (ih hs)

theorem Like.trans {cfg : Cfg T} {a b c : World T} (h : Like cfg a b) (h' : Like cfg b c) : Like cfg a c :=
  ⟨h.sys.trans h'.sys, h.app.trans h'.app, h.rx.trans h'.rx, h.tx.trans h'.tx, h.held.trans h'.held, h.serving.trans h'.serving, h.left, h'.right⟩

theorem Like.usable {cfg : Cfg T} {w v : World T} (h : Like cfg w v) (hu : Usable cfg w) : Usable cfg v :=
  ⟨h.nClients ▸ hu.1, (h.phase _).symm.trans hu.2⟩

theorem Like.inbox {cfg : Cfg T} {w v : World T} (h : Like cfg w v) (i : Nat) :
    messageEvents (w.sys.clients i).inbox = messageEvents (v.sys.clients i).inbox := by
  have := congrArg Sys.ClientSt.inbox (h.sys.clients i); exact this

theorem split_message {l : List Sys.Event} {e : Sys.Event} {r : List Sys.Event} (h : messageEvents l = e :: r) :
    ∃ es rest, l = es ++ e :: rest ∧ (∀ x ∈ es, x.inb.isMessage = false) ∧ messageEvents rest = r := by
  induction l with
  | nil => cases h
  | cons a l ih =>
    unfold messageEvents at h
    rw [List.filter_cons] at h
    by_cases ha : a.inb.isMessage = true
    · rw [if_pos ha] at h
      cases h
      exact ⟨[], l, rfl, (by intro x hx; cases hx), rfl⟩
    · rw [if_neg ha] at h
      obtain ⟨es, rest, rfl, h2, h3⟩ := ih h
      exact ⟨a :: es, rest, rfl, (by
        intro x hx
        rcases List.mem_cons.mp hx with rfl | hx
        · exact Bool.eq_false_iff.mpr ha
        · exact h2 x hx), h3⟩

theorem no_message {l : List Sys.Event} (h : messageEvents l = []) : ∀ x ∈ l, x.inb.isMessage = false := by
  intro x hx
  unfold messageEvents at h
  exact Bool.eq_false_iff.mpr (List.filter_eq_nil_iff.mp h x hx)

theorem messageEvents_cons (e : Sys.Event) (es : List Sys.Event) :
    messageEvents (e :: es) = if e.inb.isMessage then e :: messageEvents es else messageEvents es := by
  unfold messageEvents; rw [List.filter_cons]

/-- The consumer after taking an event. -/
def appAfter (s : Consumer.State T) (i : Nat) (j : Consumer.Job) (k : Outcome Message → Consumer.Code T) (inb : Inbound) (q : List Inbound) : Consumer.State T :=
  match inb with
  | .message m => { s.goto i ⟨j, .running (.recv k)⟩ (.running (k (.ok m))) with inbox := q, received := s.received ++ [m] }
  | _ => { s with inbox := q }

/-- The instance after client `c` has taken an event. -/
def sysAfter (s : Sys.State) (c : Nat) (e : Sys.Event) (es : List Sys.Event) : Sys.State :=
  s.setClient c { s.clients c with inbox := es, taken := (s.clients c).taken ++ [e] }

theorem recv_step {cfg : Cfg T} {v : World T} (hsy : Synced cfg v) (hu : Usable cfg v) {i : Nat} {j : Consumer.Job}
    {k : Outcome Message → Consumer.Code T} (ht : v.app.tasks[i]? = some ⟨j, .running (.recv k)⟩) {e : Sys.Event} {es : List Sys.Event}
    (he : (v.sys.clients cfg.me).inbox = e :: es) :
    step cfg v (.app (.run i)) = some { v with sys := sysAfter v.sys cfg.me e es, app := appAfter v.app i j k e.inb (es.map (·.inb)) } := by
  have hin : v.app.inbox = e.inb :: es.map (·.inb) := by rw [hsy, he]; rfl
  have h1 : Consumer.step cfg.app v.app (.run i) = some (appAfter v.app i j k e.inb (es.map (·.inb))) := by
    simp only [Consumer.step, ht, Consumer.runTask, Consumer.runCode, hin, appAfter]
    cases e.inb <;> rfl
  have h2 : sysSteps cfg.sys v.sys (induced cfg v (.run i)) = some (sysAfter v.sys cfg.me e es) := by
    simp only [induced, ht, hin, List.isEmpty_cons, Bool.false_eq_true, if_false, sysSteps, Sys.step, Sys.clientNext, he]
    rw [if_pos ⟨hu.1, hu.2⟩]
    rfl
  simp only [step, own, if_true, h1, h2]

theorem recv_closed {cfg : Cfg T} {v : World T} (hsy : Synced cfg v) {i : Nat} {j : Consumer.Job}
    {k : Outcome Message → Consumer.Code T} (ht : v.app.tasks[i]? = some ⟨j, .running (.recv k)⟩) (he : (v.sys.clients cfg.me).inbox = []) :
    step cfg v (.app (.run i)) = if v.app.isOpen then none else
      some { v with app := v.app.goto i ⟨j, .running (.recv k)⟩ (.running (k (.err .channelTerminated))) } := by
  have hin : v.app.inbox = [] := by rw [hsy, he]; rfl
  simp only [step, own, if_true, Consumer.step, ht, Consumer.runTask, Consumer.runCode, hin, induced, List.isEmpty_nil, sysSteps]
  split
  · rename_i app h; split at h
    · cases h
    · rename_i hc; rw [if_neg hc]; cases h; rfl
  · rename_i h; split at h
    · rename_i hc; rw [if_pos hc]
    · cases h

theorem like_sysAfter {s u : Sys.State} (h : Sys.Like s u) {c : Nat} {e : Sys.Event} {es fs : List Sys.Event}
    (hm : messageEvents es = messageEvents fs) : Sys.Like (sysAfter s c e es) (sysAfter u c e fs) := by
  unfold Sys.Like sysAfter
  rw [Sys.scrub_setClient, Sys.scrub_setClient, show Sys.scrub s = Sys.scrub u from h]
  have hc := h.clients c
  congr 1
  simp only [Sys.scrubClient, Sys.ClientSt.mk.injEq, Sys.messageEvents_append] at hc ⊢
  simp_all

theorem like_skip_sys {s : Sys.State} {c : Nat} {e : Sys.Event} {es : List Sys.Event} (he : (s.clients c).inbox = e :: es)
    (hm : e.inb.isMessage = false) : Sys.Like s (sysAfter s c e es) := by
  unfold Sys.Like sysAfter
  rw [Sys.scrub_setClient]
  simp only [Sys.scrub, Sys.State.setClient, Sys.State.mk.injEq, true_and, and_true]
  funext j
  by_cases hj : j = c
  · subst hj
    rw [if_pos rfl]
    simp only [Sys.scrubClient, Sys.ClientSt.mk.injEq, Sys.messageEvents_append, he, messageEvents_cons, hm]
    simp [messageEvents]
  · rw [if_neg hj]

theorem after_inbox (s : Sys.State) (c : Nat) (e : Sys.Event) (es : List Sys.Event) : ((sysAfter s c e es).clients c).inbox = es := by
  simp [sysAfter, Sys.State.setClient]

theorem appAfter_inbox (s : Consumer.State T) (i : Nat) (j : Consumer.Job) (k : Outcome Message → Consumer.Code T) (inb : Inbound) (q : List Inbound) :
    (appAfter s i j k inb q).inbox = q := by
  cases inb <;> rfl

/-- Events that are no messages are skipped. -/
theorem drain {cfg : Cfg T} {w : World T} (hu : Usable cfg w) {i : Nat} {j : Consumer.Job} {k : Outcome Message → Consumer.Code T}
    (ht : w.app.tasks[i]? = some ⟨j, .running (.recv k)⟩) (rest : List Sys.Event) : ∀ (es : List Sys.Event) (v : World T), Like cfg w v →
    (v.sys.clients cfg.me).inbox = es ++ rest → (∀ x ∈ es, x.inb.isMessage = false) →
    ∃ v1, Repeat cfg (.app (.run i)) es.length v v1 ∧ Like cfg w v1 ∧ (v1.sys.clients cfg.me).inbox = rest := by
  intro es
  induction es with
  | nil => intro v hl he _; exact ⟨v, .zero v, hl, he⟩
  | cons e es ih =>
    intro v hl he hn
    have hm := hn e (by simp)
    have hs := recv_step (es := es ++ rest) hl.right (hl.usable hu) (hl.tasks ▸ ht) he
    have ha : appAfter v.app i j k e.inb ((es ++ rest).map (·.inb)) = { v.app with inbox := (es ++ rest).map (·.inb) } := by
      cases hi : e.inb <;> first | rfl | (rw [hi] at hm; cases hm)
    rw [ha] at hs
    have hl' : Like cfg v { v with sys := sysAfter v.sys cfg.me e (es ++ rest), app := { v.app with inbox := (es ++ rest).map (·.inb) } } :=
      ⟨like_skip_sys he hm, rfl, rfl, rfl, rfl, rfl, hl.right, by unfold Synced; simp [after_inbox]⟩
    obtain ⟨v1, h1, h2, h3⟩ := ih _ (hl.trans hl') (after_inbox _ _ _ _) (fun x hx => hn x (by simp [hx]))
    exact ⟨v1, .succ hs h1, h2, h3⟩

/-- Taking an event: the other world does the same, skipping what is to be skipped, or nothing. -/
theorem like_take {cfg : Cfg T} {w v w' : World T} (hl : Like cfg w v) {i : Nat} (hu : Usable cfg w) (hr : Consumer.Receiving w.app i)
    (hs : step cfg w (.app (.run i)) = some w') : ∃ k v', Repeat cfg (.app (.run i)) k v v' ∧ Like cfg w' v' := by
  obtain ⟨j, k, ht⟩ := hr
  have htv : v.app.tasks[i]? = some ⟨j, .running (.recv k)⟩ := hl.tasks ▸ ht
  cases hin : (w.sys.clients cfg.me).inbox with
  | nil =>
    rw [recv_closed hl.left ht hin] at hs
    have hno := hl.inbox cfg.me
    rw [hin] at hno
    obtain ⟨v1, h1, h2, h3⟩ := drain hu ht [] _ v hl (by rw [List.append_nil]) (no_message hno.symm)
    have ho : v1.app.isOpen = w.app.isOpen := by have := congrArg Consumer.State.isOpen h2.app; exact this.symm
    have hs1 := recv_closed h2.right (h2.tasks ▸ ht) h3
    rw [ho] at hs1
    split at hs
    · cases hs
    · rename_i hc
      rw [if_neg hc] at hs1
      cases hs
      refine ⟨_, _, h1.snoc hs1, h2.sys, ?_, h2.rx, h2.tx, h2.held, h2.serving, h2.left, h2.right⟩
      have := h2.app
      simp only [Consumer.State.goto, Consumer.State.mk.injEq] at this ⊢
      simp_all
  | cons e q =>
    rw [recv_step hl.left hu ht hin] at hs
    cases hs
    by_cases hm : e.inb.isMessage = true
    · have hno := hl.inbox cfg.me
      rw [hin, messageEvents_cons, if_pos hm] at hno
      obtain ⟨es, rest, he, hn, hrest⟩ := split_message hno.symm
      obtain ⟨v1, h1, h2, h3⟩ := drain hu ht (e :: rest) es v hl he hn
      have hs1 := recv_step h2.right (h2.usable hu) (h2.tasks ▸ ht) h3
      refine ⟨_, _, h1.snoc hs1, like_sysAfter h2.sys hrest.symm, ?_, h2.rx, h2.tx, h2.held, h2.serving, ?_, ?_⟩
      · have := h2.app
        cases hi : e.inb with
        | message m =>
          simp only [appAfter, Consumer.State.goto, Consumer.State.mk.injEq] at this ⊢
          simp_all
        | _ => rw [hi] at hm; cases hm
      · unfold Synced; simp [after_inbox, appAfter_inbox]
      · unfold Synced; simp [after_inbox, appAfter_inbox]
    · have hm := Bool.eq_false_iff.mpr hm
      refine ⟨0, v, .zero v, (like_skip_sys hin hm).symm.trans hl.sys, ?_, hl.rx, hl.tx, hl.held, hl.serving, ?_, hl.right⟩
      · rw [← hl.app]
        cases hi : e.inb <;> first | rfl | (rw [hi] at hm; cases hm)
      · unfold Synced; simp [after_inbox, appAfter_inbox]

theorem sync_app {cfg : Cfg T} {w v : World T} {u : Sys.State} (ha : { w.app with inbox := [] } = { v.app with inbox := [] })
    (hs : Sys.Like w.sys u) (ho : w.app.isOpen = Sys.engineEnd w.sys cfg.me) :
    { w.app with inbox := [] } = { (sync cfg v u).app with inbox := [] } := by
  have := like_engineEnd hs cfg.me
  simp only [sync, Consumer.State.mk.injEq] at ha ⊢
  simp_all

theorem next_step {cfg : Cfg T} {v : World T} {c : Nat} (hc : c ≠ cfg.me) (hr : c < v.sys.nClients ∧ (v.sys.clients c).phase = .ready)
    {e : Sys.Event} {es : List Sys.Event} (he : (v.sys.clients c).inbox = e :: es) :
    step cfg v (.sys (.clientNext c)) = some (sync cfg v (sysAfter v.sys c e es)) := by
  have hs : Sys.step cfg.sys v.sys (.clientNext c) = some (sysAfter v.sys c e es) := by
    simp only [Sys.step, Sys.clientNext, he]
    rw [if_pos hr]
    rfl
  simp only [step, World.free, ne_eq, hc, not_false_eq_true, decide_true, if_true, hs]
  rfl

theorem like_next {cfg : Cfg T} {w v w' : World T} (hl : Like cfg w v) (ho : w.app.isOpen = Sys.engineEnd w.sys cfg.me) {c : Nat} (hs : step cfg w (.sys (.clientNext c)) = some w') :
    ∃ k v', Repeat cfg (.sys (.clientNext c)) k v v' ∧ Like cfg w' v' := by
  have hc : c ≠ cfg.me := by
    rintro rfl
    simp [step, World.free] at hs
  have hr : c < w.sys.nClients ∧ (w.sys.clients c).phase = .ready := by
    refine Classical.byContradiction fun hn => ?_
    simp [step, World.free, hc, Sys.step, Sys.clientNext, if_neg hn] at hs
  have hd : ∀ (rest es : List Sys.Event) (v : World T), Like cfg w v → (v.sys.clients c).inbox = es ++ rest → (∀ x ∈ es, x.inb.isMessage = false) →
      ∃ v1, Repeat cfg (.sys (.clientNext c)) es.length v v1 ∧ Like cfg w v1 ∧ (v1.sys.clients c).inbox = rest := by
    intro rest es
    induction es with
    | nil => intro v hl he _; exact ⟨v, .zero v, hl, he⟩
    | cons e es ih =>
      intro v hl he hn
      have hm := hn e (by simp)
      have h1 := next_step (cfg := cfg) (v := v) (es := es ++ rest) hc ⟨hl.nClients ▸ hr.1, (hl.phase c).symm.trans hr.2⟩ he
      have hl' : Like cfg w (sync cfg v (sysAfter v.sys c e (es ++ rest))) := by
        refine ⟨hl.sys.trans (like_skip_sys he hm), ?_, hl.rx, hl.tx, hl.held, hl.serving, hl.left, rfl⟩
        exact sync_app hl.app (hl.sys.trans (like_skip_sys he hm)) ho
      obtain ⟨v1, h2, h3, h4⟩ := ih _ hl' (after_inbox _ _ _ _) (fun x hx => hn x (by simp [hx]))
      exact ⟨v1, .succ h1 h2, h3, h4⟩
  cases hin : (w.sys.clients c).inbox with
  | nil =>
    simp [step, World.free, hc, Sys.step, Sys.clientNext, hr, hin] at hs
  | cons e q =>
    rw [next_step hc hr hin] at hs
    cases hs
    by_cases hm : e.inb.isMessage = true
    · have hno := hl.inbox c
      rw [hin, messageEvents_cons, if_pos hm] at hno
      obtain ⟨es, rest, he, hn, hrest⟩ := split_message hno.symm
      obtain ⟨v1, h1, h2, h3⟩ := hd (e :: rest) es v hl he hn
      have hs1 := next_step (cfg := cfg) (v := v1) hc ⟨h2.nClients ▸ hr.1, (h2.phase c).symm.trans hr.2⟩ h3
      exact ⟨_, _, h1.snoc hs1, like_sync (like_sysAfter h2.sys hrest.symm) h2.app h2.rx h2.tx h2.held h2.serving⟩
    · have hm := Bool.eq_false_iff.mpr hm
      have hk := like_skip_sys hin hm
      have hs2 : Like cfg w (sync cfg w (sysAfter w.sys c e q)) := ⟨hk, sync_app rfl hk ho, rfl, rfl, rfl, rfl, hl.left, rfl⟩
      exact ⟨0, v, .zero v, hs2.symm.trans hl⟩

end Neutron.World
