import Verif.Proof.AppFlow
import Verif.Props.Reach
import Verif.Props.Flow
import Verif.Props.EndToEnd

/-!
# C129: while a receive waits, the broker holds permits it has not used, counted on the wire
-/

namespace Neutron.Props

open Neutron App World

variable {T : Type}

/-- The permits in a command of client `i` on a connection. -/
def permitsOf (i : Nat) (c : Sys.ConnCmd) : Nat :=
  match c.origin, c.out with
  | some (j, _), .flow f => if j = i then f.messagePermits.toNat else 0
  | _, _ => 0

theorem flow_given {i : Nat} {f : Flow} (hf : f.consumerId = UInt64.ofNat i) :
    permitsIn (UInt64.ofNat i) f.toCommand = f.messagePermits.toNat := by
  unfold permitsIn
  have h1 : commandType f.toCommand.command = 11 := commandType_base 11 11 _
  have h2 : getMsg .baseCommand f.toCommand.command 11 =
      some (mkMsg .commandFlow [(1, vU64 f.consumerId), (2, [.int f.messagePermits.toNat])]) := by
    unfold getMsg Flow.toCommand baseCommand
    rw [getF_mk _ _ _ rfl]
    rfl
  have h3 : getU64 .commandFlow (mkMsg .commandFlow [(1, vU64 f.consumerId), (2, [.int f.messagePermits.toNat])]) 1 = f.consumerId :=
    u64_of rfl rfl
  have h4 : getU64 .commandFlow (mkMsg .commandFlow [(1, vU64 f.consumerId), (2, [.int f.messagePermits.toNat])]) 2 =
      UInt64.ofNat f.messagePermits.toNat := by
    unfold getU64
    rw [getF_mk _ _ _ rfl]
    rfl
  rw [if_pos h1, h2]
  simp only []
  rw [h3, h4, if_pos hf, UInt64.toNat_ofNat']
  exact Nat.mod_eq_of_lt (Nat.lt_trans f.messagePermits.toNat_lt (by decide))

theorem sent_permits {i : Nat} {b : BrokerAddress} {cfg : Sys.Cfg} : ∀ (l : List (BrokerAddress × Sys.ConnCmd)),
    (∀ b' cmd, (b', cmd) ∈ Sys.passedOn l i → (∃ f, cmd.out = .flow f) → b' = b) →
    (∀ b' c, (b', c) ∈ l → ∀ j cmd, c.origin = some (j, cmd) → Sys.Passes cfg cmd.out c.out) →
    ((Sys.flowsOf ((Sys.passedOn l i).map (·.2))).map (·.toNat)).sum = ((Sys.sentTo l b).map (permitsOf i)).sum := by
  intro l
  induction l with
  | nil => intro _ _; rfl
  | cons p l ih =>
    intro h1 h2
    obtain ⟨b', c⟩ := p
    have h1' : ∀ b' cmd, (b', cmd) ∈ Sys.passedOn l i → (∃ f, cmd.out = .flow f) → b' = b := by
      intro b2 cmd hm
      refine h1 b2 cmd ?_
      unfold Sys.passedOn at hm ⊢
      rw [List.filterMap_cons]
      split
      · exact hm
      · exact List.mem_cons_of_mem _ hm
    have ih := ih h1' fun b2 c2 hm => h2 b2 c2 (List.mem_cons_of_mem _ hm)
    have e1 : Sys.passedOn ((b', c) :: l) i = Sys.passedOn [(b', c)] i ++ Sys.passedOn l i := by
      unfold Sys.passedOn
      rw [← List.filterMap_append, List.singleton_append]
    have e2 : Sys.sentTo ((b', c) :: l) b = Sys.sentTo [(b', c)] b ++ Sys.sentTo l b := by
      rw [← Sys.sentTo_append, List.singleton_append]
    rw [e1, e2, List.map_append, Sys.flowsOf_append, List.map_append, List.sum_append, List.map_append, List.sum_append, ih]
    congr 1
    have zero : permitsOf i c = 0 → ((Sys.sentTo [(b', c)] b).map (permitsOf i)).sum = 0 := by
      intro hz
      by_cases hb : b' = b <;> simp [Sys.sentTo, hb, hz]
    cases ho : c.origin with
    | none =>
      rw [zero (by simp [permitsOf, ho])]
      simp [Sys.passedOn, ho, Sys.flowsOf]
    | some q =>
      obtain ⟨j, cmd⟩ := q
      have hpass := h2 b' c (by simp) j cmd ho
      by_cases hj : j = i
      · subst hj
        cases hout : cmd.out with
        | flow f =>
          have hb : b' = b := h1 b' cmd (by rw [e1]; simp [Sys.passedOn, ho]) ⟨f, hout⟩
          have hco : c.out = .flow f := by
            unfold Sys.Passes at hpass
            rw [hout] at hpass
            exact hpass
          simp [Sys.passedOn, Sys.sentTo, ho, hb, Sys.flowsOf, hout, permitsOf, hco]
        | _ =>
          have hco : ∀ f, c.out ≠ .flow f := by
            intro f hc
            unfold Sys.Passes at hpass
            rw [hout, hc] at hpass
            first
            | (obtain ⟨_, _, _, hx⟩ := hpass; cases hx)
            | cases hpass
          have hz : permitsOf j c = 0 := by
            unfold permitsOf
            rw [ho]
            split
            · exact absurd ‹c.out = _› (hco _)
            · rfl
          rw [zero hz]
          simp [Sys.passedOn, ho, Sys.flowsOf, hout]
      · have hz : permitsOf i c = 0 := by
          unfold permitsOf
          rw [ho]
          split
          · rename_i hx _; cases hx; rw [if_neg hj]
          · rfl
        rw [zero hz]
        simp [Sys.passedOn, ho, hj, Sys.flowsOf]

/-- The permits in the commands of a client that were written to a connection the broker has been given. -/
theorem written_given {cfg : World.Cfg T} {log : List World.Act} {w : World T} (h : World.Run cfg log w) (i : Nat) (b : BrokerAddress)
    (hv : Fits w) : Given w b (UInt64.ofNat i) (((w.sys.conns b).written.map (permitsOf i)).sum) := by
  have hr : Sys.Reachable cfg.sys w.sys := by obtain ⟨lg, hl, _⟩ := sys_log h; exact ⟨lg, hl⟩
  have hsent := (Sys.cmd hr).sentOk
  obtain ⟨l1, l2, h1, h2, h3, h4, h5⟩ := left h b
  have hl1 : ∀ x ∈ l1, x.1 ∈ (w.sys.conns b).processed := fun x hx => h4.subset (List.mem_map_of_mem (List.mem_append_left _ hx))
  obtain ⟨l', k1, k2⟩ := frames_enc (oc := cfg.overflowChecks) (l := l1) (fun x hx => h1 x (List.mem_append_left _ hx))
    (fun x hx => hv b x.1 (hl1 x hx))
  refine ⟨l'.map (·.2), ⟨?_, ?_⟩, ?_⟩
  · intro f hf
    obtain ⟨z, hz, rfl⟩ := List.mem_map.mp hf
    exact (k2 z hz).2
  · have : Framed.stream (l'.map (·.2)) = (l1.map (·.2)).flatten := by
      rw [← k1]; unfold Framed.stream; simp [Function.comp_def]
    rw [this]; exact h3
  · have hfst : l'.map (·.1) = l1.map (·.1) := by rw [← k1]; simp [Function.comp_def]
    refine Nat.le_trans ((h5.map (permitsOf i)).sum_le_sum fun _ _ => Nat.zero_le _) ?_
    rw [← hfst, List.map_map, List.map_map]
    have hall : ∀ x ∈ l', permitsOf i x.1 ≤ permitsIn (UInt64.ofNat i) x.2.1 := by
      intro x hx
      have hxp : x.1 ∈ (w.sys.conns b).processed := by
        have : x.1 ∈ l1.map (·.1) := by rw [← hfst]; exact List.mem_map_of_mem hx
        obtain ⟨y, hy, he⟩ := List.mem_map.mp this
        rw [← he]; exact hl1 y hy
      obtain ⟨⟨now, hnow⟩, _⟩ := k2 x hx
      unfold permitsOf
      split
      · rename_i j cmd f ho hout
        split
        · rename_i hj
          subst hj
          have hxp : x.1 ∈ Sys.sentTo w.sys.sent b := by
            rw [← (Sys.conn hr).accepted b, ((Sys.conn hr).ok b).fifo]; exact List.mem_append_left _ hxp
          obtain ⟨⟨b2, c2⟩, hs, he⟩ := List.mem_filterMap.mp hxp
          simp only [Option.ite_none_right_eq_some, Option.some.injEq] at he
          obtain ⟨_, rfl⟩ := he
          have hso := hsent b2 _ hs
          rw [ho] at hso
          obtain ⟨core, call, m1, m2, _⟩ := Sys.made_handled hr hso.1 hso.2.1
          have hpo := hso.2.2
          rw [m2, hout] at hpo
          rw [hout] at hnow
          have hv : x.2.1 = f.toCommand := (Outcome.ok.inj hnow).symm
          rw [hv]
          refine Nat.le_of_eq (flow_given ?_).symm
          cases call with
          | flow n =>
            simp only [Client.issue, Sys.Passes] at hpo
            rw [Outbound.flow.inj hpo]; exact m1
          | connect | connectToProxy =>
            simp only [Client.issue, Sys.Passes] at hpo
            obtain ⟨_, _, _, hx⟩ := hpo; cases hx
          | _ => simp only [Client.issue, Sys.Passes] at hpo; cases hpo
        · exact Nat.zero_le _
      · exact Nat.zero_le _
    clear hfst k1 k2
    induction l' with
    | nil => exact Nat.le_refl _
    | cons x l' ih =>
      simp only [List.map_cons, List.sum_cons, Function.comp_apply]
      exact Nat.add_le_add (hall x (by simp)) (ih fun y hy => hall y (List.mem_cons_of_mem _ hy))

/-- What a client has asked its broker for in permits the broker has been given, once the engine has taken the client's commands and the
connection has written what was passed to it. -/
theorem permits_given {cfg : World.Cfg T} {log : List World.Act} {w : World T} (h : World.Run cfg log w) {i : Nat} (hi : i < w.sys.nClients)
    {b : BrokerAddress} (hm : w.sys.mode ≠ .stopped) (hn : w.sys.nClients ≤ 2 ^ 64) (hq : (w.sys.clients i).queue = [])
    (hto : ∀ b' cmd, (b', cmd) ∈ Sys.passedOn w.sys.sent i → (∃ f, cmd.out = .flow f) → b' = b)
    (hok : WritesSucceed b log) (hl : (w.sys.conns b).alive = true) (hcq : (w.sys.conns b).queue = []) (hv : Fits w) :
    Given w b (UInt64.ofNat i) (((Sys.flowsOf (w.sys.clients i).submitted).map (·.toNat)).sum) := by
  have hr : Sys.Reachable cfg.sys w.sys := by obtain ⟨lg, hl, _⟩ := sys_log h; exact ⟨lg, hl⟩
  have hsent := (Sys.cmd hr).sentOk
  have hpass : ∀ b' c, (b', c) ∈ w.sys.sent → ∀ j cmd, c.origin = some (j, cmd) → Sys.Passes cfg.sys cmd.out c.out := by
    intro b' c hc j cmd ho
    have := hsent b' c hc
    rw [ho] at this
    exact this.2.2
  have hsub := (Sys.cmd hr).submittedEq i hi (.inr hm)
  rw [hq, List.append_nil] at hsub
  have hcmds : (Sys.passedOn w.sys.sent i).map (·.2) = (w.sys.clients i).submitted := by
    rw [((Sys.cmd hr).routedEq hn hm i hi).1, Sys.routeAll_map_snd, hsub]
  have hsum := sent_permits (cfg := cfg.sys) w.sys.sent hto hpass
  rw [hcmds] at hsum
  obtain ⟨d, d1, d2, _⟩ := writes_all log (.nil (cfg := cfg)) (run_steps_of .nil (by simpa using h)) hok hv hl
  have f := ((Sys.conn hr).ok b).fifo
  rw [hcq, List.append_nil, (Sys.conn hr).accepted b] at f
  have h0 : ((World.init cfg).sys.conns b).processed = [] ∧ ((World.init cfg).sys.conns b).written = [] := ⟨rfl, rfl⟩
  rw [h0.1, List.nil_append] at d1
  rw [h0.2, List.nil_append] at d2
  rw [hsum, f, d1, ← d2]
  exact written_given h i b hv

theorem answered_ok {evs : List Ev} (h : Answered evs) {c : Call} {r : Outcome Nat} (hm : .handed c r ∈ evs) : ∃ t, r = .ok t := by
  induction h with
  | nil => cases hm
  | call c' t _ evs h ih =>
    simp only [List.mem_cons, Ev.handed.injEq, reduceCtorEq, false_or] at hm
    rcases hm with ⟨_, rfl⟩ | hm
    · exact ⟨t, rfl⟩
    · exact ih hm
  | flow n t evs h ih =>
    simp only [List.mem_cons, Ev.handed.injEq] at hm
    rcases hm with ⟨_, rfl⟩ | hm
    · exact ⟨t, rfl⟩
    · exact ih hm

/-- The last step of a consumer's `connect` that returned `Ok` is handing over its first permits. -/
theorem first_flow {cfg : World.Cfg T} {acts : List App.Act} {log : List World.Act} {a : App.State T} (h : App.Run cfg acts log a)
    {j : App.Job} (hj : j ∈ a.jobs) {b : ConsumerBuilder Unit} (hm : j.made = .consumer b) (he : j.ended = some (.ok ())) :
    j.owns = true ∧ ∃ t, .handed (.flow 500) (.ok t) ∈ j.events := by
  obtain ⟨hst, hown⟩ := (start_of h j hj).1 b hm
  refine ⟨hown, ?_⟩
  cases kind h j hj with
  | missing hp => rw [ended_ret.mp he] at hp; cases hp
  | producer _ _ _ _ hm' => rw [hm] at hm'; cases hm'
  | call _ _ _ _ hm' => rw [hm] at hm'; cases hm'
  | consumer b' name topic subscription hb hm' hn hs =>
    rw [hm] at hm'
    cases hm'
    rw [consumer_setup b hb.1 hb.2.1 hb.2.2] at hst
    obtain ⟨i, hc, hr⟩ := setup_ok h hj he hs hst
    cases C40_consumer_result hr with
    | ok hcalls _ =>
      have hmem : Call.flow 500 ∈ calls j.events := by
        rw [hcalls]; exact List.mem_append_right _ (by simp)
      obtain ⟨ev, hev, hx⟩ := List.mem_filterMap.mp hmem
      split at hx
      · rename_i c r
        cases hx
        obtain ⟨t, rfl⟩ := answered_ok (answered_consumer hr) hev
        exact ⟨t, hev⟩
      · cases hx

/-- **C129.**  A consumer's `connect` has returned `Ok`.  Once the engine has taken what the consumer's client handed over and the
connection to its broker has written what was passed to it, the broker has been given (in `FLOW` commands for this consumer that it has
received whole) all the permits the consumer counts as granted, those of `connect` included. -/
theorem C129_given {cfg : World.Cfg T} {acts : List App.Act} {log : List World.Act} {a : App.State T} (h : App.Run cfg acts log a)
    (hP : cfg.app.permits = 250) {j : App.Job} (hj : j ∈ a.jobs) {builder : ConsumerBuilder Unit} (hm : j.made = .consumer builder)
    (hc : j.client = some cfg.me) (he : j.ended = some (.ok ())) {b : BrokerAddress} (hrun : a.world.sys.mode ≠ .stopped)
    (hn : a.world.sys.nClients ≤ 2 ^ 64) (hq : (a.world.sys.clients cfg.me).queue = [])
    (hto : ∀ b' cmd, (b', cmd) ∈ Sys.passedOn a.world.sys.sent cfg.me → (∃ f, cmd.out = .flow f) → b' = b)
    (hok : WritesSucceed b log) (hl : (a.world.sys.conns b).alive = true) (hcq : (a.world.sys.conns b).queue = [])
    (hv : Fits a.world) : Given a.world b (UInt64.ofNat cfg.me) a.world.app.grants := by
  have hw := run_world h
  obtain ⟨hown, t, ht⟩ := first_flow h hj hm he
  obtain ⟨hi, hsub⟩ := flows h j hj hown hc 500 t ht
  obtain ⟨fs, h1, h2⟩ := permits_given hw hi hrun hn hq hto hok hl hcq hv
  refine ⟨fs, h1, Nat.le_trans ?_ h2⟩
  obtain ⟨lg, al, hp⟩ := proj hw
  have hhead := granted_head hp.app
  have : a.world.app.grants = (((500 : UInt32) :: a.world.app.granted.tail).map (·.toNat)).sum := by
    unfold Consumer.State.grants
    obtain ⟨l, hl⟩ := hhead
    rw [hl, hP]
    rfl
  rw [this]
  exact (hsub.map _).sum_le_sum fun _ _ => Nat.zero_le _

/-- **C129, flow control end to end.**  A consumer's `connect` has returned `Ok`; from some point on, before anything was read for it, its
client was attached to broker `b`; never more than 251 receiving calls were in progress; the messages the broker sent to it are single
ones whose payload decodes.  At a moment when a receiving call waits with nothing left to read, pass on or write, the broker has been given
more permits, in `FLOW` commands it has received whole, than it has sent messages to this consumer: it may send the next one. -/
theorem C129_not_starved {cfg : World.Cfg T} {acts : List App.Act} {l1 l2 : List World.Act} {a : App.State T}
    (h : App.Run cfg acts (l1 ++ l2) a) (hP : cfg.app.permits = 250) {j : App.Job} (hj : j ∈ a.jobs)
    {builder : ConsumerBuilder Unit} (hm : j.made = .consumer builder) (hc : j.client = some cfg.me) (he : j.ended = some (.ok ()))
    {b : BrokerAddress} (hn : a.world.sys.nClients ≤ 2 ^ 64) (hcalls : CallsAtMost cfg 251 (l1 ++ l2))
    -- what the broker has sent
    {w : World T} (h1 : World.Run cfg l1 w) (hi : cfg.me < w.sys.nClients) (h0 : ∀ b', readFor w cfg.me b' = [])
    (hatt : World.Path cfg (fun w => Attached cfg.me b w.sys) w l2 a.world) {frames : List (MessageCommand × Bytes)} {part : Bytes}
    (hs : HasSent b (l1 ++ l2) frames part)
    (hsingle : ∀ m ∈ Sys.addressedTo (UInt64.ofNat cfg.me) (messagesOf (frames.map (·.1))),
      Consumer.isSingle m = true ∧ Consumer.decodable cfg.app.decode m)
    -- all of it read and passed on, all commands taken and written
    (hread : (Framed.pollNext (a.world.rx b).framed (a.world.rx b).socket).1 = .pending) (hpassed : (a.world.sys.conns b).outbox = [])
    (hq : (a.world.sys.clients cfg.me).queue = [])
    (hto : ∀ b' cmd, (b', cmd) ∈ Sys.passedOn a.world.sys.sent cfg.me → (∃ f, cmd.out = .flow f) → b' = b)
    (hok : WritesSucceed b (l1 ++ l2)) (hl : (a.world.sys.conns b).alive = true) (hcq : (a.world.sys.conns b).queue = [])
    (hv : Fits a.world)
    -- a call waits
    {i : Nat} (hw : a.world.app.waiting i) (hstuck : Consumer.step cfg.app a.world.app (.run i) = none) :
    Given a.world b (UInt64.ofNat cfg.me)
      ((Sys.addressedTo (UInt64.ofNat cfg.me) (messagesOf (frames.map (·.1)))).length + 1) := by
  have hrun : a.world.sys.mode ≠ .stopped := (worldPath_end hatt).2.2.2
  obtain ⟨fs, g1, g2⟩ := C129_given h hP hj hm hc he hrun hn hq hto hok hl hcq hv
  refine ⟨fs, g1, Nat.le_trans ?_ g2⟩
  have hatt' : World.Path cfg (fun w => AttachedUntilStop cfg.me b w.sys) w l2 a.world := by
    clear hread hpassed hw hstuck hs hsingle hq hto hok hl hcq hv hrun g1 g2 hj hc h hcalls hn
    generalize a.world = w' at hatt
    induction hatt with
    | nil hx => exact .nil (.inl hx)
    | snoc _ hs hx ih => exact .snoc ih hs (.inl hx)
  obtain ⟨lg, al, hpr, _, hd⟩ := reached h1 hi h0 hatt'
  have hd := hd hrun hpassed
  rw [read_all hpr hs hread] at hd
  obtain ⟨lg', al', hpr', hmost⟩ := proj_atMost (run_world h) hcalls
  have hdel : Consumer.delivered al' = Consumer.delivered al := by rw [hpr'.delivered, hpr.delivered]
  have hcfg : cfg.app = ⟨cfg.app.decode, 250, cfg.app.plugins⟩ := by rw [← hP]
  have hall : ∀ m ∈ Consumer.delivered al', Consumer.isSingle m = true ∧ Consumer.decodable cfg.app.decode m := by
    rw [hdel, hd]; exact hsingle
  have hus := C54_not_starved hmost (by rw [hP]; decide) (by rw [hP]; decide) (by rw [hP]; decide) hall hw hstuck
  have hlen : Consumer.usedBy al' = (Sys.addressedTo (UInt64.ofNat cfg.me) (messagesOf (frames.map (·.1)))).length := by
    unfold Consumer.usedBy
    rw [hdel, hd]
    clear hd hread hs
    generalize Sys.addressedTo (UInt64.ofNat cfg.me) (messagesOf (frames.map (·.1))) = ms at hsingle
    induction ms with
    | nil => rfl
    | cons m ms ih =>
      have hm1 := (hsingle m (by simp)).1
      rw [List.map_cons, List.sum_cons, ih fun m' hm' => hsingle m' (List.mem_cons_of_mem _ hm'), List.length_cons]
      cases m with
      | single => simp [Consumer.weight, Nat.add_comm]
      | batch => cases hm1
  rw [← hlen]
  exact hus

end Neutron.Props
