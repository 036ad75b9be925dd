import Verif.Spec.Subscribed
import Verif.Props.OnePlace
import Verif.Props.EndToEnd
import Verif.Props.AppFail
import Verif.Proof.AppReach

/-!
# A consumer's messages are one broker's: C136
-/

namespace Neutron

namespace Sys

/-- Once something late has gone to `b`, the client stays there. -/
theorem last_settled {cfg : Cfg} {l : List ClientCmd} : ∀ {cur : BrokerAddress}, Settles (l.map (·.out)) →
    ∀ p ∈ routeAll cfg cur l, Late p.2.out → lastHop cfg cur l = p.1 := by
  induction l with
  | nil => intro cur _ p hp; cases hp
  | cons c l ih =>
    intro cur hs p hp lp
    rw [List.map_cons] at hs
    obtain ⟨h1, h2⟩ := List.pairwise_cons.mp hs
    simp only [routeAll, List.mem_cons] at hp
    rcases hp with rfl | hp
    · have still : ∀ (l : List ClientCmd) (cur : BrokerAddress), (∀ x ∈ l, ¬ Moves x.out) → lastHop cfg cur l = cur := by
        intro l
        induction l with
        | nil => intro cur _; rfl
        | cons x l ih =>
          intro cur h
          simp only [lastHop]
          rw [hop_still (h x (by simp))]
          exact ih cur fun y hy => h y (List.mem_cons_of_mem _ hy)
      exact still l _ fun x hx => h1 x.out (List.mem_map_of_mem hx) lp
    · exact ih h2 p hp lp

/-- A client for which something late has been passed on to `b` is attached to `b` while the engine runs. -/
theorem attached_of {cfg : Cfg} {s : State} (h : Reachable cfg s) (hn : s.nClients ≤ 2 ^ 64) {i : Nat} (hi : i < s.nClients)
    (hset : Settles ((s.clients i).submitted.map (·.out))) (hg : (s.clients i).phase ≠ .gone) (hm : s.mode ≠ .stopped)
    {b : BrokerAddress} {cm : ClientCmd} (hb : (b, cm) ∈ passedOn s.sent i) (hl : Late cm.out) : Props.Attached i b s := by
  have hc := cmd h
  obtain ⟨h1, h2⟩ := hc.routedEq hn hm i hi
  have hp : Settles ((s.clients i).handled.map (·.out)) := by
    obtain ⟨q, hq⟩ := (List.prefix_append _ _).trans (hc.submitted i hi)
    rw [← hq, List.map_append] at hset
    exact (List.pairwise_append.mp hset).1
  rw [h1] at hb
  have hv : i ∈ s.vec := by
    refine Classical.byContradiction fun hv => ?_
    rw [hc.idle i hi hv] at hb
    cases hb
  exact ⟨hv, (h2 hv).trans (last_settled hp _ hb hl), hg, hm⟩

end Sys

namespace Props

open World Proto

variable {T : Type}

theorem isMessageFor_of {v : MessageCommand} {m : Message} (h : Inbound.ofCommand v = .ok (.message m)) : IsMessageFor v m.consumerId := by
  have hm : commandType v.command = 9 ∧ Message.ofCommand v = .ok m := by
    unfold Inbound.ofCommand at h
    simp only [] at h
    by_cases h18 : commandType v.command = 18
    · rw [if_pos h18] at h; cases h
    rw [if_neg h18] at h
    by_cases h19 : commandType v.command = 19
    · rw [if_pos h19] at h; cases h
    rw [if_neg h19] at h
    by_cases h3 : commandType v.command = 3
    · rw [if_pos h3] at h; cases h
    rw [if_neg h3] at h
    by_cases h7 : commandType v.command = 7
    · rw [if_pos h7] at h; cases hx : SendReceipt.ofCommand v <;> rw [hx] at h <;> cases h
    rw [if_neg h7] at h
    by_cases h38 : commandType v.command = 38
    · rw [if_pos h38] at h; cases hx : AckReciept.ofCommand v <;> rw [hx] at h <;> cases h
    rw [if_neg h38] at h
    by_cases h9 : commandType v.command = 9
    · rw [if_pos h9] at h
      refine ⟨h9, ?_⟩
      cases hx : Message.ofCommand v <;> rw [hx] at h <;> cases h
      rfl
    rw [if_neg h9] at h
    by_cases h24 : commandType v.command = 24
    · rw [if_pos h24] at h; cases hx : LookupTopicResponse.ofCommand v <;> rw [hx] at h <;> cases h
    rw [if_neg h24] at h
    by_cases h36 : commandType v.command = 36
    · rw [if_pos h36] at h; cases h
    rw [if_neg h36] at h
    by_cases h13 : commandType v.command = 13
    · rw [if_pos h13] at h; cases hx : successOfCommand v <;> rw [hx] at h <;> cases h
    rw [if_neg h13] at h
    by_cases h17 : commandType v.command = 17
    · rw [if_pos h17] at h; cases hx : ProducerSuccess.ofCommand v <;> rw [hx] at h <;> cases h
    rw [if_neg h17] at h
    cases h
  obtain ⟨h9, hm⟩ := hm
  refine ⟨h9, ?_⟩
  cases hg : getMsg .baseCommand v.command 9 with
  | none =>
    exfalso
    unfold Message.ofCommand at hm
    rw [hg] at hm
    have : getMsg .commandMessage (newMsg pulsar .commandMessage) 2 = none := by decide
    simp only [Option.getD_none, this] at hm
    cases hm
  | some cm =>
    refine ⟨cm, rfl, ?_⟩
    unfold Message.ofCommand at hm
    rw [hg] at hm
    simp only [Option.getD_some] at hm
    cases h2 : getMsg .commandMessage cm 2 with
    | none => rw [h2] at hm; cases hm
    | some mid =>
      rw [h2] at hm
      cases hpl : v.payload with
      | none => rw [hpl] at hm; cases hm
      | some p =>
        rw [hpl] at hm
        simp only [Outcome.unwrap, Outcome.bind_ok] at hm
        split at hm
        · cases hx : parseBatchedMessage (numMessagesInBatch p.metadata).toNat p.data <;> rw [hx] at hm <;> cases hm
          rfl
        · cases hm; rfl

/-- What a step adds to what has been read for a client. -/
theorem readFor_step {cfg : World.Cfg T} {w w' : World T} {x : World.Act} (hs : World.step cfg w x = some w') (i : Nat) (b : BrokerAddress) :
    readFor w' i b = readFor w i b ∨ ∃ answers v, x = .poll b answers ∧
      (Framed.pollNext (w.rx b).framed (w.rx b).socket).1 = .item v ∧ IsMessageFor v (UInt64.ofNat i) := by
  have hrx := App.rx_step hs b
  have same : (readEvents b [x] = [] ∨ ∃ r, readEvents b [x] = [.arrive r]) → readFor w' i b = readFor w i b := by
    intro h
    have : (w'.rx b).out = (w.rx b).out := by
      rw [hrx]
      rcases h with h | ⟨r, h⟩ <;> rw [h]
      · rfl
      · rfl
    unfold readFor
    rw [this]
  cases x with
  | arrive b' r =>
    refine .inl (same ?_)
    by_cases hb : b' = b
    · exact .inr ⟨r, by simp [readEvents, hb]⟩
    · exact .inl (by simp [readEvents, hb])
  | poll b' answers =>
    by_cases hb : b' = b
    · subst hb
      have he : readEvents b' [.poll b' answers] = [.poll] := by simp [readEvents]
      rw [he] at hrx
      by_cases hst : (w.rx b').stopped = true
      · refine .inl ?_
        have : (w'.rx b').out = (w.rx b').out := by
          rw [hrx]
          simp [Framed.ReadSide.step, hst]
        unfold readFor
        rw [this]
      · have hout := (poll_out (s := w.rx b') (by simpa using hst)).1
        have hrx' : w'.rx b' = (w.rx b').step .poll := hrx
        rw [← hrx'] at hout
        unfold readFor
        rw [hout]
        have app : ∀ p, commandsOf ((w.rx b').out ++ [p]) = commandsOf (w.rx b').out ++ commandsOf [p] := fun p => List.filterMap_append
        cases hp : (Framed.pollNext (w.rx b').framed (w.rx b').socket).1 with
        | pending => exact .inl (by simp)
        | item v =>
          simp only [app]
          rw [show messagesOf (commandsOf (w.rx b').out ++ commandsOf [.item v]) = messagesOf (commandsOf (w.rx b').out) ++ messagesOf [v] from
            List.filterMap_append, Sys.addressedTo_append]
          cases hv : Inbound.ofCommand v with
          | ok m =>
            cases m with
            | message m =>
              by_cases hid : m.consumerId = UInt64.ofNat i
              · exact .inr ⟨answers, v, rfl, rfl, hid ▸ isMessageFor_of hv⟩
              · exact .inl (by simp [messagesOf, hv, Sys.addressedTo, hid])
            | _ => exact .inl (by simp [messagesOf, hv, Sys.addressedTo])
          | _ => exact .inl (by simp [messagesOf, hv, Sys.addressedTo])
        | _ => exact .inl (by simp only [app]; simp [commandsOf])
    · exact .inl (same (.inl (by simp [readEvents, hb])))
  | _ => exact .inl (same (.inl rfl))

/-- A received command naming client `i` was passed on for it. -/
theorem late_of {cfg : World.Cfg T} {log : List World.Act} {w : World T} (h : World.Run cfg log w) (hv : Fits w)
    (hn : w.sys.nClients ≤ 2 ^ 64) {i : Nat} (hi : i < 2 ^ 64) {b : BrokerAddress} {m : MessageCommand} (hm : Received (w.tx b).sent m)
    (hp : NamesClient m (UInt64.ofNat i)) : i < w.sys.nClients ∧ ∃ cm, (b, cm) ∈ Sys.passedOn w.sys.sent i ∧ Late cm.out := by
  obtain ⟨_, _, hpr⟩ := proj h
  obtain ⟨fs, hb, hm⟩ := hm
  obtain ⟨l, l1, l2, l3⟩ := received_of h hv b hb
  rw [← l2] at hm
  obtain ⟨⟨c, v2⟩, hc, rfl⟩ := List.mem_map.mp hm
  obtain ⟨now, hnow⟩ := l3 _ hc
  obtain ⟨j, cm, h1, h2, h3, h4⟩ := named_taken ⟨_, hpr.sys⟩ (l1.subset (List.mem_map_of_mem hc)) (named_of_command hnow hp)
  have hij : i = j := by
    have := congrArg UInt64.toNat h2
    rw [UInt64.toNat_ofNat', UInt64.toNat_ofNat', Nat.mod_eq_of_lt (by omega), Nat.mod_eq_of_lt (by omega)] at this
    exact this
  subst hij
  exact ⟨h1, cm, h3, h4⟩

/-- What holds at the end, and so held before. -/
structure Regular (i : Nat) (w : World T) : Prop where
  fits : Fits w
  few : w.sys.nClients ≤ 2 ^ 64
  settled : i < w.sys.nClients → Neutron.Settles ((w.sys.clients i).submitted.map (·.out))

theorem world_few {cfg : World.Cfg T} {w w' : World T} {x : World.Act} (hs : World.step cfg w x = some w') :
    w.sys.nClients ≤ w'.sys.nClients :=
  App.world_step_induct (fun s => w.sys.nClients ≤ s.nClients) (fun _ _ _ h1 h2 => Nat.le_trans h1 (Sys.nClients_mono h2)) (Nat.le_refl _) hs

theorem Regular.back {cfg : World.Cfg T} {log : List World.Act} {w w' : World T} {x : World.Act} (h : World.Run cfg log w)
    (hs : World.step cfg w x = some w') {i : Nat} (st : Regular i w') : Regular i w := by
  have hn := world_few hs
  refine ⟨?_, Nat.le_trans hn st.few, fun hi => ?_⟩
  · intro b c hc
    refine st.fits b c ?_
    cases write_step h hs b with
    | same ht hp hw => rw [hp]; exact hc
    | sent now io c q r hq ht hp hw => rw [hp]; exact List.mem_append_left _ hc
  · have h1 := st.settled (Nat.lt_of_lt_of_le hi hn)
    have hsub := (App.world_step_induct (fun s => i < s.nClients ∧ (w.sys.clients i).submitted <+: (s.clients i).submitted)
      (fun _ _ _ h1 h2 => ⟨Nat.lt_of_lt_of_le h1.1 (Sys.nClients_mono h2), h1.2.trans (App.submitted_mono h2 h1.1)⟩)
      ⟨hi, List.prefix_rfl⟩ hs).2
    obtain ⟨q, hq⟩ := hsub
    rw [← hq, List.map_append] at h1
    exact (List.pairwise_append.mp h1).1

/-- The client has not been dropped. -/
def Stays (i : Nat) (w : World T) : Prop := i < w.sys.nClients → (w.sys.clients i).phase ≠ .gone

theorem Stays.back {cfg : World.Cfg T} {w w' : World T} {x : World.Act} (hs : World.step cfg w x = some w') {i : Nat} (st : Stays i w') :
    Stays i w := fun hi hg => st (Nat.lt_of_lt_of_le hi (world_few hs))
  (App.world_step_induct (fun s => i < s.nClients ∧ (s.clients i).phase = .gone)
    (fun _ _ _ h1 h2 => ⟨Nat.lt_of_lt_of_le h1.1 (Sys.nClients_mono h2), Sys.gone_step h2 h1.1 h1.2⟩) ⟨hi, hg⟩ hs).2

/-- What a dropped consumer has handed out it had handed out before it was dropped. -/
theorem before_drop {cfg : World.Cfg T} {log : List World.Act} {w : World T} (h : World.Run cfg log w) :
    ∃ pre post w0, log = pre ++ post ∧ World.Run cfg pre w0 ∧ Stays cfg.me w0 ∧ w.app.handedOut = w0.app.handedOut := by
  induction h with
  | nil => exact ⟨[], [], _, rfl, .nil, fun hi => absurd hi (Nat.not_lt_zero _), rfl⟩
  | @snoc log w w' x h hs ih =>
    by_cases hst : Stays cfg.me w'
    · exact ⟨log ++ [x], [], w', by simp, h.snoc hs, hst, rfl⟩
    · obtain ⟨pre, post, w0, e, r, s0, eq⟩ := ih
      refine ⟨pre, post ++ [x], w0, by rw [e, List.append_assoc], r, s0, Eq.trans ?_ eq⟩
      obtain ⟨hi', hg'⟩ : cfg.me < w'.sys.nClients ∧ (w'.sys.clients cfg.me).phase = .gone := by
        unfold Stays at hst
        exact Classical.byContradiction fun hc => hst fun hi hg => hc ⟨hi, hg⟩
      cases x with
      | app y =>
        exfalso
        simp only [World.step] at hs
        split at hs
        · rename_i hown
          split at hs
          · rename_i app happ
            split at hs
            · rename_i s hsys
              cases hs
              obtain ⟨_, _, hpr⟩ := proj h
              have hu : Usable cfg w := by
                rcases usable h with hq | hu
                · have nolive : ∀ (i : Nat) (t : Consumer.Task T), w.app.tasks[i]? = some t → t.stage = .ended := by
                    intro i t ht; exact hq t (List.mem_of_getElem? ht)
                  cases Consumer.step_cases happ with
                  | spawn j =>
                    simp only [own, Bool.and_eq_true, decide_eq_true_eq] at hown
                    exact hown
                  | deliver => cases hown
                  | close => cases hown
                  | ret i t ht o hc | load i t ht _ hc | store i t ht _ _ hc | add i t ht _ _ hc | lock i t ht _ hc | write i t ht _ _ hc
                  | flow i t ht n k hc | refuse i t ht n k hc | recv i t ht k hc | skip i t ht k hc | gone i t ht k hc
                  | plugins i t ht _ hc | loop i t ht _ _ hc | accepted i t ht _ _ hc | rejected i t ht _ _ hc =>
                    rw [nolive _ _ ht] at hc; cases hc
                  | cancel i t ht hc => rw [nolive _ _ ht] at hc; cases hc
                · exact hu
              have hd : Sys.Act.dropClient cfg.me ∉ World.induced cfg w y := by
                unfold World.induced
                cases y <;> simp only [List.not_mem_nil, not_false_eq_true]
                all_goals split
                all_goals first | (split <;> simp) | simp
              have := (usable_sys ⟨_, hpr.sys⟩ hsys hd hu).2
              rw [hg'] at this
              cases this
            · cases hs
          · cases hs
        · cases hs
      | _ =>
        simp only [World.step] at hs
        repeat' split at hs
        all_goals first | (cases hs; rfl) | cases hs

/-- Whether something late has been passed on for `i`, to `b`. -/
def Placed (w : World T) (i : Nat) (b : BrokerAddress) : Prop := ∃ cm, (b, cm) ∈ Sys.passedOn w.sys.sent i ∧ Late cm.out

theorem Placed.step {cfg : World.Cfg T} {w w' : World T} {x : World.Act} (hs : World.step cfg w x = some w') {i : Nat} {b : BrokerAddress}
    (h : Placed w i b) : Placed w' i b := by
  obtain ⟨cm, h1, h2⟩ := h
  refine ⟨cm, ?_, h2⟩
  obtain ⟨q, hq⟩ := App.world_step_induct (fun s => w.sys.sent <+: s.sent) (fun _ _ _ h1 h2 => h1.trans (Sys.sent_prefix h2)) List.prefix_rfl hs
  rw [← hq, Sys.passedOn_append]
  exact List.mem_append_left _ h1

theorem Regular.attached {cfg : World.Cfg T} {log : List World.Act} {w : World T} (h : World.Run cfg log w) {i : Nat} (st : Regular i w)
    (hg : Stays i w) (hi : i < w.sys.nClients) {b : BrokerAddress} (hb : Placed w i b) : AttachedUntilStop i b w.sys := by
  obtain ⟨_, _, hpr⟩ := proj h
  obtain ⟨cm, h1, h2⟩ := hb
  by_cases hm : w.sys.mode = .stopped
  · exact .inr hm
  · exact .inl (Sys.attached_of ⟨_, hpr.sys⟩ st.few hi (st.settled hi) (hg hi) hm h1 h2)

/-- With brokers that deliver only where the consumer has subscribed: either the consumer has nothing yet, or it has been on one
connection since before anything was read for it. -/
theorem one_stream {cfg : World.Cfg T} {log : List World.Act} {w : World T} (h : World.Run cfg log w) {i : Nat} (hi : i < 2 ^ 64)
    (hd : DeliversOnlySubscribed cfg log) (st : Regular i w) (hg : Stays i w) :
    ((∀ b, ¬ Placed w i b) ∧ ∀ b, readFor w i b = []) ∨
    ∃ b pre as w1, log = pre ++ as ∧ World.Run cfg pre w1 ∧ i < w1.sys.nClients ∧ (∀ b', readFor w1 i b' = []) ∧
      World.Path cfg (fun w => AttachedUntilStop i b w.sys) w1 as w ∧ Placed w i b := by
  induction h with
  | nil =>
    refine .inl ⟨?_, fun b => rfl⟩
    rintro b ⟨cm, hc, _⟩
    cases hc
  | @snoc log w w' x h hs ih =>
    have hd' : DeliversOnlySubscribed cfg log := fun pre post b ans w v p he => hd pre (post ++ [x]) b ans w v p (by rw [he]; simp)
    have st' := st.back h hs
    have hg' := hg.back hs
    have lt : ∀ b, Placed w' i b → i < w'.sys.nClients := by
      rintro b ⟨cm, hc, _⟩
      obtain ⟨_, _, hpr⟩ := proj (h.snoc hs)
      unfold Sys.passedOn at hc
      rw [List.mem_filterMap] at hc
      obtain ⟨⟨b', c⟩, k1, k2⟩ := hc
      have := (Sys.cmd ⟨_, hpr.sys⟩).sentOk b' c k1
      cases ho : c.origin with
      | none => simp [ho] at k2
      | some y =>
        obtain ⟨j, cm'⟩ := y
        rw [ho] at this
        simp only [ho, Option.ite_none_right_eq_some] at k2
        have hj : j = i := k2.1
        subst hj
        exact this.1
    rcases ih hd' st' hg' with ⟨h1, h2⟩ | ⟨b, pre, as, w1, e, r1, n1, r0, p1, pl⟩
    · have none : ∀ b, readFor w' i b = [] := by
        intro b
        rcases readFor_step hs i b with h3 | ⟨ans, v, rfl, h3, h4⟩
        · rw [h3]; exact h2 b
        · exfalso
          obtain ⟨m, hm1, hm2⟩ := hd log [] b ans w v _ rfl h h3 h4
          obtain ⟨_, hp⟩ := late_of h st'.fits st'.few hi hm1 (.inr (.inl hm2))
          exact h1 b hp
      by_cases hx : ∃ b, Placed w' i b
      · obtain ⟨b, hb⟩ := hx
        exact .inr ⟨b, log ++ [x], [], w', by simp, h.snoc hs, lt b hb, none, .nil (st.attached (h.snoc hs) hg (lt b hb) hb), hb⟩
      · exact .inl ⟨fun b hb => hx ⟨b, hb⟩, none⟩
    · have pl' := pl.step hs
      refine .inr ⟨b, pre, as ++ [x], w1, by rw [e, List.append_assoc], r1, n1, r0, .snoc p1 hs ?_, pl'⟩
      exact st.attached (h.snoc hs) hg (lt b pl') pl'

theorem Regular.one {cfg : World.Cfg T} {log : List World.Act} {w : World T} (h : World.Run cfg log w) {i : Nat} (st : Regular i w)
    (hi : i < w.sys.nClients) {b b' : BrokerAddress} (hb : Placed w i b) (hb' : Placed w i b') : b' = b := by
  obtain ⟨_, _, hpr⟩ := proj h
  obtain ⟨cm, h1, h2⟩ := hb
  obtain ⟨cm', h1', h2'⟩ := hb'
  have hr : Sys.Reachable cfg.sys w.sys := ⟨_, hpr.sys⟩
  exact Sys.route_one (st.settled hi) _ (passedOn_route hr st.few hi h1') _ (passedOn_route hr st.few hi h1) h2' h2

/-- If nothing has been read for the consumer, nothing has been handed out. -/
theorem nothing_delivered {cfg : World.Cfg T} {log : List World.Act} {w : World T} {slog : List Sys.Act} {appLog : List Consumer.Act}
    (hpr : Proj cfg log w slog appLog) (h0 : ∀ b, readFor w cfg.me b = []) :
    Consumer.delivered appLog = [] := by
  have hr : Sys.Reachable cfg.sys w.sys := ⟨_, hpr.sys⟩
  rw [hpr.delivered]
  refine List.eq_nil_iff_forall_not_mem.mpr fun m hm => ?_
  obtain ⟨b, hb⟩ := Sys.message_source hpr.sys hm
  unfold Sys.messagesIn at hm
  rw [List.mem_filterMap] at hm
  obtain ⟨e, he, hem⟩ := hm
  have he' : e.inb = .message m := by
    cases hx : e.inb <;> simp [hx] at hem
    rw [hem]
  have hi : cfg.me < w.sys.nClients := by
    refine Classical.byContradiction fun hc => ?_
    obtain ⟨k1, k2⟩ := Sys.blank hr cfg.me (Nat.le_of_not_lt hc)
    rw [k1, k2] at he
    cases he
  have hid := C26_ids hr hi he (id := m.consumerId) (by rw [he']; rfl)
  rw [(Sys.wf hr).ids _ hi] at hid
  rw [hpr.socket b] at hb
  have : m ∈ readFor w cfg.me b := by
    unfold readFor Sys.addressedTo
    rw [List.mem_filter]; exact ⟨hb, by simpa using hid.symm⟩
  rw [h0 b] at this
  cases this

theorem regular_of {cfg : World.Cfg T} {acts : List App.Act} {log : List World.Act} {a : App.State T} (h : App.Run cfg acts log a)
    (ho : App.Offers a) (hv : Fits a.world) (hn : a.world.sys.nClients ≤ 2 ^ 64) {i : Nat} : Regular i a.world :=
  ⟨hv, hn, fun hi => App.settles h ho i hi⟩

theorem Regular.prefix {cfg : World.Cfg T} {pre : List World.Act} {w0 : World T} (h0 : World.Run cfg pre w0) {i : Nat} :
    ∀ {log : List World.Act} {w : World T}, World.Run cfg log w → pre <+: log → Regular i w → Regular i w0 := by
  intro log w h
  induction h with
  | nil =>
    intro hp st
    cases List.prefix_nil.mp hp
    cases World.run_unique h0 .nil
    exact st
  | @snoc log w w' x h hs ih =>
    intro hp st
    rcases List.prefix_concat_iff.mp hp with rfl | hp
    · cases World.run_unique h0 (h.snoc hs)
      exact st
    · exact ih hp (st.back h hs)

theorem Placed.later {cfg : World.Cfg T} {pre : List World.Act} {w0 : World T} (h0 : World.Run cfg pre w0) {i : Nat} {b : BrokerAddress} :
    ∀ {log : List World.Act} {w : World T}, World.Run cfg log w → pre <+: log → Placed w0 i b → Placed w i b := by
  intro log w h
  induction h with
  | nil =>
    intro hp st
    cases List.prefix_nil.mp hp
    cases World.run_unique h0 .nil
    exact st
  | @snoc log w w' x h hs ih =>
    intro hp st
    rcases List.prefix_concat_iff.mp hp with rfl | hp
    · cases World.run_unique h0 (h.snoc hs)
      exact st
    · exact (ih hp st).step hs

theorem Sends.prefix {b : BrokerAddress} {pre log : List World.Act} {frames : List (MessageCommand × Bytes)} {part : Bytes} {closed : Bool}
    (h : Sends b log frames part closed) (hp : pre <+: log) : Sends b pre frames part closed := by
  obtain ⟨post, rfl⟩ := hp
  obtain ⟨reads, h1, h2, h3⟩ := h.reads
  refine ⟨h.whole, h.partial', reads, h1, h2, List.IsPrefix.trans ?_ h3⟩
  unfold World.arrived
  rw [readEvents_append]
  have app : ∀ (x y : List Framed.Ev), Framed.arrivals (x ++ y) = Framed.arrivals x ++ Framed.arrivals y := by
    intro x y
    induction x with
    | nil => rfl
    | cons e x ih => cases e <;> simp [Framed.arrivals, ih]
  rw [app]
  exact List.prefix_append _ _

/-- **C136.**  A consumer's messages are one broker's: if the application only makes the calls producers and consumers offer, and brokers
deliver to a consumer only on connections on which it has subscribed, then there is one connection `b` — the only one on which the
consumer ever subscribes — such that everything the consumer has handed out (other than by `next_batch`) is the beginning of what the
messages addressed to it, in the order `b` sent them, mean to the application; however the bytes were cut up, wherever else it had been
connected before, whether or not it has been dropped since, and whatever other brokers, other clients and the engine have done. -/
theorem C136_one_stream {cfg : World.Cfg T} {acts : List App.Act} {log : List World.Act} {a : App.State T}
    (h : App.Run cfg acts log a) (ho : App.Offers a) (hv : Fits a.world) (hn : a.world.sys.nClients ≤ 2 ^ 64)
    (hd : DeliversOnlySubscribed cfg log) (hi : cfg.me < a.world.sys.nClients) (hj : ∀ n, Consumer.Job.batch n ∉ callsMade log) :
    ∃ b, (∀ b' m, Received (a.world.tx b').sent m → IsSubscribe m (UInt64.ofNat cfg.me) → b' = b) ∧
      ∀ frames part closed, Sends b log frames part closed → a.world.app.handedOut <+:
        (Sys.addressedTo (UInt64.ofNat cfg.me) (messagesOf (frames.map (·.1)))).flatMap (Consumer.yields cfg.app.decode) := by
  have hw := App.run_world h
  have st := regular_of (i := cfg.me) h ho hv hn
  obtain ⟨p, q, w0, e0, r, s0, eq⟩ := before_drop hw
  have hpre : p <+: log := ⟨q, e0.symm⟩
  have st0 := Regular.prefix r hw hpre st
  have hd0 : DeliversOnlySubscribed cfg p := fun pre post b ans w v p' he => hd pre (post ++ q) b ans w v p' (by rw [e0, he]; simp)
  have hj0 : ∀ n, Consumer.Job.batch n ∉ callsMade p := fun n hm => hj n (by rw [e0, callsMade_append]; exact List.mem_append_left _ hm)
  rw [eq]
  rcases one_stream r (by omega) hd0 st0 s0 with ⟨h1, h2⟩ | ⟨b, pre, as, w1, e, r1, n1, r0, p1, pl⟩
  · obtain ⟨b, hb⟩ : ∃ b, ∀ b', Placed a.world cfg.me b' → b' = b := by
      by_cases hx : ∃ b, Placed a.world cfg.me b
      · obtain ⟨b, hb⟩ := hx
        exact ⟨b, fun b' hb' => st.one hw hi hb hb'⟩
      · exact ⟨cfg.sys.config.brokerAddress, fun b' hb' => absurd ⟨b', hb'⟩ hx⟩
    refine ⟨b, fun b' m hm hs => hb b' (late_of hw hv hn (by omega) hm (.inr (.inl hs))).2, fun frames part closed hs => ?_⟩
    obtain ⟨slog, appLog, hpr⟩ := proj r
    have h3 := C48_in_order hpr.app (fun n => by rw [hpr.jobs]; exact hj0 n)
    unfold Consumer.stream at h3
    rw [nothing_delivered hpr h2] at h3
    exact h3.trans List.nil_prefix
  · subst e
    have pl' : Placed a.world cfg.me b := by
      exact Placed.later r hw hpre pl
    refine ⟨b, fun b' m hm hs => ?_, fun frames part closed hs => ?_⟩
    · exact st.one hw hi pl' (late_of hw hv hn (by omega) hm (.inr (.inl hs))).2
    · exact C70_socket_to_application r1 n1 r0 p1 (Sends.prefix hs hpre) hj0

/-- And once everything has been read, passed on and asked for, and the engine still runs, all of it has been handed out. -/
theorem C136_all_of_it {cfg : World.Cfg T} {acts : List App.Act} {log : List World.Act} {a : App.State T}
    (h : App.Run cfg acts log a) (ho : App.Offers a) (hv : Fits a.world) (hn : a.world.sys.nClients ≤ 2 ^ 64)
    (hd : DeliversOnlySubscribed cfg log) (hi : cfg.me < a.world.sys.nClients) (hg : (a.world.sys.clients cfg.me).phase ≠ .gone)
    (hj : ∀ n, Consumer.Job.batch n ∉ callsMade log) (hm : a.world.sys.mode ≠ .stopped) {b : BrokerAddress} {m : MessageCommand}
    (hsub : Received (a.world.tx b).sent m) (hms : IsSubscribe m (UInt64.ofNat cfg.me)) {frames : List (MessageCommand × Bytes)}
    {part : Bytes} (hs : HasSent b log frames part)
    (hread : (Framed.pollNext (a.world.rx b).framed (a.world.rx b).socket).1 = .pending) (hpassed : (a.world.sys.conns b).outbox = [])
    {i : Nat} (hwt : a.world.app.waiting i) (hstuck : Consumer.step cfg.app a.world.app (.run i) = none) :
    a.world.app.handedOut =
      (Sys.addressedTo (UInt64.ofNat cfg.me) (messagesOf (frames.map (·.1)))).flatMap (Consumer.yields cfg.app.decode) := by
  have hw := App.run_world h
  have st := regular_of (i := cfg.me) h ho hv hn
  have pl := (late_of hw hv hn (by omega) hsub (.inr (.inl hms))).2
  rcases one_stream hw (by omega) hd st (fun _ => hg) with ⟨h1, h2⟩ | ⟨b', pre, as, w1, e, r1, n1, r0, p1, pl'⟩
  · exact absurd pl (h1 b)
  · subst e
    cases st.one hw hi pl pl'
    refine C70_everything_arrives r1 n1 r0 ?_ hs hj hread hpassed hwt hstuck
    have conv : ∀ {w : World T} {as : List World.Act}, World.Path cfg (fun w => AttachedUntilStop cfg.me b w.sys) w1 as w →
        w.sys.mode ≠ .stopped → World.Path cfg (fun w => Attached cfg.me b w.sys) w1 as w := by
      intro w as hp
      induction hp with
      | nil hx => intro hm; exact .nil (hx.resolve_right hm)
      | snoc _ hs hx ih =>
        intro hm
        refine .snoc (ih fun hc => hm ?_) hs (hx.resolve_right hm)
        exact App.world_step_induct (fun s => s.mode = .stopped) (fun _ _ _ h1 h2 => Sys.stopped_step h2 h1) hc hs
    exact conv p1 hm

end Props

end Neutron
