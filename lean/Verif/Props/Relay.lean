import Verif.Props.Confirmed
import Verif.Spec.Relay

/-!
# The value sent is the value received: C105
-/

namespace Neutron.Props

open Neutron Neutron.World Proto

variable {T : Type}

theorem values_single (decode : Bytes → Option T) {cid : UInt64} {mid : MessageId} {p : Bytes} {t : T} (h : decode p = some t) :
    valuesOf (Consumer.yields decode (.single cid mid p)) = [.ok t] := by
  simp [Consumer.yields, h, valuesOf]

theorem values_batch (decode : Bytes → Option T) (ser : T → Bytes) {cid : UInt64} {mid : MessageId} {bs : List BatchedPayload}
    {vs : List T} (h0 : vs ≠ []) (hb : bs.map (·.payload) = vs.map ser) (hd : ∀ t ∈ vs, decode (ser t) = some t) :
    valuesOf (Consumer.yields decode (.batch cid mid bs)) = vs.map .ok := by
  have h1 : bs ≠ [] := by
    rintro rfl
    rw [List.map_nil, eq_comm, List.map_eq_nil_iff] at hb
    exact h0 hb
  have h2 : ∀ p ∈ bs, (decode p.payload).isSome := by
    intro p hp
    have : p.payload ∈ vs.map ser := by rw [← hb]; exact List.mem_map_of_mem hp
    obtain ⟨t, ht, he⟩ := List.mem_map.mp this
    rw [← he, hd t ht]; rfl
  simp only [Consumer.yields, if_pos (show bs ≠ [] ∧ _ from ⟨h1, h2⟩)]
  have key : ∀ (bs : List BatchedPayload) (vs : List T) (k : Nat), bs.map (·.payload) = vs.map ser → (∀ t ∈ vs, decode (ser t) = some t) →
      valuesOf (((bs.zipIdx k).filterMap fun x => (decode x.1.payload).map fun t =>
        (⟨t, withBatchIndex x.2 mid⟩ : Consumer.Received T)).map .ok) = vs.map .ok := by
    intro bs
    induction bs with
    | nil =>
      intro vs k hb _
      rw [List.map_nil, eq_comm, List.map_eq_nil_iff] at hb
      subst hb; rfl
    | cons b bs ih =>
      intro vs k hb hd
      cases vs with
      | nil => cases hb
      | cons v vs =>
        rw [List.map_cons, List.map_cons, List.cons.injEq] at hb
        have h3 : decode b.payload = some v := by rw [hb.1]; exact hd v (by simp)
        have := ih vs (k + 1) hb.2 (fun t ht => hd t (List.mem_cons_of_mem _ ht))
        rw [List.zipIdx_cons, List.filterMap_cons]
        simp only [h3, Option.map_some, List.map_cons]
        simp only [valuesOf, List.map_cons] at this ⊢
        rw [this]
  exact key bs vs 0 hb hd

/-- One send and its relay. -/
theorem relay_send (decode : Bytes → Option T) (ser : T → Bytes) {now : UInt64} {m : Send} {y : MessageCommand} {cid : UInt64} {mid : MessageId}
    (hd : Deliverable (.send m)) (hv : (Outbound.send m).volume + 300 < 4294967296) (hr : Relays (m.asCommand now) y)
    (hm : IsMessage y cid mid) {ps : List Bytes} (hps : payloadsOf (.send m) = some ps) :
    ∃ msg, Inbound.ofCommand y = .ok (.message msg) ∧ msg.consumerId = cid ∧
      ∀ vs : List T, ps = vs.map ser → (∀ t ∈ vs, decode (ser t) = some t) → valuesOf (Consumer.yields decode msg) = vs.map .ok := by
  obtain ⟨q, hq, hqd, hn⟩ := numMessages_relay now _ y hr
  cases m with
  | single n p s pl =>
    cases hps
    refine ⟨.single cid mid pl, ?_, rfl, ?_⟩
    · rw [message_of y cid mid hm q hq, hn, if_neg (by simp [Send.numberOfMessages, asI32, signed32]), hqd]
      rfl
    · intro vs h1 h2
      cases vs with
      | nil => cases h1
      | cons v vs =>
        cases vs with
        | nil =>
          simp only [List.map_cons, List.map_nil, List.cons.injEq, and_true] at h1
          subst h1
          exact values_single decode (h2 v (by simp))
        | cons => simp at h1
  | batch n p s pl =>
    cases hps
    obtain ⟨h2, hp⟩ := hd
    have hcount : ps.length < 2147483648 := by
      have h3 : 34 * ps.length ≤ (ps.map fun p => p.length + 34).sum := by
        clear hp h2 hv hr hm hqd hn
        induction ps with
        | nil => simp
        | cons p ps ih => simp only [List.length_cons, List.map_cons, List.sum_cons]; omega
      simp only [Outbound.volume] at hv
      omega
    have hnum : numMessagesInBatch q.metadata = ps.length := by
      rw [hn]
      simp only [Send.numberOfMessages]
      rw [asI32_mod, asI32_small hcount]
    refine ⟨.batch cid mid (ps.map fun p => ⟨entryMeta p.length, p⟩), ?_, rfl, ?_⟩
    · rw [message_of y cid mid hm q hq, hnum, if_pos (by omega)]
      have := countBatched_entries ps [] hp
      rw [List.append_nil] at this
      simp only [parseBatchedMessage, Int.toNat_natCast, hqd, Send.payloadBytes, this, Outcome.bind_ok, Outcome.pure_eq]
    · intro vs h1 h3
      refine values_batch decode ser ?_ (by simpa [Function.comp_def] using h1) h3
      rintro rfl
      simp [h1] at h2

/-- A command that is no message for the consumer gives it nothing. -/
theorem not_for {cid : UInt64} {y : MessageCommand} (h : ∀ mid, ¬ IsMessage y cid mid) :
    Sys.addressedTo cid (messagesOf [y]) = [] := by
  unfold Sys.addressedTo messagesOf
  rw [List.filter_eq_nil_iff]
  intro m hm
  rw [List.mem_filterMap] at hm
  obtain ⟨v, hv, hvm⟩ := hm
  rw [List.mem_singleton] at hv
  subst hv
  cases hx : Inbound.ofCommand v with
  | ok i =>
    rw [hx] at hvm
    cases i with
    | message m' =>
      simp only [Option.some.injEq] at hvm
      subst hvm
      have := (C17_classification v).1 _ hx
      intro hc
      simp only [decide_eq_true_eq] at hc
      cases m' with
      | single c i p => exact h i (hc ▸ this.1)
      | batch c i p => exact h i (hc ▸ this.1)
    | _ => cases hvm
  | err => rw [hx] at hvm; cases hvm
  | panic => rw [hx] at hvm; cases hvm

/-- A send among what a connection took came from the client whose producer id it carries. -/
theorem send_origin {cfg : Sys.Cfg} {s : Sys.State} (h : Sys.Reachable cfg s) (hn : s.nClients ≤ 2 ^ 64) {b : BrokerAddress}
    {c : Sys.ConnCmd} {m : Send} (hc : c ∈ (s.conns b).processed) (hm : c.out = .send m) {i : Nat} (hi : i < s.nClients)
    (hp : m.producerId = UInt64.ofNat i) : ∃ cm, c.origin = some (i, cm) ∧ cm.out = .send m ∧ cm ∈ (s.clients i).submitted := by
  have hs : (b, c) ∈ s.sent := by
    rw [← Sys.mem_sentTo, ← (Sys.conn h).accepted b, ((Sys.conn h).ok b).fifo]
    exact List.mem_append_left _ hc
  have hok := (Sys.cmd h).sentOk b c hs
  cases ho : c.origin with
  | none => rw [ho] at hok; rw [hm] at hok; cases hok.1
  | some x =>
    obtain ⟨j, cm⟩ := x
    rw [ho] at hok
    obtain ⟨h1, h2, h3⟩ := hok
    have hout : cm.out = .send m := by
      rw [hm] at h3
      cases hcm : cm.out with
      | connect c0 => rw [hcm] at h3; obtain ⟨_, _, _, h4⟩ := h3; cases h4
      | _ => rw [hcm] at h3; exact h3.symm
    obtain ⟨core, call, k1, k2, k3⟩ := Sys.made_handled h h1 h2
    rw [hout] at k2
    have hex : m.producerId = UInt64.ofNat j := by
      cases call <;> simp only [Client.issue] at k2 <;> cases k2 <;> simp_all [Send.producerId]
    have hij : i = j := by
      have := congrArg UInt64.toNat (hp.symm.trans hex)
      rw [UInt64.toNat_ofNat', UInt64.toNat_ofNat', Nat.mod_eq_of_lt (by omega), Nat.mod_eq_of_lt (by omega)] at this
      exact this
    subst hij
    refine ⟨cm, rfl, hout, ?_⟩
    have := part_in_order h hn h1 b (List.Sublist.refl _)
    refine this.subset ?_
    unfold Sys.ofClient
    rw [List.mem_filterMap]
    exact ⟨c, hc, by simp [ho]⟩

theorem send_is (now : UInt64) (m : Send) : IsSendCommand (m.asCommand now) m.producerId m.sequenceId := by
  refine ⟨commandType_base .., mkMsg .commandSend [(1, vU64 m.producerId), (2, vU64 m.sequenceId), (3, [.int (asI32 m.numberOfMessages)])],
    ?_, u64_of rfl rfl, u64_of rfl rfl⟩
  unfold getMsg Send.asCommand baseCommand
  rw [getF_mk _ _ _ rfl]
  rfl

/-- A command that came from a client as a send is a send with the client's id. -/
theorem send_from {cfg : Sys.Cfg} {s : Sys.State} (h : Sys.Reachable cfg s) {b : BrokerAddress} {c : Sys.ConnCmd}
    (hc : c ∈ (s.conns b).processed) {i : Nat} {cm : Sys.ClientCmd} (ho : c.origin = some (i, cm)) {m : Send} (hm : cm.out = .send m) :
    c.out = .send m ∧ m.producerId = UInt64.ofNat i := by
  have hs : (b, c) ∈ s.sent := by
    rw [← Sys.mem_sentTo, ← (Sys.conn h).accepted b, ((Sys.conn h).ok b).fifo]
    exact List.mem_append_left _ hc
  have hok := (Sys.cmd h).sentOk b c hs
  rw [ho] at hok
  obtain ⟨h1, h2, h3⟩ := hok
  rw [hm] at h3
  refine ⟨h3, ?_⟩
  obtain ⟨core, call, k1, k2, k3⟩ := Sys.made_handled h h1 h2
  rw [hm] at k2
  cases call <;> simp only [Client.issue] at k2 <;> cases k2 <;> simp_all [Send.producerId]

/-- The payloads among connection commands of one client. -/
def groups (i : Nat) (l : List Sys.ConnCmd) : List (List Bytes) := (Sys.ofClient i l).filterMap fun c => payloadsOf c.out

theorem groups_cons (i : Nat) (c : Sys.ConnCmd) (l : List Sys.ConnCmd) : groups i (c :: l) = groups i [c] ++ groups i l := by
  unfold groups Sys.ofClient
  rw [show c :: l = [c] ++ l from rfl, List.filterMap_append, List.filterMap_append]

theorem addressed_cons (cid : UInt64) (y : MessageCommand) (l : List MessageCommand) :
    Sys.addressedTo cid (messagesOf (y :: l)) = Sys.addressedTo cid (messagesOf [y]) ++ Sys.addressedTo cid (messagesOf l) := by
  unfold messagesOf
  rw [show y :: l = [y] ++ l from rfl, List.filterMap_append, Sys.addressedTo_append]

/-- What a relaying broker makes of what a connection took. -/
theorem relayed_values {cfg : Sys.Cfg} {s : Sys.State} (h : Sys.Reachable cfg s) (hn : s.nClients ≤ 2 ^ 64) {b : BrokerAddress} {i : Nat}
    (hi : i < s.nClients) (hf : ∀ c ∈ (s.conns b).processed, c.out.volume + 300 < 4294967296)
    (hdel : ∀ c ∈ (s.clients i).submitted, Deliverable c.out) (decode : Bytes → Option T) (ser : T → Bytes) {all : Bool} {cid : UInt64}
    {ins outs : List MessageCommand} (hrel : Relayed all (UInt64.ofNat i) cid ins outs) (l : List (Sys.ConnCmd × MessageCommand))
    (hl : l.map (·.2) = ins) (hmem : ∀ x ∈ l, x.1 ∈ (s.conns b).processed) (hto : ∀ x ∈ l, ∃ now, x.1.out.toCommand now = .ok x.2) :
    ∃ L : List (List Bytes), L.Sublist (groups i (l.map (·.1))) ∧ (all = true → L = groups i (l.map (·.1))) ∧
      ∀ vals : List (List T), L = vals.map (·.map ser) → (∀ vs ∈ vals, ∀ t ∈ vs, decode (ser t) = some t) →
        valuesOf ((Sys.addressedTo cid (messagesOf outs)).flatMap (Consumer.yields decode)) = vals.flatten.map .ok := by
  have sendAt : ∀ {c : Sys.ConnCmd} {v : MessageCommand} {now : UInt64} {sq : UInt64}, c ∈ (s.conns b).processed → c.out.toCommand now = .ok v →
      IsSendCommand v (UInt64.ofNat i) sq → ∃ m cm, c.out = .send m ∧ c.origin = some (i, cm) ∧ cm.out = .send m ∧
        cm ∈ (s.clients i).submitted := by
    intro c v now sq hc hnow hv
    obtain ⟨m, m1, m2, m3⟩ := send_of_command hnow hv
    obtain ⟨cm, c1, c2, c3⟩ := send_origin h hn hc m1 hi m2
    exact ⟨m, cm, m1, c1, c2, c3⟩
  induction hrel generalizing l with
  | done =>
    refine ⟨[], List.nil_sublist _, fun _ => ?_, ?_⟩
    · rw [List.map_eq_nil_iff] at hl; subst hl; rfl
    · intro vals hv _
      rw [eq_comm, List.map_eq_nil_iff] at hv
      subst hv; rfl
  | @relay x y sq mid ins outs hx hr hy _ ih =>
    cases l with
    | nil => cases hl
    | cons a l =>
      obtain ⟨c, v⟩ := a
      rw [List.map_cons, List.cons.injEq] at hl
      obtain ⟨hv, hl⟩ := hl
      simp only at hv
      subst hv
      obtain ⟨L, l1, l2, l3⟩ := ih l hl (fun x hx => hmem x (List.mem_cons_of_mem _ hx)) (fun x hx => hto x (List.mem_cons_of_mem _ hx))
      obtain ⟨now, hnow⟩ := hto _ (List.mem_cons_self ..)
      have hc := hmem _ (List.mem_cons_self ..)
      simp only at hnow hc
      obtain ⟨m, cm, m1, m2, m3, m4⟩ := sendAt hc hnow hx
      have hps : ∃ ps, payloadsOf (.send m) = some ps := by cases m <;> exact ⟨_, rfl⟩
      obtain ⟨ps, hps⟩ := hps
      have hg : groups i [c] = [ps] := by
        simp [groups, Sys.ofClient, m2, m3, hps]
      rw [m1, show (Outbound.toCommand now _) = Send.toCommand now m from rfl, Send.toCommand_eq] at hnow
      cases hnow
      obtain ⟨msg, k1, k2, k3⟩ := relay_send decode ser (m3 ▸ hdel cm m4) (m1 ▸ hf c hc) hr hy hps
      have hmsg : Sys.addressedTo cid (messagesOf [y]) = [msg] := by
        simp [messagesOf, k1, Sys.addressedTo, k2]
      refine ⟨ps :: L, ?_, ?_, ?_⟩
      · rw [List.map_cons, groups_cons, hg]
        exact l1.cons_cons ps
      · intro ha
        rw [List.map_cons, groups_cons, hg, ← l2 ha]; rfl
      · intro vals hv hd
        cases vals with
        | nil => cases hv
        | cons vs vals =>
          rw [List.map_cons, List.cons.injEq] at hv
          have h1 := k3 vs hv.1 (hd vs (by simp))
          have h2 := l3 vals hv.2 (fun u hu => hd u (List.mem_cons_of_mem _ hu))
          rw [addressed_cons, hmsg, List.flatMap_append, List.flatMap_singleton, List.flatten_cons, List.map_append, ← h1, ← h2]
          exact List.map_append
  | @unrelayed x ins outs hx _ ih =>
    cases l with
    | nil => cases hl
    | cons a l =>
      obtain ⟨c, v⟩ := a
      rw [List.map_cons, List.cons.injEq] at hl
      obtain ⟨hv, hl⟩ := hl
      simp only at hv
      subst hv
      obtain ⟨L, l1, l2, l3⟩ := ih l hl (fun x hx => hmem x (List.mem_cons_of_mem _ hx)) (fun x hx => hto x (List.mem_cons_of_mem _ hx))
      obtain ⟨now, hnow⟩ := hto _ (List.mem_cons_self ..)
      have hc := hmem _ (List.mem_cons_self ..)
      simp only at hnow hc
      refine ⟨L, ?_, ?_, l3⟩
      · rw [List.map_cons, groups_cons]
        exact l1.trans (List.sublist_append_right ..)
      · intro ha
        rw [List.map_cons, groups_cons, ← l2 ha]
        suffices groups i [c] = [] by rw [this]; rfl
        refine Classical.byContradiction fun hne => ?_
        obtain ⟨ps, hps⟩ := List.exists_mem_of_ne_nil _ hne
        unfold groups Sys.ofClient at hps
        rw [List.mem_filterMap] at hps
        obtain ⟨cm, h1, h2⟩ := hps
        rw [List.mem_filterMap] at h1
        obtain ⟨c', h3, h4⟩ := h1
        rw [List.mem_singleton] at h3
        subst h3
        have ho : c'.origin = some (i, cm) := by
          cases hx : c'.origin with
          | none => rw [hx] at h4; cases h4
          | some z =>
            obtain ⟨j, cm'⟩ := z
            rw [hx] at h4
            simp only at h4
            split at h4
            · rename_i hj; cases h4; rw [hj]
            · cases h4
        have hm : ∃ m, cm.out = .send m := by
          cases hx : cm.out with
          | send m => exact ⟨m, rfl⟩
          | _ => rw [hx] at h2; cases h2
        obtain ⟨m, hm⟩ := hm
        obtain ⟨q1, q2⟩ := send_from h hc ho hm
        rw [q1, show (Outbound.toCommand now _) = Send.toCommand now m from rfl, Send.toCommand_eq] at hnow
        cases hnow
        exact hx ha m.sequenceId (q2 ▸ send_is now m)
  | @other y ins outs hy _ ih =>
    obtain ⟨L, l1, l2, l3⟩ := ih l hl hmem hto
    refine ⟨L, l1, l2, fun vals hv hd => ?_⟩
    rw [addressed_cons, not_for hy, List.nil_append]
    exact l3 vals hv hd

/-- When no write fails, everything a connection took is on its socket, in whole frames. -/
theorem all_frames {cfg : World.Cfg T} {acts : List World.Act} {w : World T} (h : World.Run cfg acts w) (hv : Fits w)
    (hw : World.NoWriteFailure acts) (b : BrokerAddress) :
    ∃ l : List (Sys.ConnCmd × (MessageCommand × Bytes)), (w.tx b).sent = Framed.stream (l.map (·.2)) ∧
      l.map (·.1) = (w.sys.conns b).processed ∧ ∀ x ∈ l, (∃ now, x.1.out.toCommand now = .ok x.2.1) ∧ Framed.IsFrame x.2 := by
  obtain ⟨_, l, h1, h2, h3⟩ := wrote_all h hw b
  have he : Encodable cfg w := by
    intro b' c hc now
    obtain ⟨item, frame, f1, f2, _⟩ := C10_what_fits cfg.overflowChecks now c.out (hv b' c hc).1 (hv b' c hc).2
    exact ⟨frame, by rw [f1]; exact f2⟩
  rw [all_written h hw he b] at h3
  have hx : ∃ l' : List (Sys.ConnCmd × (MessageCommand × Bytes)), l'.map (fun x => (x.1, x.2.2)) = l ∧
      (∀ x ∈ l', (∃ now, x.1.out.toCommand now = .ok x.2.1) ∧ Framed.IsFrame x.2) := by
    have h3' : ∀ x ∈ l, x.1 ∈ (w.sys.conns b).processed := fun x hx => h3 ▸ List.mem_map_of_mem hx
    clear h2 h3
    induction l with
    | nil => exact ⟨[], rfl, fun x hx => by cases hx⟩
    | cons y l ih =>
      obtain ⟨l', k1, k2⟩ := ih (fun x hx => h1 x (List.mem_cons_of_mem _ hx)) (fun x hx => h3' x (List.mem_cons_of_mem _ hx))
      obtain ⟨now, hnow⟩ := h1 y (by simp)
      obtain ⟨hval, hfit⟩ := hv b y.1 (h3' y (by simp))
      obtain ⟨item, t1, t2, t3⟩ := toCommand_ok now y.1.out hval
      have hs := parts_sendable item t2 t3 (Nat.lt_of_le_of_lt (size_le now _ item t1) hfit)
      rw [t1] at hnow
      have hb : Codec.encode cfg.overflowChecks item = .ok y.2 := hnow
      rw [Codec.encode_layout _ item _ _ hs.serialises hs.fits] at hb
      have hb := Outcome.ok.inj hb
      refine ⟨(y.1, (item, y.2)) :: l', by rw [List.map_cons, k1], ?_⟩
      intro x hx
      rcases List.mem_cons.mp hx with rfl | hx
      · exact ⟨⟨now, t1⟩, by rw [← hb]; exact Framed.isFrame_of hs⟩
      · exact k2 x hx
  obtain ⟨l', k1, k2⟩ := hx
  refine ⟨l', ?_, ?_, k2⟩
  · rw [h2, ← k1]; unfold Framed.stream; simp [Function.comp_def]
  · rw [← h3, ← k1]; simp [Function.comp_def]

/-! ## C105 -/

/-- From the producer's call to the consumer's.  A producer (client `i` of its instance) hands over sends of the values `vals`, grouped by
call; its instance does anything, writes fail, connections die; the broker has received the whole commands `fsP` on the socket of `bP`
and relays sends of this producer to the consumer, possibly not all, among anything else it sends on the socket of `b`.  On the
consumer's side: any schedule, any cutting of the bytes, failures, the end of the connection or of the engine.  Then what the consumer's
calls (other than `next_batch`) have handed out is, in order, the beginning of the values of some of the calls: no value altered,
invented, repeated or out of order. -/
theorem C105_value_sent_is_value_received {S T : Type} {cfgP : World.Cfg S} {actsP : List World.Act} {wP : World S}
    (hP : World.Run cfgP actsP wP) (hv : Fits wP) (hn : wP.sys.nClients ≤ 2 ^ 64) {i : Nat} (hi : i < wP.sys.nClients)
    (hdel : ∀ c ∈ (wP.sys.clients i).submitted, Deliverable c.out) {bP : BrokerAddress} {fsP : List (MessageCommand × Bytes)}
    (hfP : BeginsWith (wP.tx bP).sent fsP)
    {cfg : World.Cfg T} {acts as : List World.Act} {w w' : World T} {b : BrokerAddress} {fsC : List (MessageCommand × Bytes)} {part : Bytes}
    {closed : Bool} (h : World.Run cfg acts w) (hme : cfg.me < w.sys.nClients) (h0 : ∀ b', readFor w cfg.me b' = [])
    (hp : World.Path cfg (fun w => AttachedUntilStop cfg.me b w.sys) w as w') (hs : Sends b (acts ++ as) fsC part closed)
    (hj : ∀ n, Consumer.Job.batch n ∉ callsMade (acts ++ as))
    (hrel : Relayed false (UInt64.ofNat i) (UInt64.ofNat cfg.me) (fsP.map (·.1)) (fsC.map (·.1)))
    {ser : T → Bytes} {vals : List (List T)} (hvals : Sys.sentPayloads wP.sys i = vals.map (·.map ser))
    (hser : ∀ vs ∈ vals, ∀ t ∈ vs, cfg.app.decode (ser t) = some t) :
    ∃ L, List.Sublist L vals ∧ valuesOf w'.app.handedOut <+: L.flatten.map .ok := by
  obtain ⟨log, appLog, hpr⟩ := proj hP
  have hr : Sys.Reachable cfgP.sys wP.sys := ⟨_, hpr.sys⟩
  obtain ⟨l, l1, l2, l3⟩ := received_of hP hv bP hfP
  obtain ⟨L, k1, _, k3⟩ := relayed_values hr hn hi (fun c hc => (hv bP c hc).2) hdel cfg.app.decode ser hrel l l2
    (fun x hx => l1.subset (List.mem_map_of_mem hx)) l3
  have hsub : (groups i (l.map (·.1))).Sublist (vals.map (·.map ser)) := by
    rw [← hvals]
    exact (part_in_order hr hn hi bP l1).filterMap _
  obtain ⟨L', q1, q2⟩ := List.sublist_map_iff.mp (k1.trans hsub)
  refine ⟨L', q1, ?_⟩
  rw [← k3 L' q2 (fun vs hvs => hser vs (q1.subset hvs))]
  exact (C70_socket_to_application h hme h0 hp hs hj).map _

/-- And nothing is missing, if nothing is lost on the way: the producer's engine still runs, no write failed, everything handed over has
been written, all of it to the socket of `bP`; the broker relays every send; the consumer stays attached, everything has been read,
passed on and asked for.  Then the values handed out are exactly the values sent, in order. -/
theorem C105_every_value_arrives {S T : Type} {cfgP : World.Cfg S} {actsP : List World.Act} {wP : World S}
    (hP : World.Run cfgP actsP wP) (hv : Fits wP) (hn : wP.sys.nClients ≤ 2 ^ 64) {i : Nat} (hi : i < wP.sys.nClients)
    (hdel : ∀ c ∈ (wP.sys.clients i).submitted, Deliverable c.out)
    (hm : wP.sys.mode ≠ .stopped) (hw : World.NoWriteFailure actsP) (hq : (wP.sys.clients i).queue = [])
    (hqs : ∀ b', (wP.sys.conns b').queue = []) {bP : BrokerAddress} {fsP : List (MessageCommand × Bytes)}
    (hfP : ∀ f ∈ fsP, Framed.IsFrame f) (hsP : (wP.tx bP).sent = Framed.stream fsP)
    (hone : ∀ b', b' ≠ bP → ∀ v, Neutron.Received (wP.tx b').sent v → ∀ s, ¬ IsSendCommand v (UInt64.ofNat i) s)
    {cfg : World.Cfg T} {acts as : List World.Act} {w w' : World T} {b : BrokerAddress} {fsC : List (MessageCommand × Bytes)} {part : Bytes}
    (h : World.Run cfg acts w) (hme : cfg.me < w.sys.nClients) (h0 : ∀ b', readFor w cfg.me b' = [])
    (hp : World.Path cfg (fun w => Attached cfg.me b w.sys) w as w') (hs : HasSent b (acts ++ as) fsC part)
    (hj : ∀ n, Consumer.Job.batch n ∉ callsMade (acts ++ as))
    (hread : (Framed.pollNext (w'.rx b).framed (w'.rx b).socket).1 = .pending) (hpassed : (w'.sys.conns b).outbox = [])
    {k : Nat} (hwait : w'.app.waiting k) (hstuck : Consumer.step cfg.app w'.app (.run k) = none)
    (hrel : Relayed true (UInt64.ofNat i) (UInt64.ofNat cfg.me) (fsP.map (·.1)) (fsC.map (·.1)))
    {ser : T → Bytes} {vals : List (List T)} (hvals : Sys.sentPayloads wP.sys i = vals.map (·.map ser))
    (hser : ∀ vs ∈ vals, ∀ t ∈ vs, cfg.app.decode (ser t) = some t) :
    valuesOf w'.app.handedOut = vals.flatten.map .ok := by
  obtain ⟨log, appLog, hpr⟩ := proj hP
  have hr : Sys.Reachable cfgP.sys wP.sys := ⟨_, hpr.sys⟩
  have hcn := Sys.conn hr
  have hacc : ∀ b', Sys.sentTo wP.sys.sent b' = (wP.sys.conns b').processed := by
    intro b'
    rw [← hcn.accepted b', (hcn.ok b').fifo, hqs b', List.append_nil]
  obtain ⟨l', e1, e2, e3⟩ := all_frames hP hv hw bP
  have hfr : ∀ f ∈ l'.map (·.2), Framed.IsFrame f := by
    intro f hf
    obtain ⟨x, hx, rfl⟩ := List.mem_map.mp hf
    exact (e3 x hx).2
  have hcmds : (l'.map fun x => (x.1, x.2.1)).map (·.2) = fsP.map (·.1) := by
    have h1 := frames_front hfr hfP (by rw [← e1, hsP])
    have h2 := frames_front hfP hfr (by rw [← e1, hsP])
    have := h1.eq_of_length (Nat.le_antisymm h1.length_le h2.length_le)
    simpa [Function.comp_def] using this
  have hfst : (l'.map fun x => (x.1, x.2.1)).map (·.1) = (wP.sys.conns bP).processed := by
    rw [← e2]; simp [Function.comp_def]
  obtain ⟨L, _, k2, k3⟩ := relayed_values hr hn hi (fun c hc => (hv bP c hc).2) hdel cfg.app.decode ser hrel _ hcmds
    (fun x hx => by rw [← hfst]; exact List.mem_map_of_mem hx)
    (fun x hx => by obtain ⟨y, hy, rfl⟩ := List.mem_map.mp hx; exact (e3 y hy).1)
  have hall : groups i ((l'.map fun x => (x.1, x.2.1)).map (·.1)) = Sys.sentPayloads wP.sys i := by
    rw [hfst]
    unfold groups Sys.sentPayloads
    rw [← hacc bP, ofClient_sent]
    have hsubm : (wP.sys.clients i).submitted = (Sys.passedOn wP.sys.sent i).map (·.2) := by
      rw [((Sys.cmd hr).routedEq hn hm i hi).1, Sys.routeAll_map_snd, ← (Sys.cmd hr).submittedEq i hi (.inr hm), hq, List.append_nil]
    rw [hsubm]
    have hno : ∀ p ∈ Sys.passedOn wP.sys.sent i, p.1 ≠ bP → payloadsOf p.2.out = none := by
      intro p hp hne
      refine Classical.byContradiction fun hx => ?_
      obtain ⟨m, hm'⟩ : ∃ m, p.2.out = .send m := by
        cases ho : p.2.out with
        | send m => exact ⟨m, rfl⟩
        | _ => rw [ho] at hx; exact absurd rfl hx
      unfold Sys.passedOn at hp
      rw [List.mem_filterMap] at hp
      obtain ⟨⟨b', c⟩, hc1, hc2⟩ := hp
      have ho : c.origin = some (i, p.2) ∧ p.1 = b' := by
        cases hx : c.origin with
        | none => simp [hx] at hc2
        | some z =>
          obtain ⟨j, cm'⟩ := z
          simp only [hx] at hc2
          split at hc2
          · rename_i hj; cases hc2; simp [hj]
          · cases hc2
      obtain ⟨ho, hb'⟩ := ho
      have hcp : c ∈ (wP.sys.conns b').processed := by rw [← hacc b', Sys.mem_sentTo]; exact hc1
      obtain ⟨q1, q2⟩ := send_from hr hcp ho hm'
      obtain ⟨l2, f1, f2, f3⟩ := all_frames hP hv hw b'
      rw [← f2] at hcp
      obtain ⟨x, hx1, hx2⟩ := List.mem_map.mp hcp
      obtain ⟨⟨now, hnow⟩, _⟩ := f3 x hx1
      rw [hx2, q1, show (Outbound.toCommand now _) = Send.toCommand now m from rfl, Send.toCommand_eq] at hnow
      refine hone b' (hb' ▸ hne) x.2.1 ⟨l2.map (·.2), ⟨?_, by rw [f1]⟩, ?_⟩ m.sequenceId ?_
      · intro f hf
        obtain ⟨y, hy, rfl⟩ := List.mem_map.mp hf
        exact (f3 y hy).2
      · exact List.mem_map_of_mem (List.mem_map_of_mem hx1)
      · rw [← Outcome.ok.inj hnow, ← q2]; exact send_is now m
    generalize Sys.passedOn wP.sys.sent i = R at hno
    clear hsubm
    induction R with
    | nil => rfl
    | cons p R ih =>
      have ih := ih (fun x hx => hno x (List.mem_cons_of_mem _ hx))
      by_cases hb : p.1 = bP
      · rw [List.filter_cons_of_pos (by simpa using hb)]
        simp only [List.map_cons, List.filterMap_cons, ih]
      · rw [List.filter_cons_of_neg (by simpa using hb), ih]
        simp only [List.map_cons, List.filterMap_cons, hno p (by simp) hb]
  rw [C70_everything_arrives h hme h0 hp hs hj hread hpassed hwait hstuck]
  exact k3 vals ((k2 rfl).trans (hall.trans hvals)) hser

/-! ### A concrete case -/

namespace RelayExample

open Frame Trace EndToEndExample OnTheWireExample

/-- A producer sends the value 104. -/
def sendX : Send := .single "c" 0 0 [104]
def x1 : MessageCommand := sendX.asCommand 0
def xBytes : Bytes := layout x1.parts.1 x1.parts.2

theorem frame_x : Framed.IsFrame (x1, xBytes) := by
  refine Framed.isFrame_of (parts_sendable x1 (send_ser _) ?_ (by decide +kernel))
  intro p hp; cases hp; exact metadata_ser _ _

theorem enc_x : ((Outbound.send sendX).toCommand 0).bind (Codec.encode true) = .ok xBytes := by
  rw [show (Outbound.toCommand 0 _) = Send.toCommand 0 sendX from rfl, Send.toCommand_eq]
  exact Codec.encode_layout _ _ _ _ (parts_serialises _ (send_ser _) (by intro p hp; cases hp; exact metadata_ser _ _)) (by decide +kernel)

def putting : List World.Act := before ++ (ask 0 (.sendMessage [104])).map .sys
def p0 : World UInt8 := after (World.init wcfg) putting
def p1 : World UInt8 := wroteTo p0 ⟨[], xBytes⟩ .ok

theorem put1 : World.Run wcfg putting p0 := run_exec (as := []) .nil rfl

theorem put2 : World.step wcfg p0 (.write b0 0 .ok) = some p1 := by
  refine do_write _ _ _ _ rfl rfl ?_ rfl
  show (Tx.send true 0 {} (.send sendX) .ok) = _
  simp only [Tx.send, enc_x]
  rfl

theorem put : World.Run wcfg (putting ++ [.write b0 0 .ok]) p1 := .snoc put1 put2

theorem unused (b : BrokerAddress) (hb : b ≠ b0) : p1.sys.conns b = Sys.freshConn :=
  (Sys.conn (⟨_, (proj put).choose_spec.choose_spec.sys⟩ : Sys.Reachable wcfg.sys p1.sys)).unused b (by show b ∉ [b0]; simpa using hb)

/-- The broker's message to consumer 0 of another instance. -/
def y1 : MessageCommand := ⟨(wireMessage 0 1 []).command, x1.payload⟩
def yBytes : Bytes := layout y1.parts.1 y1.parts.2

theorem frame_y : Framed.IsFrame (y1, yBytes) := by
  refine Framed.isFrame_of (parts_sendable y1 ?_ ?_ (by decide +kernel))
  · exact base_ser 100 9 9 _ .commandMessage (by decide) rfl (mk_ser 99 _ _ (by simp [pulsar])
      (fields_cons (ok_u64 1 _ _ rfl) (fields_cons (ok_msg 2 _ .messageIdData _
        (mk_ser 98 _ _ (by simp [pulsar]) (fields_cons (ok_u64 1 _ _ rfl) (fields_cons (ok_u64 2 _ _ rfl) fields_nil))) rfl) fields_nil)))
  · intro p hp; cases hp; exact metadata_ser _ _

def taking : List World.Act := [.arrive b0 (.data yBytes), .poll b0 none, .poll b0 none] ++ [.sys (.engIn b0)] ++ asking ++ asking'

def c1 : World UInt8 := after w0 [.arrive b0 (.data yBytes)]
def c2 : World UInt8 := polled c1 (.item y1) { buf := [], readable := true } []
def c3 : World UInt8 := polled c2 .pending { buf := [], readable := false } []
def c4 : World UInt8 := after c3 ([.sys (.engIn b0)] ++ asking ++ asking')

theorem take2 : World.step wcfg c1 (.poll b0 none) = some c2 := by
  refine poll_step _ _ _ rfl rfl ?_ rfl (.inr ⟨_, rfl⟩)
  show Framed.pollNext {} [.data yBytes] = _
  have := Framed.IsFrame.decode frame_y []
  rw [List.append_nil] at this
  simp [Framed.pollNext, Framed.attempt, this]

theorem take3 : World.step wcfg c2 (.poll b0 none) = some c3 := poll_step _ _ _ rfl rfl poll7 rfl (.inl rfl)

theorem took : World.Path wcfg (fun w => Attached wcfg.me b0 w.sys) w0 taking c4 := by
  have := path_steps (path_poll (path_poll (path_steps (.nil (att_iff (w := w0) rfl)) (w'' := c1) (bs := [.arrive b0 (.data yBytes)]) rfl rfl)
    take2 rfl) take3 rfl) (w'' := c4) (bs := [.sys (.engIn b0)] ++ asking ++ asking') rfl rfl
  exact this

theorem relayed1 (all : Bool) : Relayed all 0 0 [x1] [y1] := by
  refine .relay (s := 0) (mid := Neutron.mkMsg .messageIdData [(1, Neutron.vU64 5), (2, Neutron.vU64 1)]) (send_is 0 sendX) ⟨_, _, rfl, rfl, rfl, rfl⟩ ?_ .done
  refine ⟨commandType_base .., Neutron.mkMsg .commandMessage [(1, Neutron.vU64 0),
      (2, Neutron.vMsg (Neutron.mkMsg .messageIdData [(1, Neutron.vU64 5), (2, Neutron.vU64 1)]))], ?_, u64_of rfl rfl, ?_⟩
  · unfold getMsg y1 wireMessage baseCommand; simp only; rw [getF_mk _ _ _ rfl]; rfl
  · unfold getMsg; rw [getF_mk _ _ _ rfl]; rfl

/-- The hypotheses of both parts of C105 are met: the value 104 is sent, written, relayed, read and handed out. -/
example : World.Run wcfg (putting ++ [.write b0 0 .ok]) p1 ∧ Fits p1 ∧ p1.sys.nClients = 1 ∧
    (∀ c ∈ (p1.sys.clients 0).submitted, Deliverable c.out) ∧ p1.sys.mode ≠ .stopped ∧
    World.NoWriteFailure (putting ++ [.write b0 0 .ok]) ∧ (p1.sys.clients 0).queue = [] ∧ (∀ b', (p1.sys.conns b').queue = []) ∧
    (p1.tx b0).sent = Framed.stream [(x1, xBytes)] ∧
    (∀ b', b' ≠ b0 → ∀ v, Neutron.Received (p1.tx b').sent v → ∀ s, ¬ IsSendCommand v (UInt64.ofNat 0) s) ∧
    World.Path wcfg (fun w => Attached wcfg.me b0 w.sys) w0 taking c4 ∧ HasSent b0 (before ++ taking) [(y1, yBytes)] [] ∧
    (∀ n, Consumer.Job.batch n ∉ callsMade (before ++ taking)) ∧
    (Framed.pollNext (c4.rx b0).framed (c4.rx b0).socket).1 = .pending ∧ (c4.sys.conns b0).outbox = [] ∧
    c4.app.waiting 1 ∧ Consumer.step wcfg.app c4.app (.run 1) = none ∧
    Relayed true (UInt64.ofNat 0) (UInt64.ofNat wcfg.me) ([(x1, xBytes)].map (·.1)) ([(y1, yBytes)].map (·.1)) ∧
    Sys.sentPayloads p1.sys 0 = [[(104 : UInt8)]].map (·.map fun t => [t]) ∧ (∀ t, wcfg.app.decode [t] = some t) ∧
    valuesOf c4.app.handedOut = [.ok 104] := by
  refine ⟨put, ?_, rfl, ?_, by simp [show p1.sys.mode = .idle from rfl], ?_, rfl, ?_, ?_, ?_, took, ?_, ?_, rfl, rfl, ⟨_, _, rfl, rfl⟩, rfl, relayed1 true, rfl,
    fun t => rfl, rfl⟩
  · intro b c hc
    by_cases hb : b = b0
    · subst hb
      have hc' := List.mem_map_of_mem (f := (·.out)) hc
      rw [show (p1.sys.conns b0).processed.map (·.out) = [.send sendX] from rfl, List.mem_singleton] at hc'
      rw [hc']
      exact ⟨trivial, by decide +kernel⟩
    · rw [unused b hb] at hc; cases hc
  · intro c hc
    have hc' := List.mem_map_of_mem (f := (·.out)) hc
    rw [show (p1.sys.clients 0).submitted.map (·.out) = [.send sendX] from rfl, List.mem_singleton] at hc'
    rw [hc']; trivial
  · intro b now io hm
    have hno : ∀ (l : List World.Act), (l.all fun a => match a with | .write .. => false | _ => true) = true →
        ∀ b x y, World.Act.write b x y ∉ l := by
      intro l hl b x y hm
      rw [List.all_eq_true] at hl
      exact absurd (hl _ hm) (by simp)
    rcases List.mem_append.mp hm with hm | hm
    · exact absurd hm (hno putting rfl b now io)
    · rw [List.mem_singleton] at hm; cases hm; rfl
  · intro b
    by_cases hb : b = b0
    · subst hb; rfl
    · rw [unused b hb]; rfl
  · simp [Framed.stream]; rfl
  · intro b hb v hv s hs
    obtain ⟨frames, ⟨h1, h2⟩, h3⟩ := hv
    have : (p1.tx b).sent = [] := by
      show (if b = b0 then _ else _ : Tx).sent = []
      rw [if_neg hb]; rfl
    rw [this, List.prefix_nil] at h2
    cases frames with
    | nil => cases h3
    | cons f frames =>
      rw [Framed.stream_cons, List.append_eq_nil_iff] at h2
      exact absurd h2.1 (h1 f (by simp)).ne_nil
  · refine ⟨fun f hf => by rw [List.mem_singleton] at hf; subst hf; exact frame_y, partial_nil, ?_, ?_⟩
    · show ∀ r ∈ [Read.data yBytes], _
      simp [Framed.IsData]
    · show Framed.bytesOf [Read.data yBytes] = _
      simp [Framed.bytesOf, Framed.stream]
  · intro n hn
    rw [show callsMade (before ++ taking) = [.message, .message] from rfl] at hn
    simp at hn

end RelayExample

end Neutron.Props
