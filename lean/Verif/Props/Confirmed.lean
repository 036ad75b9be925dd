import Verif.Proof.WorldLog
import Verif.Proof.SysOnce
import Verif.Props.Calls
import Verif.Props.Commands
import Verif.Props.Routing
import Verif.Props.Concurrent
import Verif.Props.OnTheWire

/-!
# A confirmed send has arrived: C100
-/

namespace Neutron.Props

open Neutron Neutron.World Proto

variable {T : Type}

theorem commandType_base (ty : Int) (f : Nat) (sub : Msg) : commandType (baseCommand ty f sub) = ty := by
  unfold commandType baseCommand
  rw [getF_mk _ _ _ rfl]
  rfl

theorem u64_of {t : MsgTy} {fs : List (Nat × List Val)} {n : Nat} {x : UInt64}
    (h : (pulsar t).any (fun d => d.num == n) = true) (hx : fs.lookup n = some (vU64 x)) : getU64 t (mkMsg t fs) n = x := by
  unfold getU64
  rw [getF_mk _ _ _ h, hx]
  simp [vU64, intOf]

theorem send_of_command {now : UInt64} {out : Outbound} {v : MessageCommand} {p s : UInt64} (ht : out.toCommand now = .ok v)
    (hv : IsSendCommand v p s) : ∃ m, out = .send m ∧ m.producerId = p ∧ m.sequenceId = s := by
  have no : ∀ ty f sub pl, v = ⟨baseCommand ty f sub, pl⟩ → ty = 6 := by
    intro ty f sub pl he
    have := hv.1
    rw [he] at this
    rwa [commandType_base] at this
  cases out with
  | send m =>
    rw [show (Outbound.toCommand now _) = Send.toCommand now m from rfl, Send.toCommand_eq] at ht
    cases ht
    obtain ⟨_, sub, h1, h2, h3⟩ := hv
    unfold getMsg Send.asCommand baseCommand at h1
    rw [getF_mk _ _ _ rfl] at h1
    cases h1
    exact ⟨m, rfl, by rw [← h2]; exact (u64_of rfl rfl).symm, by rw [← h3]; exact (u64_of rfl rfl).symm⟩
  | ack a =>
    unfold Outbound.toCommand ackToCommand at ht
    cases a with
    | nil => cases ht
    | cons x a => cases ht; exact absurd (no _ _ _ _ rfl) (by decide)
  | _ => cases ht; exact absurd (no _ _ _ _ rfl) (by decide)

/-- A send among the commands a connection took is a request of the client with that id. -/
theorem send_taken {cfg : Sys.Cfg} {s : Sys.State} (h : Sys.Reachable cfg s) {b : BrokerAddress} {c : Sys.ConnCmd} {m : Send}
    (hc : c ∈ (s.conns b).processed) (hm : c.out = .send m) :
    ∃ (t i : Nat), Sys.tokOf c = some t ∧ (b, c) ∈ s.sent ∧ i < s.nClients ∧ s.issued[t]? = some (i, .send m) ∧
      m.producerId = UInt64.ofNat i := by
  have hs : (b, c) ∈ s.sent := by
    rw [← Sys.mem_sentTo, ← (Sys.conn h).accepted b, ((Sys.conn h).ok b).fifo]
    exact List.mem_append_left _ hc
  have hok := (Sys.cmd h).sentOk b c hs
  cases ho : c.origin with
  | none => rw [ho] at hok; rw [hm] at hok; cases hok.1
  | some x =>
    obtain ⟨i, cm⟩ := x
    rw [ho] at hok
    obtain ⟨h1, h2, h3⟩ := hok
    have hout : cm.out = .send m := by
      rw [hm] at h3
      cases hcm : cm.out with
      | connect c0 => rw [hcm] at h3; obtain ⟨_, _, _, h4⟩ := h3; cases h4
      | _ => rw [hcm] at h3; exact h3.symm
    obtain ⟨core, call, k1, k2, k3⟩ := Sys.made_handled h h1 h2
    rw [hout] at k2
    have hex : cm.tok.isSome = true ∧ m.producerId = UInt64.ofNat i := by
      cases call <;> simp only [Client.issue] at k2 <;> cases k2 <;> simp_all [Call.expectsResponse, Send.producerId]
    obtain ⟨t, ht⟩ := Option.isSome_iff_exists.mp hex.1
    refine ⟨t, i, by simp [Sys.tokOf, ho, ht], hs, h1, ?_, hex.2⟩
    rw [← hout]
    exact (Sys.taken h i h1 cm h2 t ht).1

/-- If any two commands taken by connections whose encodings satisfy `P` carry the same token, at most one whole frame sent over all
sockets satisfies `P`. -/
theorem one_frame {cfg : World.Cfg T} {acts : List World.Act} {w : World T} (h : World.Run cfg acts w) (hv : Fits w)
    (hn : w.sys.nClients ≤ 2 ^ 64) {P : MessageCommand → Prop}
    (same : ∀ {b b' : BrokerAddress} {c c' : Sys.ConnCmd} {v v' : MessageCommand} {now now' : UInt64},
      c ∈ (w.sys.conns b).processed → c.out.toCommand now = .ok v → P v →
      c' ∈ (w.sys.conns b').processed → c'.out.toCommand now' = .ok v' → P v' →
      ∃ t, Sys.tokOf c = some t ∧ Sys.tokOf c' = some t ∧ (b, c) ∈ w.sys.sent ∧ (b', c') ∈ w.sys.sent)
    {b b' : BrokerAddress} {fs fs' : List (MessageCommand × Bytes)} (hb : BeginsWith (w.tx b).sent fs)
    (hb' : BeginsWith (w.tx b').sent fs') {k k' : Nat} {f f' : MessageCommand × Bytes} (hk : fs[k]? = some f)
    (hk' : fs'[k']? = some f') (hf : P f.1) (hf' : P f'.1) : b = b' ∧ k = k' := by
  obtain ⟨log, appLog, hp⟩ := proj h
  have hr : Sys.Reachable cfg.sys w.sys := ⟨_, hp.sys⟩
  have honce := Sys.once hr hn
  have at' : ∀ {b : BrokerAddress} {fs : List (MessageCommand × Bytes)} {l : List (Sys.ConnCmd × MessageCommand)} {k : Nat}
      {v : MessageCommand}, l.map (·.2) = fs.map (·.1) → (fs.map (·.1))[k]? = some v → ∃ c, l[k]? = some (c, v) := by
    intro b fs l k v h1 h2
    rw [← h1, List.getElem?_map, Option.map_eq_some_iff] at h2
    obtain ⟨⟨c, v⟩, hl, rfl⟩ := h2
    exact ⟨c, hl⟩
  have hk1 : (fs.map (·.1))[k]? = some f.1 := by rw [List.getElem?_map, hk]; rfl
  have hk1' : (fs'.map (·.1))[k']? = some f'.1 := by rw [List.getElem?_map, hk']; rfl
  have hbb : b = b' := by
    obtain ⟨l, l1, l2, l3⟩ := received_of h hv b hb
    obtain ⟨l', l1', l2', l3'⟩ := received_of h hv b' hb'
    obtain ⟨c, hc⟩ := at' (b := b) l2 hk1
    obtain ⟨c', hc'⟩ := at' (b := b) l2' hk1'
    obtain ⟨now, hnow⟩ := l3 _ (List.mem_of_getElem? hc)
    obtain ⟨now', hnow'⟩ := l3' _ (List.mem_of_getElem? hc')
    obtain ⟨t, s4, s4', s3, s3'⟩ := same (l1.subset (List.mem_map_of_mem (List.mem_of_getElem? hc))) hnow hf
      (l1'.subset (List.mem_map_of_mem (List.mem_of_getElem? hc'))) hnow' hf'
    obtain ⟨n, hn1, hn2⟩ := List.mem_iff_getElem.mp s3
    obtain ⟨n', hn1', hn2'⟩ := List.mem_iff_getElem.mp s3'
    rw [List.pairwise_iff_getElem] at honce
    rcases Nat.lt_trichotomy n n' with hlt | heq | hlt
    · exact absurd (by rw [hn2']; exact s4') (honce n n' hn1 hn1' hlt t (by rw [hn2]; exact s4))
    · subst heq; rw [hn2, Prod.mk.injEq] at hn2'; exact hn2'.1
    · exact absurd (by rw [hn2]; exact s4) (honce n' n hn1' hn1 hlt t (by rw [hn2']; exact s4'))
  subst hbb
  refine ⟨rfl, ?_⟩
  obtain ⟨gs, hg, g1, g2⟩ : ∃ gs, BeginsWith (w.tx b).sent gs ∧ (gs.map (·.1))[k]? = some f.1 ∧ (gs.map (·.1))[k']? = some f'.1 := by
    have pre : ∀ {l l' : List MessageCommand} {n : Nat} {x : MessageCommand}, l <+: l' → l[n]? = some x → l'[n]? = some x := by
      rintro l _ n x ⟨r, rfl⟩ hx
      rw [List.getElem?_append_left (List.getElem?_eq_some_iff.mp hx).1]; exact hx
    rcases List.prefix_or_prefix_of_prefix hb.2 hb'.2 with hpp | hpp
    · exact ⟨fs', hb', pre (frames_front hb.1 hb'.1 hpp) hk1, hk1'⟩
    · exact ⟨fs, hb, hk1, pre (frames_front hb'.1 hb.1 hpp) hk1'⟩
  obtain ⟨l, l1, l2, l3⟩ := received_of h hv b hg
  obtain ⟨c, hc⟩ := at' (b := b) l2 g1
  obtain ⟨c', hc'⟩ := at' (b := b) l2 g2
  obtain ⟨now, hnow⟩ := l3 _ (List.mem_of_getElem? hc)
  obtain ⟨now', hnow'⟩ := l3 _ (List.mem_of_getElem? hc')
  obtain ⟨t, s4, s4', s3, s3'⟩ := same (l1.subset (List.mem_map_of_mem (List.mem_of_getElem? hc))) hnow hf
    (l1.subset (List.mem_map_of_mem (List.mem_of_getElem? hc'))) hnow' hf'
  have hpw : (l.map (·.1)).Pairwise fun x y => ∀ t, Sys.tokOf x = some t → Sys.tokOf y ≠ some t := by
    refine List.Pairwise.sublist l1 ?_
    have : (Sys.sentTo w.sys.sent b).Pairwise fun x y => ∀ t, Sys.tokOf x = some t → Sys.tokOf y ≠ some t := by
      unfold Sys.sentTo
      rw [List.pairwise_filterMap]
      refine honce.imp ?_
      intro x y hxy u hu v hv'
      split at hu
      · split at hv'
        · cases hu; cases hv'; exact hxy
        · cases hv'
      · cases hu
    rw [← (Sys.conn hr).accepted b, ((Sys.conn hr).ok b).fifo] at this
    exact (List.pairwise_append.mp this).1
  rw [List.pairwise_map, List.pairwise_iff_getElem] at hpw
  obtain ⟨q1, q2⟩ := List.getElem?_eq_some_iff.mp hc
  obtain ⟨q1', q2'⟩ := List.getElem?_eq_some_iff.mp hc'
  rcases Nat.lt_trichotomy k k' with hlt | heq | hlt
  · exact absurd (by rw [q2']; exact s4') (hpw k k' q1 q1' hlt t (by rw [q2]; exact s4))
  · exact heq
  · exact absurd (by rw [q2]; exact s4) (hpw k' k q1' q1 hlt t (by rw [q2']; exact s4'))

/-- No send is ever on the wire twice: over all sockets, whatever failed, at most one whole `SEND` of a producer with a given
sequence id has been sent. -/
theorem C100_at_most_once {cfg : World.Cfg T} {acts : List World.Act} {w : World T} (h : World.Run cfg acts w) (hv : Fits w)
    (hn : w.sys.nClients ≤ 2 ^ 64) (hsq : ∀ i, (Sys.idsOf Sys.sequenceIdOf w.sys.issued i).length ≤ 2 ^ 64)
    {b b' : BrokerAddress} {fs fs' : List (MessageCommand × Bytes)} (hb : BeginsWith (w.tx b).sent fs)
    (hb' : BeginsWith (w.tx b').sent fs') {k k' : Nat} {f f' : MessageCommand × Bytes} (hk : fs[k]? = some f)
    (hk' : fs'[k']? = some f') {p s : UInt64} (hf : IsSendCommand f.1 p s) (hf' : IsSendCommand f'.1 p s) : b = b' ∧ k = k' := by
  obtain ⟨log, appLog, hp⟩ := proj h
  have hr : Sys.Reachable cfg.sys w.sys := ⟨_, hp.sys⟩
  have tok : ∀ {b : BrokerAddress} {c : Sys.ConnCmd} {v : MessageCommand} {now : UInt64}, c ∈ (w.sys.conns b).processed →
      c.out.toCommand now = .ok v → IsSendCommand v p s → (b, c) ∈ w.sys.sent ∧
        ∃ (t i : Nat) (m : Send), Sys.tokOf c = some t ∧ i < w.sys.nClients ∧ w.sys.issued[t]? = some (i, .send m) ∧ UInt64.ofNat i = p ∧
          m.sequenceId = s := by
    intro b c v now hc hnow hf
    obtain ⟨m, m1, m2, m3⟩ := send_of_command hnow hf
    obtain ⟨t, i, t1, t2, t3, t4, t5⟩ := send_taken hr hc m1
    exact ⟨t2, t, i, m, t1, t3, t4, t5.symm.trans m2, m3⟩
  have same : ∀ {b b' : BrokerAddress} {c c' : Sys.ConnCmd} {v v' : MessageCommand} {now now' : UInt64},
      c ∈ (w.sys.conns b).processed → c.out.toCommand now = .ok v → IsSendCommand v p s →
      c' ∈ (w.sys.conns b').processed → c'.out.toCommand now' = .ok v' → IsSendCommand v' p s →
      ∃ t, Sys.tokOf c = some t ∧ Sys.tokOf c' = some t ∧ (b, c) ∈ w.sys.sent ∧ (b', c') ∈ w.sys.sent := by
    intro b b' c c' v v' now now' h1 h2 h3 h1' h2' h3'
    obtain ⟨s3, t, i, m, s4, s5, s6, s7, s8⟩ := tok h1 h2 h3
    obtain ⟨s3', t', i', m', s4', s5', s6', s7', s8'⟩ := tok h1' h2' h3'
    have hii : i = i' := by
      have := congrArg UInt64.toNat (s7.trans s7'.symm)
      rw [UInt64.toNat_ofNat', UInt64.toNat_ofNat', Nat.mod_eq_of_lt (by omega), Nat.mod_eq_of_lt (by omega)] at this
      exact this
    subst hii
    have htt : t = t' := idsOf_inj ((C44_unique hr s5).1 (hsq i)) s6 s6' (x := s) (by simp [Sys.sequenceIdOf, s8])
      (by simp [Sys.sequenceIdOf, s8'])
    subst htt
    exact ⟨t, s4, s4', s3, s3'⟩
  exact one_frame h hv hn (P := fun v => IsSendCommand v p s) same hb hb' hk hk' hf hf'

/-- A send that returned Ok has arrived.  Provided brokers confirm only what they have received, no other producer of the instance has
used the same sequence id, and the producer has made at most 2^64 sends: once the call has its receipt, some broker has been sent the
whole command, with exactly the message of the call. -/
theorem C100_confirmed_is_received {cfg : World.Cfg T} {acts : List World.Act} {w : World T} (h : World.Run cfg acts w) (hv : Fits w)
    (hb : ConfirmsOnlyReceived cfg acts) {t i : Nat} {e : Sys.Event} {core : Client} {call : Call} {m : Send}
    (hi : w.sys.issued[t]? = some (i, (core.issue call).2)) (hm : (core.issue call).2 = .send m)
    (ho : (t, Sys.TokResult.resolved e) ∈ w.sys.outcomes)
    (hsq : (Sys.idsOf Sys.sequenceIdOf w.sys.issued i).length ≤ 2 ^ 64)
    (hoth : ∀ (t' j : Nat) (m' : Send), w.sys.issued[t']? = some (j, .send m') → m'.sequenceId = m.sequenceId → j = i) :
    ∃ b v now, Received (w.tx b).sent v ∧ IsCommand v (call.wire core).1 (call.wire core).2.1 (call.wire core).2.2 ∧
      call.wirePayload core now v.payload := by
  obtain ⟨log, hlog, hreads⟩ := sys_log h
  have hr : Sys.Reachable cfg.sys w.sys := ⟨_, hlog⟩
  obtain ⟨_, e', r, b, h1, h2, h3, h4⟩ := confirmed_of_ok hlog (hm ▸ hi) ho
  obtain ⟨v, hvm, hvi⟩ := h4
  obtain ⟨pre, post, ans, w', rfl, hpre, hit⟩ := hreads b _ hvm
  have hpoll : (Framed.pollNext (w'.rx b).framed (w'.rx b).socket).1 = .item v := by
    generalize (Framed.pollNext (w'.rx b).framed (w'.rx b).socket).1 = q at hit
    cases q <;> simp_all [item]
  have hrec : IsSendReceipt v r.producerId r.sequenceId := by
    have := ((C17_classification v).1 _ hvi)
    obtain ⟨k1, sub, k2, k3, k4, _⟩ := this
    exact ⟨k1, sub, k2, k3.symm, k4.symm⟩
  obtain ⟨mv, ⟨frames, hfr, hmv⟩, hsend⟩ := hb pre post b ans w' v _ _ rfl hpre hpoll hrec
  have hmono := sent_mono hpre h b
  have hfr' : BeginsWith (w.tx b).sent frames := ⟨hfr.1, hfr.2.trans hmono⟩
  obtain ⟨l, l1, l2, l3⟩ := received_of h hv b hfr'
  rw [← l2] at hmv
  obtain ⟨⟨c, mv'⟩, hx, rfl⟩ := List.mem_map.mp hmv
  obtain ⟨now, hnow⟩ := l3 _ hx
  obtain ⟨m', m1, m2, m3⟩ := send_of_command hnow hsend
  obtain ⟨t', j, t1, t2, t3, t4, t5⟩ := send_taken hr (l1.subset (List.mem_map_of_mem hx)) m1
  have hji := hoth t' j m' t4 (m3.trans h3)
  subst hji
  rw [hm] at hi
  have htt : t' = t := idsOf_inj ((C44_unique hr t3).1 hsq) t4 hi (x := m.sequenceId) (by simp [Sys.sequenceIdOf, m3, h3]) rfl
  subst htt
  rw [t4] at hi
  simp only [Option.some.injEq, Prod.mk.injEq, true_and, Outbound.send.injEq] at hi
  subst hi
  rw [m1, ← hm] at hnow
  refine ⟨b, mv', now, ⟨frames, hfr', by rw [← l2]; exact List.mem_map_of_mem hx⟩, issued_command now core call hnow⟩

/-! ### A concrete case -/

namespace ConfirmedExample

open Frame Trace EndToEndExample OnTheWireExample

/-- A producer's only send, and the broker's receipt. -/
def sent1 : Send := .single "c" 0 0 [104]
def command1 : MessageCommand := sent1.asCommand 0
def receipt1 : MessageCommand :=
  ⟨baseCommand 7 7 (mkMsg .commandSendReceipt [(1, vU64 0), (2, vU64 0), (3, vMsg (mkMsg .messageIdData [(1, vU64 5), (2, vU64 1)]))]), none⟩

def sendBytes : Bytes := layout command1.parts.1 command1.parts.2
def receiptBytes : Bytes := layout receipt1.parts.1 receipt1.parts.2

theorem command1_to : (Outbound.send sent1).toCommand 0 = .ok command1 := Send.toCommand_eq ..

theorem sendable_send : Frame.Sendable command1 command1.parts.1 command1.parts.2 := by
  obtain ⟨item, h1, h2, h3⟩ := toCommand_ok 0 (.send sent1) trivial
  rw [command1_to] at h1
  cases h1
  exact parts_sendable _ h2 h3 (by decide +kernel)

theorem frame_send : Framed.IsFrame (command1, sendBytes) := Framed.isFrame_of sendable_send

theorem frame_receipt : Framed.IsFrame (receipt1, receiptBytes) := by
  refine Framed.isFrame_of (parts_sendable _ ?_ (by intro p hp; cases hp) (by decide +kernel))
  exact base_ser 100 7 7 _ .commandSendReceipt (by decide) rfl (mk_ser 99 _ _ (by simp [pulsar])
      (fields_cons (ok_u64 1 _ _ rfl) (fields_cons (ok_u64 2 _ _ rfl) (fields_cons (ok_msg 3 _ .messageIdData _
        (mk_ser 98 _ _ (by simp [pulsar]) (fields_cons (ok_u64 1 _ _ rfl) (fields_cons (ok_u64 2 _ _ rfl) fields_nil))) rfl) fields_nil))))

theorem enc_send : ((Outbound.send sent1).toCommand 0).bind (Codec.encode true) = .ok sendBytes := by
  rw [command1_to]
  exact Codec.encode_layout _ _ _ _ sendable_send.serialises sendable_send.fits

def sending : List World.Act := before ++ (ask 0 (.sendMessage [104])).map .sys
def u0 : World UInt8 := after (World.init wcfg) sending
def u1 : World UInt8 := wroteTo u0 ⟨[], sendBytes⟩ .ok
def u2 : World UInt8 := after u1 [.arrive b0 (.data receiptBytes)]

/-- The world after the receipt has been read. -/
def u3 : World UInt8 :=
  sync wcfg { u2 with rx := fun x => if x = b0 then
      { u2.rx b0 with framed := { buf := [], readable := true }, socket := [], out := (u2.rx b0).out ++ [.item receipt1] } else u2.rx x }
    ((sysSteps wcfg.sys u2.sys [.connRead b0 (.command receipt1 (some 0))]).getD u2.sys)

def u4 : World UInt8 := after u3 [.sys (.engIn b0)]

theorem go1 : World.Run wcfg sending u0 := run_exec (as := []) .nil rfl

theorem go2 : World.step wcfg u0 (.write b0 0 .ok) = some u1 := by
  refine do_write _ _ _ _ rfl rfl ?_ rfl
  show (Tx.send true 0 {} (.send sent1) .ok) = _
  simp only [Tx.send, enc_send]
  rfl

theorem poll_receipt : Framed.pollNext (u2.rx b0).framed (u2.rx b0).socket = (.item receipt1, { buf := [], readable := true }, []) := by
  show Framed.pollNext {} [.data receiptBytes] = _
  have := Framed.IsFrame.decode frame_receipt []
  rw [List.append_nil] at this
  simp [Framed.pollNext, Framed.attempt, this]

theorem go4 : World.step wcfg u2 (.poll b0 (some 0)) = some u3 := by
  have hr : running u2 b0 = true := rfl
  have hst : (u2.rx b0).stopped = false := rfl
  have hs : ((item (some 0) (.item receipt1)).toList.map (Sys.Act.connRead b0)) = [.connRead b0 (.command receipt1 (some 0))] := rfl
  have hx : (sysSteps wcfg.sys u2.sys [.connRead b0 (.command receipt1 (some 0))]).isSome := rfl
  obtain ⟨s, hx⟩ := Option.isSome_iff_exists.mp hx
  unfold u3
  simp only [World.step, hr, if_true, poll_receipt, hs, hx, Framed.ReadSide.step, hst]
  rfl

theorem go5 : World.Run wcfg (sending ++ [.write b0 0 .ok] ++ [.arrive b0 (.data receiptBytes)] ++ [.poll b0 (some 0)] ++
    [.sys (.engIn b0)]) u4 :=
  run_exec (.snoc (run_exec (.snoc go1 go2) rfl) go4) rfl

theorem only_poll {l r pre post : List World.Act} {b b' : BrokerAddress} {x x' : Option Sys.Tok}
    (h : l ++ .poll b x :: r = pre ++ .poll b' x' :: post) (hl : ∀ b x, World.Act.poll b x ∉ l) (hr : ∀ b x, World.Act.poll b x ∉ r) :
    pre = l ∧ b' = b := by
  rcases List.append_eq_append_iff.mp h with ⟨y, rfl, h2⟩ | ⟨y, rfl, h2⟩
  · cases y with
    | nil => simp only [List.nil_append, List.cons.injEq, World.Act.poll.injEq] at h2; exact ⟨by simp, h2.1.1.symm⟩
    | cons z y =>
      rw [List.cons_append, List.cons.injEq] at h2
      exact absurd (h2.2 ▸ by simp) (hr b' x')
  · cases y with
    | nil => simp only [List.nil_append, List.cons.injEq, World.Act.poll.injEq] at h2; exact ⟨by simp, h2.1.1⟩
    | cons z y =>
      rw [List.cons_append, List.cons.injEq] at h2
      exact absurd (by rw [← h2.1]; simp) (hl b' x')

theorem received1 : Received (u2.tx b0).sent command1 :=
  ⟨[(command1, sendBytes)], ⟨fun f hf => by rw [List.mem_singleton] at hf; subst hf; exact frame_send,
    ⟨[], by simp [Framed.stream]; rfl⟩⟩, by simp⟩

theorem isSend1 : IsSendCommand command1 0 0 := by
  refine ⟨commandType_base .., mkMsg .commandSend [(1, vU64 0), (2, vU64 0), (3, [.int 1])], ?_, u64_of rfl rfl, u64_of rfl rfl⟩
  show getMsg .baseCommand (baseCommand 6 6 _) 6 = _
  unfold getMsg baseCommand
  rw [getF_mk _ _ _ rfl]
  rfl

/-- The hypotheses of `C100_confirmed_is_received` and (with `command1` as both commands) of `C100_at_most_once` are met by a producer
whose message has been written, received and confirmed. -/
example : World.Run wcfg (sending ++ [.write b0 0 .ok] ++ [.arrive b0 (.data receiptBytes)] ++ [.poll b0 (some 0)] ++
      [.sys (.engIn b0)]) u4 ∧ Fits u4 ∧
    ConfirmsOnlyReceived wcfg (sending ++ [.write b0 0 .ok] ++ [.arrive b0 (.data receiptBytes)] ++ [.poll b0 (some 0)] ++
      [.sys (.engIn b0)]) ∧
    u4.sys.issued = [(0, ((⟨0, "c", 0, 0⟩ : Client).issue (.sendMessage [104])).2)] ∧
    (∃ e, (0, Sys.TokResult.resolved e) ∈ u4.sys.outcomes) ∧ Received (u4.tx b0).sent command1 ∧ u4.sys.nClients = 1 := by
  refine ⟨go5, ?_, ?_, rfl, ⟨_, List.mem_cons_self⟩, received1, rfl⟩
  · intro b c hc
    by_cases hb : b = b0
    · subst hb
      have : (u4.sys.conns b0).processed.map (·.out) = [.send sent1] := rfl
      have hc' := List.mem_map_of_mem (f := (·.out)) hc
      rw [this, List.mem_singleton] at hc'
      rw [hc']
      exact ⟨trivial, by decide +kernel⟩
    · have h0 := (Sys.conn (⟨_, (proj go5).choose_spec.choose_spec.sys⟩ : Sys.Reachable wcfg.sys u4.sys)).unused b
        (by show b ∉ [b0]; simpa using hb)
      rw [h0] at hc; cases hc
  · intro pre post b ans w v p s he hr hp hv
    rw [List.append_assoc, List.singleton_append] at he
    have hno : ∀ (l : List World.Act), (l.all fun a => match a with | .poll .. => false | _ => true) = true →
        ∀ b x, World.Act.poll b x ∉ l := by
      intro l hl b x hm
      rw [List.all_eq_true] at hl
      exact absurd (hl _ hm) (by simp)
    obtain ⟨rfl, rfl⟩ := only_poll he (hno _ rfl) (hno _ rfl)
    have hw := run_unique hr (run_exec (.snoc go1 go2) (as := sending ++ [.write b0 0 .ok]) (w' := u2) rfl)
    subst hw
    rw [poll_receipt] at hp
    cases hp
    obtain ⟨_, sub, h1, h2, h3⟩ := hv
    have : sub = mkMsg .commandSendReceipt [(1, vU64 0), (2, vU64 0), (3, vMsg (mkMsg .messageIdData [(1, vU64 5), (2, vU64 1)]))] := by
      unfold getMsg receipt1 baseCommand at h1
      simp only at h1
      rw [getF_mk _ _ _ rfl] at h1
      cases h1; rfl
    subst this
    rw [u64_of rfl rfl] at h2 h3
    subst h2 h3
    exact ⟨_, received1, isSend1⟩

end ConfirmedExample

end Neutron.Props
