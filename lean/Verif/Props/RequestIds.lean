import Verif.Spec.RequestIds
import Verif.Props.Confirmed

/-!
# Request ids identify a request: C134
-/

namespace Neutron.Props

open Neutron Neutron.World Proto

variable {T : Type}

/-- The producer or consumer a command names, if it carries a request id. -/
def ownerOf : Outbound → Option UInt64
  | .producer p => some p.producerId
  | .subscribe p => some p.consumerId
  | .ack l => l.head?.map (·.consumerId)
  | _ => none

theorem sub_base {ty : Int} {f : Nat} {sub m : Msg} (hf : (pulsar .baseCommand).any (fun d => d.num == f) = true) (h1 : f ≠ 1)
    (h : getMsg .baseCommand (baseCommand ty f sub) f = some m) : m = sub := by
  unfold getMsg baseCommand at h
  rw [getF_mk _ _ _ hf] at h
  have : (([(1, [Val.int ty]), (f, vMsg sub)] : List (Nat × List Val)).lookup f) = some (vMsg sub) := by
    have hb : (f == 1) = false := by simpa using h1
    simp [List.lookup, hb]
  rw [this] at h
  cases h; rfl

theorem request_of_command {now : UInt64} {out : Outbound} {v : MessageCommand} {p r : UInt64} (ht : out.toCommand now = .ok v)
    (hv : IsRequestOf v p r) : Sys.requestIdOf out = some r ∧ ownerOf out = some p := by
  have no : ∀ ty f sub pl, v = ⟨baseCommand ty f sub, pl⟩ → ty = 5 ∨ ty = 4 ∨ ty = 10 := by
    intro ty f sub pl he
    rcases hv with h | h | h <;> have := h.1 <;> rw [he] at this <;> rw [commandType_base] at this <;> simp [this]
  cases out with
  | producer q =>
    cases ht
    rcases hv with ⟨h, m, h1, h2, h3⟩ | ⟨h, _⟩ | ⟨h, _⟩
    · cases sub_base rfl (by decide) h1
      rw [u64_of rfl rfl] at h2 h3
      exact ⟨by rw [← h3]; rfl, by rw [← h2]; rfl⟩
    · exact absurd ((commandType_base ..).symm.trans h) (by decide)
    · exact absurd ((commandType_base ..).symm.trans h) (by decide)
  | subscribe q =>
    cases ht
    rcases hv with ⟨h, _⟩ | ⟨h, m, h1, h2, h3⟩ | ⟨h, _⟩
    · exact absurd ((commandType_base ..).symm.trans h) (by decide)
    · cases sub_base rfl (by decide) h1
      rw [u64_of rfl rfl] at h2 h3
      exact ⟨by rw [← h3]; rfl, by rw [← h2]; rfl⟩
    · exact absurd ((commandType_base ..).symm.trans h) (by decide)
  | ack a =>
    unfold Outbound.toCommand ackToCommand at ht
    cases a with
    | nil => cases ht
    | cons x a =>
      cases ht
      rcases hv with ⟨h, _⟩ | ⟨h, _⟩ | ⟨h, m, h1, h2, h3⟩
      · exact absurd ((commandType_base ..).symm.trans h) (by decide)
      · exact absurd ((commandType_base ..).symm.trans h) (by decide)
      · cases sub_base rfl (by decide) h1
        rw [u64_of rfl rfl] at h2 h3
        exact ⟨by rw [← h3]; rfl, by rw [← h2]; rfl⟩
  | send m =>
    rw [show (Outbound.toCommand now _) = Send.toCommand now m from rfl, Send.toCommand_eq] at ht
    cases ht
    exact absurd (no _ _ _ _ rfl) (by decide)
  | _ => cases ht; exact absurd (no _ _ _ _ rfl) (by decide)

theorem lookup_of_command {now : UInt64} {out : Outbound} {v : MessageCommand} {r : UInt64} (ht : out.toCommand now = .ok v)
    (hv : IsLookup v r) : Sys.requestIdOf out = some r := by
  have no : ∀ ty f sub pl, v = ⟨baseCommand ty f sub, pl⟩ → ty = 23 := by
    intro ty f sub pl he
    have := hv.1
    rw [he] at this
    rwa [commandType_base] at this
  cases out with
  | lookupTopic q =>
    cases ht
    obtain ⟨h, m, h1, h2⟩ := hv
    cases sub_base rfl (by decide) h1
    rw [u64_of rfl rfl] at h2
    rw [← h2]; rfl
  | ack a =>
    unfold Outbound.toCommand ackToCommand at ht
    cases a with
    | nil => cases ht
    | cons x a => cases ht; exact absurd (no _ _ _ _ rfl) (by decide)
  | send m =>
    rw [show (Outbound.toCommand now _) = Send.toCommand now m from rfl, Send.toCommand_eq] at ht
    cases ht
    exact absurd (no _ _ _ _ rfl) (by decide)
  | _ => cases ht; exact absurd (no _ _ _ _ rfl) (by decide)

/-- A command with a request id among those a connection took is a request of the client it names. -/
theorem request_taken {cfg : Sys.Cfg} {s : Sys.State} (h : Sys.Reachable cfg s) {b : BrokerAddress} {c : Sys.ConnCmd} {r : UInt64}
    (hc : c ∈ (s.conns b).processed) (hm : Sys.requestIdOf c.out = some r) :
    ∃ (t i : Nat), Sys.tokOf c = some t ∧ (b, c) ∈ s.sent ∧ i < s.nClients ∧ s.issued[t]? = some (i, c.out) ∧
      ∀ p, ownerOf c.out = some p → p = UInt64.ofNat i := by
  have hs : (b, c) ∈ s.sent := by
    rw [← Sys.mem_sentTo, ← (Sys.conn h).accepted b, ((Sys.conn h).ok b).fifo]
    exact List.mem_append_left _ hc
  have hok := (Sys.cmd h).sentOk b c hs
  cases ho : c.origin with
  | none => rw [ho] at hok; rw [hok.1] at hm; cases hm
  | some x =>
    obtain ⟨i, cm⟩ := x
    rw [ho] at hok
    obtain ⟨h1, h2, h3⟩ := hok
    have hout : cm.out = c.out := by
      cases hcm : cm.out with
      | connect c0 => rw [hcm] at h3; obtain ⟨_, _, _, h4⟩ := h3; rw [h4] at hm; cases hm
      | _ => rw [hcm] at h3; exact h3.symm
    obtain ⟨core, call, k1, k2, k3⟩ := Sys.made_handled h h1 h2
    rw [hout] at k2
    have hex : cm.tok.isSome = true ∧ ∀ p, ownerOf c.out = some p → p = UInt64.ofNat i := by
      rw [k2] at hm ⊢
      cases call <;> simp_all [Client.issue, Sys.requestIdOf, ownerOf, Call.expectsResponse]
    obtain ⟨t, ht⟩ := Option.isSome_iff_exists.mp hex.1
    refine ⟨t, i, by simp [Sys.tokOf, ho, ht], hs, h1, ?_, hex.2⟩
    rw [← hout]
    exact (Sys.taken h i h1 cm h2 t ht).1

/-- **C134.**  A request can be told from every other by the producer or consumer it names and its request id: over all sockets,
whatever failed, at most one whole `PRODUCER`, `SUBSCRIBE` or `ACK` naming producer or consumer `p` with request id `r` has been
sent. -/
theorem C134_identified {cfg : World.Cfg T} {acts : List World.Act} {w : World T} (h : World.Run cfg acts w) (hv : Fits w)
    (hn : w.sys.nClients ≤ 2 ^ 64) (hrq : ∀ i, (Sys.idsOf Sys.requestIdOf w.sys.issued i).length ≤ 2 ^ 64)
    {b b' : BrokerAddress} {fs fs' : List (MessageCommand × Bytes)} (hb : BeginsWith (w.tx b).sent fs)
    (hb' : BeginsWith (w.tx b').sent fs') {k k' : Nat} {f f' : MessageCommand × Bytes} (hk : fs[k]? = some f)
    (hk' : fs'[k']? = some f') {p r : UInt64} (hf : IsRequestOf f.1 p r) (hf' : IsRequestOf f'.1 p r) : b = b' ∧ k = k' := by
  obtain ⟨log, appLog, hp⟩ := proj h
  have hr : Sys.Reachable cfg.sys w.sys := ⟨_, hp.sys⟩
  refine one_frame h hv hn (P := fun v => IsRequestOf v p r) ?_ hb hb' hk hk' hf hf'
  intro b b' c c' v v' now now' h1 h2 h3 h1' h2' h3'
  obtain ⟨r1, r2⟩ := request_of_command h2 h3
  obtain ⟨r1', r2'⟩ := request_of_command h2' h3'
  obtain ⟨t, i, s1, s2, s3, s4, s5⟩ := request_taken hr h1 r1
  obtain ⟨t', i', s1', s2', s3', s4', s5'⟩ := request_taken hr h1' r1'
  have hii : i = i' := by
    have := congrArg UInt64.toNat ((s5 p r2).symm.trans (s5' p r2'))
    rw [UInt64.toNat_ofNat', UInt64.toNat_ofNat', Nat.mod_eq_of_lt (by omega), Nat.mod_eq_of_lt (by omega)] at this
    exact this
  subst hii
  have htt : t = t' := idsOf_inj ((C44_unique hr s3).2 (hrq i)) s4 s4' (x := r) r1 r1'
  subst htt
  exact ⟨t, s1, s1', s2, s2'⟩

/-- **C134.**  With a single producer or consumer on the instance the request id alone suffices: over all sockets at most one whole
command, of whatever kind, has been sent with request id `r`. -/
theorem C134_alone {cfg : World.Cfg T} {acts : List World.Act} {w : World T} (h : World.Run cfg acts w) (hv : Fits w)
    (hn : w.sys.nClients ≤ 1) (hrq : (Sys.idsOf Sys.requestIdOf w.sys.issued 0).length ≤ 2 ^ 64)
    {b b' : BrokerAddress} {fs fs' : List (MessageCommand × Bytes)} (hb : BeginsWith (w.tx b).sent fs)
    (hb' : BeginsWith (w.tx b').sent fs') {k k' : Nat} {f f' : MessageCommand × Bytes} (hk : fs[k]? = some f)
    (hk' : fs'[k']? = some f') {r : UInt64} (hf : HasRequestId f.1 r) (hf' : HasRequestId f'.1 r) : b = b' ∧ k = k' := by
  obtain ⟨log, appLog, hp⟩ := proj h
  have hr : Sys.Reachable cfg.sys w.sys := ⟨_, hp.sys⟩
  have id : ∀ {out : Outbound} {now : UInt64} {v : MessageCommand}, out.toCommand now = .ok v → HasRequestId v r →
      Sys.requestIdOf out = some r := by
    rintro out now v h1 (⟨p, h2⟩ | h2)
    · exact (request_of_command h1 h2).1
    · exact lookup_of_command h1 h2
  refine one_frame h hv (by omega) (P := fun v => HasRequestId v r) ?_ hb hb' hk hk' hf hf'
  intro b b' c c' v v' now now' h1 h2 h3 h1' h2' h3'
  obtain ⟨t, i, s1, s2, s3, s4, s5⟩ := request_taken hr h1 (id h2 h3)
  obtain ⟨t', i', s1', s2', s3', s4', s5'⟩ := request_taken hr h1' (id h2' h3')
  have h0 : i = 0 := by omega
  have h0' : i' = 0 := by omega
  subst h0 h0'
  have htt : t = t' := idsOf_inj ((C44_unique hr s3).2 hrq) s4 s4' (x := r) (id h2 h3) (id h2' h3')
  subst htt
  exact ⟨t, s1, s1', s2, s2'⟩

/-! ### Concrete cases -/

namespace RequestIdsExample

open Frame Trace EndToEndExample OnTheWireExample

/-- Two consumers on one instance; each looks up its topic, and both lookups are written. -/
def lookup1 : Outbound := .lookupTopic ⟨0, "t"⟩
def lookup2 : Outbound := .lookupTopic ⟨0, "u"⟩
def command1 : MessageCommand := LookupTopic.toCommand ⟨0, "t"⟩
def command2 : MessageCommand := LookupTopic.toCommand ⟨0, "u"⟩
def bytes1 : Bytes := layout command1.parts.1 command1.parts.2
def bytes2 : Bytes := layout command2.parts.1 command2.parts.2

def asking : List World.Act := before ++ ((join 1 ++ ask 0 (.lookupTopic "t") ++ ask 1 (.lookupTopic "u")).map .sys)
def v0 : World UInt8 := after (World.init wcfg) asking
def v1 : World UInt8 := wroteTo v0 ⟨[], bytes1⟩ .ok
def v2 : World UInt8 := wroteTo v1 ⟨[], bytes1 ++ bytes2⟩ .ok

theorem sendable {out : Outbound} {v : MessageCommand} (ht : out.toCommand 0 = .ok v) (hv : out.Valid)
    (hs : size v.parts.1 v.parts.2 < 4294967296) : Frame.Sendable v v.parts.1 v.parts.2 := by
  obtain ⟨item, h1, h2, h3⟩ := toCommand_ok 0 out hv
  rw [ht] at h1
  cases h1
  exact parts_sendable _ h2 h3 hs

theorem sendable1 : Frame.Sendable command1 command1.parts.1 command1.parts.2 :=
  sendable (out := lookup1) rfl trivial (by decide +kernel)
theorem sendable2 : Frame.Sendable command2 command2.parts.1 command2.parts.2 :=
  sendable (out := lookup2) rfl trivial (by decide +kernel)

theorem enc1 : (lookup1.toCommand 0).bind (Codec.encode true) = .ok bytes1 :=
  Codec.encode_layout _ _ _ _ sendable1.serialises sendable1.fits
theorem enc2 : (lookup2.toCommand 0).bind (Codec.encode true) = .ok bytes2 :=
  Codec.encode_layout _ _ _ _ sendable2.serialises sendable2.fits

theorem go0 : World.Run wcfg asking v0 := run_exec (as := []) .nil rfl

theorem go1 : World.step wcfg v0 (.write b0 0 .ok) = some v1 := by
  refine do_write _ _ _ _ rfl rfl ?_ rfl
  show (Tx.send true 0 {} lookup1 .ok) = _
  simp only [Tx.send, enc1]
  rfl

theorem go2 : World.step wcfg v1 (.write b0 0 .ok) = some v2 := by
  refine do_write _ _ _ _ rfl rfl ?_ rfl
  show (Tx.send true 0 ⟨[], bytes1⟩ lookup2 .ok) = _
  simp only [Tx.send, enc2]
  rfl

theorem run1 : World.Run wcfg (asking ++ [.write b0 0 .ok]) v1 := .snoc go0 go1
theorem run2 : World.Run wcfg (asking ++ [.write b0 0 .ok] ++ [.write b0 0 .ok]) v2 := .snoc run1 go2

def frames : List (MessageCommand × Bytes) := [(command1, bytes1), (command2, bytes2)]

theorem whole : BeginsWith (v2.tx b0).sent frames := by
  refine ⟨fun f hf => ?_, ⟨[], by simp [Framed.stream, frames]; rfl⟩⟩
  simp only [frames, List.mem_cons, List.not_mem_nil, or_false] at hf
  rcases hf with rfl | rfl
  · exact Framed.isFrame_of sendable1
  · exact Framed.isFrame_of sendable2

theorem isLookup (l : LookupTopic) : IsLookup l.toCommand l.requestId := by
  refine ⟨commandType_base .., mkMsg .commandLookupTopic [(1, vStr l.topic), (2, vU64 l.requestId)], ?_, u64_of rfl rfl⟩
  show getMsg .baseCommand (baseCommand 23 23 _) 23 = _
  unfold getMsg baseCommand
  rw [getF_mk _ _ _ rfl]
  rfl

theorem fits2 : Fits v2 := by
  intro b c hc
  by_cases hb : b = b0
  · subst hb
    have : (v2.sys.conns b0).processed.map (·.out) = [lookup1, lookup2] := rfl
    have hc' := List.mem_map_of_mem (f := (·.out)) hc
    rw [this] at hc'
    simp only [List.mem_cons, List.not_mem_nil, or_false] at hc'
    rcases hc' with h | h <;> rw [h] <;> exact ⟨trivial, by decide +kernel⟩
  · have h0 := (Sys.conn (⟨_, (proj run2).choose_spec.choose_spec.sys⟩ : Sys.Reachable wcfg.sys v2.sys)).unused b
      (by show b ∉ [b0]; simpa using hb)
    rw [h0] at hc; cases hc

/-- The requests that follow: one registers a producer, the other a consumer. -/
def register1 : Outbound := .producer ⟨"t", 0, 1, some "c"⟩
def register2 : Outbound := .subscribe ⟨"u", "s", 1, 1, .shared⟩
def command3 : MessageCommand := ProducerCmd.toCommand ⟨"t", 0, 1, some "c"⟩
def command4 : MessageCommand := Subscribe.toCommand ⟨"u", "s", 1, 1, .shared⟩
def bytes3 : Bytes := layout command3.parts.1 command3.parts.2
def bytes4 : Bytes := layout command4.parts.1 command4.parts.2

def joining : List World.Act := (ask 0 (.producer "t") ++ ask 1 (.subscribe "u" "s")).map .sys
def v3 : World UInt8 := after v2 joining
def v4 : World UInt8 := wroteTo v3 ⟨[], bytes1 ++ bytes2 ++ bytes3⟩ .ok
def v5 : World UInt8 := wroteTo v4 ⟨[], bytes1 ++ bytes2 ++ bytes3 ++ bytes4⟩ .ok

theorem sendable3 : Frame.Sendable command3 command3.parts.1 command3.parts.2 :=
  sendable (out := register1) rfl trivial (by decide +kernel)
theorem sendable4 : Frame.Sendable command4 command4.parts.1 command4.parts.2 :=
  sendable (out := register2) rfl trivial (by decide +kernel)

theorem enc3 : (register1.toCommand 0).bind (Codec.encode true) = .ok bytes3 :=
  Codec.encode_layout _ _ _ _ sendable3.serialises sendable3.fits
theorem enc4 : (register2.toCommand 0).bind (Codec.encode true) = .ok bytes4 :=
  Codec.encode_layout _ _ _ _ sendable4.serialises sendable4.fits

theorem go3 : World.exec wcfg v2 joining = some v3 := rfl

theorem go4 : World.step wcfg v3 (.write b0 0 .ok) = some v4 := by
  refine do_write _ _ _ _ rfl rfl ?_ rfl
  show (Tx.send true 0 ⟨[], bytes1 ++ bytes2⟩ register1 .ok) = _
  simp only [Tx.send, enc3]
  rfl

theorem go5 : World.step wcfg v4 (.write b0 0 .ok) = some v5 := by
  refine do_write _ _ _ _ rfl rfl ?_ rfl
  show (Tx.send true 0 ⟨[], bytes1 ++ bytes2 ++ bytes3⟩ register2 .ok) = _
  simp only [Tx.send, enc4]
  rfl

theorem run5 : World.Run wcfg (asking ++ [.write b0 0 .ok] ++ [.write b0 0 .ok] ++ joining ++ [.write b0 0 .ok] ++ [.write b0 0 .ok]) v5 :=
  .snoc (.snoc (run_exec run2 go3) go4) go5

theorem fits5 : Fits v5 := by
  intro b c hc
  by_cases hb : b = b0
  · subst hb
    have : (v5.sys.conns b0).processed.map (·.out) = [lookup1, lookup2, register1, register2] := rfl
    have hc' := List.mem_map_of_mem (f := (·.out)) hc
    rw [this] at hc'
    simp only [List.mem_cons, List.not_mem_nil, or_false] at hc'
    rcases hc' with h | h | h | h <;> rw [h] <;> exact ⟨trivial, by decide +kernel⟩
  · have h0 := (Sys.conn (⟨_, (proj run5).choose_spec.choose_spec.sys⟩ : Sys.Reachable wcfg.sys v5.sys)).unused b
      (by show b ∉ [b0]; simpa using hb)
    rw [h0] at hc; cases hc

def frames5 : List (MessageCommand × Bytes) := [(command1, bytes1), (command2, bytes2), (command3, bytes3), (command4, bytes4)]

theorem whole5 : BeginsWith (v5.tx b0).sent frames5 := by
  refine ⟨fun f hf => ?_, ⟨[], by simp [Framed.stream, frames5]; rfl⟩⟩
  simp only [frames5, List.mem_cons, List.not_mem_nil, or_false] at hf
  rcases hf with rfl | rfl | rfl | rfl
  · exact Framed.isFrame_of sendable1
  · exact Framed.isFrame_of sendable2
  · exact Framed.isFrame_of sendable3
  · exact Framed.isFrame_of sendable4

theorem isRequest3 : IsRequestOf command3 0 1 := by
  refine .inl ⟨commandType_base .., mkMsg .commandProducer ([(2, vU64 0), (3, vU64 1), (1, vStr "t")] ++ [(4, vStr "c")]), ?_,
    u64_of rfl rfl, u64_of rfl rfl⟩
  show getMsg .baseCommand (baseCommand 5 5 _) 5 = _
  unfold getMsg baseCommand
  rw [getF_mk _ _ _ rfl]
  rfl

theorem isRequest4 : IsRequestOf command4 1 1 := by
  refine .inr (.inl ⟨commandType_base .., mkMsg .commandSubscribe [(1, vStr "u"), (2, vStr "s"), (3, [.int 1]), (4, vU64 1), (5, vU64 1)],
    ?_, u64_of rfl rfl, u64_of rfl rfl⟩)
  show getMsg .baseCommand (baseCommand 4 4 _) 4 = _
  unfold getMsg baseCommand
  rw [getF_mk _ _ _ rfl]
  rfl

/-- The hypotheses of `C134_identified` are met: a producer and a consumer of one instance have registered over one connection, with
the same request id but naming different ids. -/
example : World.Run wcfg (asking ++ [.write b0 0 .ok] ++ [.write b0 0 .ok] ++ joining ++ [.write b0 0 .ok] ++ [.write b0 0 .ok]) v5 ∧
    Fits v5 ∧ v5.sys.nClients = 2 ∧ Sys.idsOf Sys.requestIdOf v5.sys.issued 0 = [0, 1] ∧
    Sys.idsOf Sys.requestIdOf v5.sys.issued 1 = [0, 1] ∧ BeginsWith (v5.tx b0).sent frames5 ∧
    frames5[2]? = some (command3, bytes3) ∧ IsRequestOf command3 0 1 ∧
    frames5[3]? = some (command4, bytes4) ∧ IsRequestOf command4 1 1 :=
  ⟨run5, fits5, rfl, rfl, rfl, whole5, rfl, isRequest3, rfl, isRequest4⟩

/-- The hypotheses of `C134_alone` are met by a consumer that has looked up its topic. -/
def alone : List World.Act := before ++ (ask 0 (.lookupTopic "t")).map .sys
def y0 : World UInt8 := after (World.init wcfg) alone
def y1 : World UInt8 := wroteTo y0 ⟨[], bytes1⟩ .ok

theorem alone_write : World.step wcfg y0 (.write b0 0 .ok) = some y1 := by
  refine do_write _ _ _ _ rfl rfl ?_ rfl
  show (Tx.send true 0 {} lookup1 .ok) = _
  simp only [Tx.send, enc1]
  rfl

theorem alone_run : World.Run wcfg (alone ++ [.write b0 0 .ok]) y1 := .snoc (run_exec (as := []) .nil rfl) alone_write

example : World.Run wcfg (alone ++ [.write b0 0 .ok]) y1 ∧ Fits y1 ∧ y1.sys.nClients = 1 ∧
    Sys.idsOf Sys.requestIdOf y1.sys.issued 0 = [0] ∧ BeginsWith (y1.tx b0).sent [(command1, bytes1)] ∧ HasRequestId command1 0 := by
  refine ⟨alone_run, ?_, rfl, rfl, ⟨fun f hf => ?_, ⟨[], by simp [Framed.stream]; rfl⟩⟩, .inr (isLookup ⟨0, "t"⟩)⟩
  · intro b c hc
    by_cases hb : b = b0
    · subst hb
      have : (y1.sys.conns b0).processed.map (·.out) = [lookup1] := rfl
      have hc' := List.mem_map_of_mem (f := (·.out)) hc
      rw [this, List.mem_singleton] at hc'
      rw [hc']
      exact ⟨trivial, by decide +kernel⟩
    · have h0 := (Sys.conn (⟨_, (proj alone_run).choose_spec.choose_spec.sys⟩ : Sys.Reachable wcfg.sys y1.sys)).unused b
        (by show b ∉ [b0]; simpa using hb)
      rw [h0] at hc; cases hc
  · rw [List.mem_singleton] at hf
    subst hf
    exact Framed.isFrame_of sendable1

end RequestIdsExample

open RequestIdsExample EndToEndExample Trace in
/-- With two producers or consumers on an instance the request id alone does not identify a request, not even on one connection: the
`LOOKUP`s of two consumers for different topics carry the same request id and name no consumer. -/
theorem C134_refuted : ¬ ∀ (acts : List World.Act) (w : World UInt8), World.Run wcfg acts w → Fits w → w.sys.nClients ≤ 2 →
    (∀ i, (Sys.idsOf Sys.requestIdOf w.sys.issued i).length ≤ 1) →
    ∀ (b : BrokerAddress) (fs : List (MessageCommand × Bytes)), BeginsWith (w.tx b).sent fs →
      ∀ (k k' : Nat) (f f' : MessageCommand × Bytes), fs[k]? = some f → fs[k']? = some f' →
        ∀ r, HasRequestId f.1 r → HasRequestId f'.1 r → k = k' := by
  intro hall
  refine absurd (hall _ v2 run2 fits2 (by decide) ?_ b0 RequestIdsExample.frames whole 0 1 _ _ rfl rfl 0 (.inr (isLookup ⟨0, "t"⟩))
    (.inr (isLookup ⟨0, "u"⟩))) (by decide)
  intro i
  match i with
  | 0 => decide
  | 1 => decide
  | i + 2 => exact Nat.zero_le _

end Neutron.Props
