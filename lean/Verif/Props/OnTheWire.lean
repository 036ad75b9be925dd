import Verif.Proof.WorldWrites
import Verif.Props.EndToEnd
import Verif.Props.Routing

/-!
# What the broker receives: C71
-/

namespace Neutron.Props

open Neutron Neutron.World

variable {T : Type}

/-- What a connection's task took for a client, or any part of it, is in the client's order. -/
theorem part_in_order {cfg : Sys.Cfg} {s : Sys.State} (h : Sys.Reachable cfg s) (hn : s.nClients ≤ 2 ^ 64) {i : Nat}
    (hi : i < s.nClients) (b : BrokerAddress) {l : List Sys.ConnCmd} (hl : l.Sublist (s.conns b).processed) :
    (Sys.ofClient i l).Sublist (s.clients i).submitted := by
  have hc := Sys.cmd h
  have h1 : (Sys.ofClient i l).Sublist (Sys.ofClient i (s.conns b).accepted) := by
    refine (List.Sublist.filterMap _ hl).trans ?_
    refine List.Sublist.filterMap _ ?_
    rw [((Sys.conn h).ok b).fifo]; exact List.sublist_append_left ..
  refine h1.trans ?_
  rw [(Sys.conn h).accepted, ofClient_sent]
  refine (List.Sublist.map _ List.filter_sublist).trans ?_
  refine ((hc.routed hn i hi).sublist.map _).trans ?_
  rw [Sys.routeAll_map_snd]
  exact ((List.prefix_append ..).trans (hc.submitted i hi)).sublist

theorem partial_nil : Framed.IsPartial [] := Framed.partial_nil

/-- Cutting a list of frames anywhere: whole frames and a partial one. -/
theorem cut_frames (fs : List (MessageCommand × Bytes)) (hf : ∀ f ∈ fs, Framed.IsFrame f) (pre : Bytes)
    (h : pre <+: Framed.stream fs) :
    ∃ k part, k ≤ fs.length ∧ pre = Framed.stream (fs.take k) ++ part ∧ Framed.IsPartial part := by
  induction fs generalizing pre with
  | nil =>
    have : pre = [] := by simpa [Framed.stream] using h
    exact ⟨0, [], Nat.le_refl _, by simp [this, Framed.stream], partial_nil⟩
  | cons f fs ih =>
    rw [Framed.stream_cons] at h
    by_cases hlen : f.2.length ≤ pre.length
    · obtain ⟨r, hr⟩ := h
      have h1 : f.2 <+: pre := by
        refine List.prefix_of_prefix_length_le (l₃ := f.2 ++ Framed.stream fs) (List.prefix_append ..) ⟨r, hr⟩ hlen
      obtain ⟨pre', rfl⟩ := h1
      rw [List.append_assoc, List.append_cancel_left_eq] at hr
      obtain ⟨k, part, k1, k2, k3⟩ := ih (fun g hg => hf g (List.mem_cons_of_mem _ hg)) pre' ⟨r, hr⟩
      exact ⟨k + 1, part, by simpa using k1, by rw [k2, List.take_succ_cons, Framed.stream_cons, List.append_assoc], k3⟩
    · have hblk := (hf f (by simp)).block
      have h1 : pre <+: f.2 := List.prefix_of_prefix_length_le h (List.prefix_append ..) (by omega)
      obtain ⟨q, hq⟩ := h1
      refine ⟨0, pre, Nat.zero_le _, by simp [Framed.stream], f.2, q, hblk, ?_, hq⟩
      rintro rfl
      rw [List.append_nil] at hq
      rw [hq] at hlen; exact hlen (Nat.le_refl _)

/-! ## C71 -/

/-- The bytes a socket has accepted are, whatever failed, the beginning of whole encodings, one after the other, of commands handed to the
connection: for every client a part of what the client handed over, in the same order, nothing twice.  Every command whose write
was reported successful is among them. -/
theorem C71_whole_commands {cfg : World.Cfg T} {acts : List World.Act} {w : World T} (h : World.Run cfg acts w)
    (hn : w.sys.nClients ≤ 2 ^ 64) (b : BrokerAddress) :
    ∃ l : List (Sys.ConnCmd × Bytes), Encoded cfg.overflowChecks l ∧ (w.tx b).sent <+: (l.map (·.2)).flatten ∧
      (w.tx b).sent ++ (w.tx b).buffer = (l.map (·.2)).flatten ∧ (w.sys.conns b).written.Sublist (l.map (·.1)) ∧
      ∀ i, i < w.sys.nClients → (Sys.ofClient i (l.map (·.1))).Sublist (w.sys.clients i).submitted := by
  obtain ⟨log, appLog, hp⟩ := proj h
  obtain ⟨l, h1, h2, h3, h4⟩ := wrote h b
  exact ⟨l, h1, ⟨_, h2⟩, h2, h4, fun i hi => part_in_order ⟨_, hp.sys⟩ hn hi b h3⟩

/-- A command whose write was reported successful has left the process: the socket has accepted it to its last byte, behind nothing but
whole commands. -/
theorem C71_reported_is_sent {cfg : World.Cfg T} {acts : List World.Act} {w : World T} (h : World.Run cfg acts w)
    (b : BrokerAddress) :
    ∃ l : List (Sys.ConnCmd × Bytes), Encoded cfg.overflowChecks l ∧ (l.map (·.2)).flatten <+: (w.tx b).sent ∧
      (w.sys.conns b).written.Sublist (l.map (·.1)) ∧ (l.map (·.1)).Sublist (w.sys.conns b).processed := by
  obtain ⟨l1, l2, h1, _, h3, h4, h5⟩ := left h b
  refine ⟨l1, fun x hx => h1 x (List.mem_append_left _ hx), h3, h5, List.Sublist.trans ?_ h4⟩
  rw [List.map_append]
  exact List.sublist_append_left ..

/-- Every command the tasks have taken can be encoded (see C10: everything the API produces can). -/
def Encodable (cfg : World.Cfg T) (w : World T) : Prop :=
  ∀ b, ∀ c ∈ (w.sys.conns b).processed, ∀ now, ∃ bytes, (c.out.toCommand now).bind (Codec.encode cfg.overflowChecks) = .ok bytes

theorem all_written {cfg : World.Cfg T} {acts : List World.Act} {w : World T} (h : World.Run cfg acts w)
    (hn : World.NoWriteFailure acts) (he : Encodable cfg w) (b : BrokerAddress) :
    (w.sys.conns b).written = (w.sys.conns b).processed := by
  have := he b
  clear he
  induction h with
  | nil => rfl
  | @snoc as w w' a h hs ih =>
    have ih := ih (fun b now io hm => hn b now io (List.mem_append_left _ hm))
    have hn' : ∀ b now io, a = .write b now io → io = .ok := fun b now io hm => hn b now io (by simp [hm])
    cases write_step h hs b with
    | same ht hp hw => rw [hp] at this ⊢; rw [hw]; exact ih this
    | sent now io c q r hq ht hp hw =>
      have hio := hn' _ _ _ rfl
      subst hio
      rw [hp] at this
      obtain ⟨bytes, hb⟩ := this c (by simp) now
      simp only [Tx.send, hb, Option.some.injEq, Prod.mk.injEq] at ht
      rw [hp, hw, ← ht.2, ih (fun c hc => this c (List.mem_append_left _ hc))]
      simp

/-- While the engine runs and no write fails, the sockets hold exactly the commands the clients handed over, but for those still
on the way: for every client one list of destinations such that what it handed over is, in order, what was passed on followed by what
is still in its channel; and on each socket, the client's commands are exactly the part of the list for that broker, in order, but
for those still queued at the connection. -/
theorem C71_everything_is_sent {cfg : World.Cfg T} {acts : List World.Act} {w : World T} (h : World.Run cfg acts w)
    (hm : w.sys.mode ≠ .stopped) (hc : w.sys.nClients ≤ 2 ^ 64) (hn : World.NoWriteFailure acts) (he : Encodable cfg w) {i : Nat}
    (hi : i < w.sys.nClients) :
    ∃ route : List (BrokerAddress × Sys.ClientCmd),
      route.map (·.2) ++ (w.sys.clients i).queue = (w.sys.clients i).submitted ∧
      ∀ b, ∃ l : List (Sys.ConnCmd × Bytes), Encoded cfg.overflowChecks l ∧ (w.tx b).sent = (l.map (·.2)).flatten ∧
        Sys.ofClient i (l.map (·.1)) ++ Sys.ofClient i (w.sys.conns b).queue =
          (route.filter fun p => decide (p.1 = b)).map (·.2) := by
  obtain ⟨log, appLog, hp⟩ := proj h
  have hr : Sys.Reachable cfg.sys w.sys := ⟨_, hp.sys⟩
  have hcm := Sys.cmd hr
  refine ⟨Sys.passedOn w.sys.sent i, ?_, fun b => ?_⟩
  · rw [(hcm.routedEq hc hm i hi).1, Sys.routeAll_map_snd]
    exact hcm.submittedEq i hi (.inr hm)
  · obtain ⟨_, l, h1, h2, h3⟩ := wrote_all h hn b
    refine ⟨l, h1, h2, ?_⟩
    rw [h3, all_written h hn he b, ← ofClient_sent, ← (Sys.conn hr).accepted b, ((Sys.conn hr).ok b).fifo]
    exact List.filterMap_append.symm

/-- What the broker can make of it: if the commands are ones the API produces and their frames fit, then, however the bytes are
cut up on the way, reading them gives exactly the first of those commands, each whole. -/
theorem C71_broker_reads {cfg : World.Cfg T} {acts : List World.Act} {w : World T} (h : World.Run cfg acts w) (b : BrokerAddress)
    (hv : ∀ c ∈ (w.sys.conns b).processed, c.out.Valid ∧
      ∀ now item, c.out.toCommand now = .ok item → Frame.size item.parts.1 item.parts.2 < 4294967296) :
    ∃ l : List (Sys.ConnCmd × MessageCommand), (l.map (·.1)).Sublist (w.sys.conns b).processed ∧
      (w.sys.conns b).written.Sublist (l.map (·.1)) ∧
      (∀ x ∈ l, ∃ now, x.1.out.toCommand now = .ok x.2) ∧
      ∃ k, k ≤ l.length ∧ ((w.tx b).buffer = [] → k = l.length) ∧ ∀ (reads : List Read), (∀ r ∈ reads, Framed.IsData r) →
        Framed.bytesOf reads = (w.tx b).sent → ∀ (evs : List Framed.Ev), Framed.arrivals evs = reads → ∀ n, l.length + 2 ≤ n →
          (Framed.ReadSide.run (evs ++ List.replicate n .poll)).out = (l.take k).map fun x => .item x.2 := by
  obtain ⟨l, h1, h2, h3, h4⟩ := wrote h b
  have hx : ∃ l' : List (Sys.ConnCmd × (MessageCommand × Bytes)), l'.map (fun x => (x.1, x.2.2)) = l ∧
      (∀ x ∈ l', (∃ now, x.1.out.toCommand now = .ok x.2.1) ∧ Framed.IsFrame x.2) := by
    clear h2 h4
    induction l with
    | nil => exact ⟨[], rfl, fun x hx => by cases hx⟩
    | cons y l ih =>
      obtain ⟨l', k1, k2⟩ := ih (fun x hx => h1 x (List.mem_cons_of_mem _ hx)) ((List.sublist_cons_self _ _).trans h3)
      obtain ⟨now, hnow⟩ := h1 y (by simp)
      have hy : y.1 ∈ (w.sys.conns b).processed := h3.subset (by simp)
      obtain ⟨hval, hfit⟩ := hv y.1 hy
      obtain ⟨item, t1, t2, t3⟩ := toCommand_ok now y.1.out hval
      have hs := parts_sendable item t2 t3 (hfit now item t1)
      rw [t1] at hnow
      have hb : Codec.encode cfg.overflowChecks item = .ok y.2 := hnow
      rw [Codec.encode_layout _ item _ _ hs.serialises hs.fits] at hb
      have hb := Outcome.ok.inj hb
      refine ⟨(y.1, (item, y.2)) :: l', by rw [List.map_cons, k1], ?_⟩
      intro x hx
      rcases List.mem_cons.mp hx with rfl | hx
      · exact ⟨⟨now, t1⟩, by rw [← hb]; exact Framed.isFrame_of hs⟩
      · exact k2 x hx
  obtain ⟨l', k1, k2⟩ := hx
  have hst : (l.map (·.2)).flatten = Framed.stream (l'.map (·.2)) := by
    rw [← k1]; unfold Framed.stream; simp [Function.comp_def]
  have hfr : ∀ f ∈ l'.map (·.2), Framed.IsFrame f := by
    intro f hf
    obtain ⟨x, hx, rfl⟩ := List.mem_map.mp hf
    exact (k2 x hx).2
  refine ⟨l'.map fun x => (x.1, x.2.1), ?_, ?_, ?_, ?_⟩
  · rw [← k1] at h3; simpa [Function.comp_def] using h3
  · rw [← k1] at h4; simpa [Function.comp_def] using h4
  · intro x hx
    obtain ⟨y, hy, rfl⟩ := List.mem_map.mp hx
    exact (k2 y hy).1
  · have hfin : ∃ k part, k ≤ (l'.map (·.2)).length ∧ (w.tx b).sent = Framed.stream ((l'.map (·.2)).take k) ++ part ∧ Framed.IsPartial part ∧
        ((w.tx b).buffer = [] → k = (l'.map (·.2)).length) := by
      by_cases hbuf : (w.tx b).buffer = []
      · refine ⟨_, [], Nat.le_refl _, ?_, partial_nil, fun _ => rfl⟩
        rw [List.take_length, List.append_nil, ← hst, ← h2, hbuf, List.append_nil]
      · obtain ⟨k, part, c1, c2, c3⟩ := cut_frames (l'.map (·.2)) hfr (w.tx b).sent ⟨_, h2.trans hst⟩
        exact ⟨k, part, c1, c2, c3, fun hc => absurd hc hbuf⟩
    obtain ⟨k, part, c1, c2, c3, c4⟩ := hfin
    rw [List.length_map] at c1
    refine ⟨k, by rw [List.length_map]; exact c1, fun hb => by rw [List.length_map]; simpa using c4 hb, ?_⟩
    intro reads hd hbytes evs hev n hlen
    rw [List.length_map] at hlen
    have := C02_chunking_complete ((l'.map (·.2)).take k) (fun f hf => hfr f (List.mem_of_mem_take hf)) part c3 false reads hd
      (hbytes.trans c2) evs (by simpa using hev) n (by rw [List.length_take]; omega)
    rw [this]
    simp [Framed.expected, List.map_take, Function.comp_def]

/-! ### A concrete case -/

namespace OnTheWireExample

open Frame Trace Proto EndToEndExample

def f1 : MessageCommand := (⟨0, 5⟩ : Flow).toCommand
def f2 : MessageCommand := (⟨0, 6⟩ : Flow).toCommand
def bytes1 : Bytes := layout f1.parts.1 f1.parts.2
def bytes2 : Bytes := layout f2.parts.1 f2.parts.2

theorem enc1 : Codec.encode true f1 = .ok bytes1 :=
  Codec.encode_layout _ _ _ _ (parts_serialises f1 (flow_ser _) (by intro p hp; cases hp)) (by decide +kernel)
theorem enc2 : Codec.encode true f2 = .ok bytes2 :=
  Codec.encode_layout _ _ _ _ (parts_serialises f2 (flow_ser _) (by intro p hp; cases hp)) (by decide +kernel)

/-- Two grants are handed over and reach the connection. -/
def asked : List World.Act := before ++ (ask 0 (.flow 5) ++ ask 0 (.flow 6)).map .sys

def v0 : World UInt8 := after (World.init wcfg) asked

/-- The world after a write with this result. -/
def wroteTo (v : World UInt8) (t : Tx) (r : Sys.Write) : World UInt8 :=
  sync wcfg { v with
      tx := fun x => if x = b0 then t else v.tx x
      held := fun x => if x = b0 then false else v.held x } ((Sys.step wcfg.sys v.sys (.connCmd b0 r)).getD v.sys)

theorem do_write {v : World UInt8} {io : Io} (c : Sys.ConnCmd) (q : List Sys.ConnCmd) (t : Tx) (r : Sys.Write)
    (hr : running v b0 = true) (hq : (v.sys.conns b0).queue = c :: q) (hs : (v.tx b0).send true 0 c.out io = some (t, r))
    (hx : (Sys.step wcfg.sys v.sys (.connCmd b0 r)).isSome) : World.step wcfg v (.write b0 0 io) = some (wroteTo v t r) := by
  obtain ⟨s, hx⟩ := Option.isSome_iff_exists.mp hx
  have hoc : wcfg.overflowChecks = true := rfl
  simp only [World.step, hr, if_true, hq, hoc, hs, hx, wroteTo, Option.getD_some]

/-- The first write fails after three bytes; the second succeeds. -/
def v1 : World UInt8 := wroteTo v0 ⟨bytes1.drop 3, bytes1.take 3⟩ .failed
def v2 : World UInt8 := wroteTo v1 ⟨[], bytes1.take 3 ++ bytes1.drop 3 ++ bytes2⟩ .ok

theorem write1 : World.step wcfg v0 (.write b0 0 (.failed 3)) = some v1 := by
  refine do_write _ _ _ _ rfl rfl ?_ rfl
  show (Tx.send true 0 {} (.flow ⟨0, 5⟩) (.failed 3)) = _
  have : ((Outbound.flow ⟨0, 5⟩).toCommand 0).bind (Codec.encode true) = .ok bytes1 := enc1
  simp only [Tx.send, this]
  simp [Tx.push]

theorem write2 : World.step wcfg v1 (.write b0 0 .ok) = some v2 := by
  refine do_write _ _ _ _ rfl rfl ?_ rfl
  show (Tx.send true 0 ⟨bytes1.drop 3, bytes1.take 3⟩ (.flow ⟨0, 6⟩) .ok) = _
  have : ((Outbound.flow ⟨0, 6⟩).toCommand 0).bind (Codec.encode true) = .ok bytes2 := enc2
  simp only [Tx.send, this]

/-- A failed write does not tear the stream: the rest of the first command goes out with the second.  The hypotheses of the
three parts of C71 are met (`C71_everything_is_sent` before the failing write). -/
example : World.Run wcfg (asked ++ [.write b0 0 (.failed 3)] ++ [.write b0 0 .ok]) v2 ∧ (v2.tx b0).sent = bytes1 ++ bytes2 ∧
    v2.sys.nClients = 1 ∧ (v2.sys.conns b0).processed.length = 2 ∧ (v2.sys.conns b0).written.length = 1 ∧
    (∀ c ∈ (v2.sys.conns b0).processed, c.out.Valid ∧
      ∀ now item, c.out.toCommand now = .ok item → size item.parts.1 item.parts.2 < 4294967296) ∧
    World.Run wcfg asked v0 ∧ v0.sys.mode ≠ .stopped ∧ World.NoWriteFailure asked ∧ Encodable wcfg v0 ∧
    (v0.sys.conns b0).queue.length = 2 := by
  have hrun : World.Run wcfg asked v0 := run_exec (as := []) .nil rfl
  refine ⟨.snoc (.snoc hrun write1) write2, ?_, rfl, rfl, rfl, ?_, hrun, ?_, ?_, ?_, rfl⟩
  · show bytes1.take 3 ++ bytes1.drop 3 ++ bytes2 = _
    rw [List.take_append_drop]
  · intro c hc
    have : (v2.sys.conns b0).processed.map (·.out) = [.flow ⟨0, 5⟩, .flow ⟨0, 6⟩] := rfl
    have hc' := List.mem_map_of_mem (f := (·.out)) hc
    rw [this] at hc'
    simp only [List.mem_cons, List.not_mem_nil, or_false] at hc'
    rcases hc' with h | h <;> rw [h] <;> refine ⟨trivial, ?_⟩ <;> intro now item hi <;> cases hi <;> decide +kernel
  · exact fun h => nomatch h
  · intro b now io hm
    have : (asked.all fun a => match a with | .write .. => false | _ => true) = true := rfl
    rw [List.all_eq_true] at this
    exact absurd (this _ hm) (by simp)
  · intro b c hc
    have : (v0.sys.conns b).processed = [] := by
      by_cases hb : b = b0
      · subst hb; rfl
      · have h0 := (Sys.conn (⟨_, (proj hrun).choose_spec.choose_spec.sys⟩ : Sys.Reachable wcfg.sys v0.sys)).unused b
          (by show b ∉ [b0]; simpa using hb)
        rw [h0]; rfl
    rw [this] at hc; cases hc

end OnTheWireExample

end Neutron.Props
