import Verif.Spec.Stream
import Verif.Proof.Codec
import Verif.Proof.ProtoFormat

/-! # Reassembling frames from arbitrary reads -/

namespace Neutron.Framed

open Frame Proto

theorem stream_cons (f : MessageCommand × Bytes) (fs : List (MessageCommand × Bytes)) :
    stream (f :: fs) = f.2 ++ stream fs := by simp [stream]

theorem IsPartial.prefix {a b : Bytes} (h : IsPartial (a ++ b)) : IsPartial a := by
  obtain ⟨f, q, h1, h2, h3⟩ := h
  exact ⟨f, b ++ q, h1, by simp [h2], by rw [← h3, List.append_assoc]⟩

theorem IsPartial.decode {a : Bytes} (h : IsPartial a) : Codec.decode a = .ok none := by
  obtain ⟨f, q, ⟨body, h0, rfl⟩, h2, h3⟩ := h
  exact Codec.decode_prefix body h0 a q h3 h2

theorem IsMessage.parse {t : MsgTy} {bs : Bytes} {m : Msg} (h : IsMessage t bs m) : parseFromBytes pulsar t bs = some m :=
  (Format.parse_iff pulsar pulsar_good t bs m).mpr h

theorem isMessage_of {t : MsgTy} {bs : Bytes} {m : Msg} (h : parseFromBytes pulsar t bs = some m) : IsMessage t bs m :=
  (Format.parse_iff pulsar pulsar_good t bs m).mp h

theorem IsFrame.block {f : MessageCommand × Bytes} (h : IsFrame f) : IsBlock f.2 := by
  obtain ⟨⟨command, payload⟩, bytes⟩ := f
  obtain ⟨cmd, h1, h2⟩ := h
  cases payload with
  | none => obtain ⟨h3, rfl⟩ := h2; exact Codec.layout_block cmd none h3
  | some p => obtain ⟨md, c, h3, h4, h5, rfl⟩ := h2; exact Codec.withChecksum_block c cmd md p.data h5

theorem IsFrame.decode {f : MessageCommand × Bytes} (h : IsFrame f) (rest : Bytes) :
    Codec.decode (f.2 ++ rest) = .ok (some (f.1, rest)) := by
  obtain ⟨body, hb1, hb2⟩ := h.block
  have hd : Codec.decodeFrame f.2 = .ok f.1 := by
    obtain ⟨⟨command, payload⟩, bytes⟩ := f
    obtain ⟨cmd, h1, h2⟩ := h
    cases payload with
    | none => obtain ⟨h3, rfl⟩ := h2; exact Codec.decodeFrame_simple _ cmd rfl h1.parse h3
    | some p =>
      obtain ⟨md, c, h3, h4, h5, rfl⟩ := h2
      exact Codec.decodeFrame_withChecksum c h4 ⟨command, some p⟩ p cmd md rfl h1.parse h3.parse h5
  rw [Codec.decode_frame_append f.2 rest body.length body hb2 rfl hb1, hd]
  rfl

theorem IsFrame.ne_nil {f : MessageCommand × Bytes} (h : IsFrame f) : f.2 ≠ [] := by
  obtain ⟨body, _, h2⟩ := h.block
  rw [h2]
  intro h3
  have := congrArg List.length h3
  rw [List.length_append, be32_length] at this
  simp at this

theorem IsFrame.prefix_decode {f : MessageCommand × Bytes} (h : IsFrame f) {a b : Bytes} (hb : b ≠ []) (hab : a ++ b = f.2) :
    Codec.decode a = .ok none := by
  obtain ⟨body, h1, h2⟩ := h.block
  exact Codec.decode_prefix body h1 a b (hab.trans h2) hb

/-- What this client's encoder writes is a frame. -/
theorem isFrame_of {item : MessageCommand} {cmd : Bytes} {pl : Option (Bytes × Bytes)} (h : Sendable item cmd pl) :
    IsFrame (item, layout cmd pl) := by
  obtain ⟨h1, h2, ⟨h3, h3'⟩, h4⟩ := h
  have hcl : cmd.length < 18446744073709551616 := by
    cases pl with
    | none => simp only [size] at h4; omega
    | some x => obtain ⟨_, _⟩ := x; simp only [size] at h4; omega
  have hcmd := parse_write pulsar pulsar_good .baseCommand item.command cmd h1 h3 hcl
  obtain ⟨command, payload⟩ := item
  refine ⟨cmd, isMessage_of hcmd, ?_⟩
  cases payload with
  | none =>
    cases pl with
    | some x => simp at h3'
    | none => exact ⟨h4, rfl⟩
  | some p =>
    cases pl with
    | none => simp at h3'
    | some x =>
      obtain ⟨md, data⟩ := x
      simp only at h3'
      obtain ⟨hm, rfl⟩ := h3'
      have h4' := h4
      simp only [size] at h4'
      have hmd := parse_write pulsar pulsar_good .messageMetadata p.metadata md (h2 p rfl) hm (by omega)
      exact ⟨md, _, isMessage_of hmd, Crc.crc32c_lt _, h4, Codec.layout_eq_withChecksum _ _ _⟩

theorem isBlock_layout (cmd : Bytes) (pl : Option (Bytes × Bytes)) (hf : size cmd pl < 4294967296) : IsBlock (layout cmd pl) :=
  Codec.layout_block cmd pl hf

theorem partial_nil : IsPartial [] := ⟨be32 0, be32 0, ⟨[], by decide, rfl⟩, by decide, rfl⟩

/-- What the decoder does with a buffer that is a prefix of a stream of frames. -/
theorem decode_stream (fs : List (MessageCommand × Bytes)) (hfs : ∀ f ∈ fs, IsFrame f) (part : Bytes)
    (hp : IsPartial part) (buf fut : Bytes) (h : buf ++ fut = stream fs ++ part) :
    (Codec.decode buf = .ok none ∧ (fs = [] ∨ fut ≠ [])) ∨
    (∃ f fs' rest, fs = f :: fs' ∧ Codec.decode buf = .ok (some (f.1, rest)) ∧ rest ++ fut = stream fs' ++ part) := by
  cases fs with
  | nil =>
    left
    refine ⟨?_, Or.inl rfl⟩
    have : buf ++ fut = part := by simpa [stream] using h
    exact (IsPartial.prefix (this ▸ hp : IsPartial (buf ++ fut))).decode
  | cons f fs' =>
    rw [stream_cons, List.append_assoc] at h
    have hf := hfs f (by simp)
    rcases List.append_eq_append_iff.mp h with ⟨a', h1, h2⟩ | ⟨c', h1, h2⟩
    · -- buf is a prefix of the frame
      by_cases ha : a' = []
      · right
        subst ha
        refine ⟨f, fs', [], rfl, ?_, by simpa using h2⟩
        have := hf.decode []
        simp only [List.append_nil] at h1 this
        rw [h1] at this; exact this
      · left
        refine ⟨hf.prefix_decode ha h1.symm, Or.inr ?_⟩
        intro hfut
        rw [hfut] at h2
        have := congrArg List.length h2
        rw [List.length_append, List.length_nil] at this
        exact ha (List.length_eq_zero_iff.mp (by omega))
    · right
      exact ⟨f, fs', c', rfl, by rw [h1]; exact hf.decode c', h2.symm⟩

theorem bytesOf_append (a b : List Read) : bytesOf (a ++ b) = bytesOf a ++ bytesOf b := by
  induction a with
  | nil => simp [bytesOf]
  | cons r a ih => cases r <;> simp [bytesOf, ih]

/-- Framing state while reading. -/
structure Live (st : Framed) : Prop where
  eof : st.eof = false
  errored : st.errored = false
  unreadable : st.readable = false → Codec.decode st.buf = .ok none

theorem attempt_live {st : Framed} (h : Live st) :
    (Codec.decode st.buf = .ok none → attempt st = none) ∧
    (∀ m rest, Codec.decode st.buf = .ok (some (m, rest)) → attempt st = some (.item m, { st with buf := rest })) := by
  have he := h.errored
  have hf := h.eof
  constructor
  · intro hd
    unfold attempt
    rw [he, hf, hd]
    simp
  · intro m rest hd
    have hr : st.readable = true := by
      cases hr : st.readable with
      | true => rfl
      | false => have := h.unreadable hr; rw [hd] at this; simp at this
    unfold attempt
    rw [he, hf, hr, hd]
    simp

/-- One poll while no end of file is among the available reads. -/
theorem poll_data (fs : List (MessageCommand × Bytes)) (hfs : ∀ f ∈ fs, IsFrame f) (part : Bytes) (hp : IsPartial part)
    (reads : List Read) (hd : ∀ r ∈ reads, IsData r) (st : Framed) (hl : Live st) (fut : Bytes)
    (h : st.buf ++ bytesOf reads ++ fut = stream fs ++ part) :
    (∃ st', pollNext st reads = (.pending, st', []) ∧ Live st' ∧ st'.readable = false ∧ st'.buf = st.buf ++ bytesOf reads ∧
      (fs = [] ∨ fut ≠ [])) ∨
    (∃ f fs' st' reads', fs = f :: fs' ∧ pollNext st reads = (.item f.1, st', reads') ∧ Live st' ∧ st'.readable = true ∧
      (∀ r ∈ reads', IsData r) ∧ st'.buf ++ bytesOf reads' ++ fut = stream fs' ++ part) := by
  induction reads generalizing st with
  | nil =>
    have h' : st.buf ++ fut = stream fs ++ part := by simpa [bytesOf] using h
    rcases decode_stream fs hfs part hp st.buf fut h' with ⟨hn, hor⟩ | ⟨f, fs', rest, rfl, hs, hrest⟩
    · left
      refine ⟨{ st with readable := false }, ?_, ⟨hl.eof, hl.errored, fun _ => hn⟩, rfl, by simp [bytesOf], hor⟩
      simp [pollNext, (attempt_live hl).1 hn]
    · right
      refine ⟨f, fs', { st with buf := rest }, [], rfl, ?_, ⟨hl.eof, hl.errored, ?_⟩, ?_, by simp, ?_⟩
      · simp [pollNext, (attempt_live hl).2 _ _ hs]
      · intro hr; have := hl.unreadable hr; rw [hs] at this; simp at this
      · cases hr : st.readable with
        | true => rfl
        | false => have := hl.unreadable hr; rw [hs] at this; simp at this
      · simpa [bytesOf] using hrest
  | cons r reads ih =>
    have hr := hd r (by simp)
    cases r with
    | eof => simp [IsData] at hr
    | ioErr => simp [IsData] at hr
    | data b =>
      have h' : st.buf ++ (bytesOf (.data b :: reads) ++ fut) = stream fs ++ part := by rw [← h]; simp
      rcases decode_stream fs hfs part hp st.buf _ h' with ⟨hn, -⟩ | ⟨f, fs', rest, rfl, hs, hrest⟩
      · have hstep : pollNext st (.data b :: reads) =
            pollNext { st with buf := st.buf ++ b, eof := false, readable := true } reads := by
          rw [pollNext, (attempt_live hl).1 hn]
        rw [hstep]
        have hl' : Live { st with buf := st.buf ++ b, eof := false, readable := true } :=
          ⟨rfl, hl.errored, by simp⟩
        have := ih (fun r hr => hd r (List.mem_cons_of_mem _ hr)) _ hl' (by
          simpa [bytesOf] using h)
        simpa [bytesOf] using this
      · right
        refine ⟨f, fs', { st with buf := rest }, .data b :: reads, rfl, ?_, ⟨hl.eof, hl.errored, ?_⟩, ?_, hd, ?_⟩
        · rw [pollNext, (attempt_live hl).2 _ _ hs]
        · intro hr; have := hl.unreadable hr; rw [hs] at this; simp at this
        · cases hr : st.readable with
          | true => rfl
          | false => have := hl.unreadable hr; rw [hs] at this; simp at this
        · simpa using hrest

/-- One poll when the available reads end in end of file. -/
theorem poll_eof (fs : List (MessageCommand × Bytes)) (hfs : ∀ f ∈ fs, IsFrame f) (part : Bytes) (hp : IsPartial part)
    (reads : List Read) (hd : ∀ r ∈ reads, IsData r) (st : Framed) (hl : Live st)
    (h : st.buf ++ bytesOf reads = stream fs ++ part) :
    (∃ f fs' st' reads', fs = f :: fs' ∧ pollNext st (reads ++ [.eof]) = (.item f.1, st', reads' ++ [.eof]) ∧ Live st' ∧
      (∀ r ∈ reads', IsData r) ∧ st'.buf ++ bytesOf reads' = stream fs' ++ part) ∨
    (pollNext st (reads ++ [.eof]) =
      pollNext { st with buf := stream fs ++ part, eof := true, readable := true } [] ∧
      Codec.decode (stream fs ++ part) = .ok none ∧ fs = []) := by
  induction reads generalizing st with
  | nil =>
    have h' : st.buf ++ [] = stream fs ++ part := by simpa [bytesOf] using h
    rcases decode_stream fs hfs part hp st.buf [] h' with ⟨hn, hor⟩ | ⟨f, fs', rest, rfl, hs, hrest⟩
    · right
      have hfs0 : fs = [] := by rcases hor with h | h; exact h; simp at h
      have hb : st.buf = stream fs ++ part := by simpa using h'
      refine ⟨?_, hb ▸ hn, hfs0⟩
      rw [List.nil_append, ← hb]
      conv => lhs; rw [pollNext, (attempt_live hl).1 hn]
      simp [hl.eof]
    · left
      refine ⟨f, fs', { st with buf := rest }, [], rfl, ?_, ⟨hl.eof, hl.errored, ?_⟩, by simp, by
        simpa [bytesOf] using hrest⟩
      · rw [List.nil_append, pollNext, (attempt_live hl).2 _ _ hs]
      · intro hr; have := hl.unreadable hr; rw [hs] at this; simp at this
  | cons r reads ih =>
    have hr := hd r (by simp)
    cases r with
    | eof => simp [IsData] at hr
    | ioErr => simp [IsData] at hr
    | data b =>
      rcases decode_stream fs hfs part hp st.buf _ h with ⟨hn, -⟩ | ⟨f, fs', rest, rfl, hs, hrest⟩
      · have hstep : pollNext st (.data b :: (reads ++ [.eof])) =
            pollNext { st with buf := st.buf ++ b, eof := false, readable := true } (reads ++ [.eof]) := by
          rw [pollNext, (attempt_live hl).1 hn]
        rw [List.cons_append, hstep]
        have hl' : Live { st with buf := st.buf ++ b, eof := false, readable := true } :=
          ⟨rfl, hl.errored, by simp⟩
        have := ih (fun r hr => hd r (List.mem_cons_of_mem _ hr)) _ hl' (by
          simpa [bytesOf] using h)
        simpa using this
      · left
        refine ⟨f, fs', { st with buf := rest }, .data b :: reads, rfl, ?_, ⟨hl.eof, hl.errored, ?_⟩, hd, ?_⟩
        · rw [List.cons_append, pollNext, (attempt_live hl).2 _ _ hs]
        · intro hr; have := hl.unreadable hr; rw [hs] at this; simp at this
        · simpa using hrest

/-- Invariant of the read side; `fut` are the reads that have not arrived yet. -/
inductive Inv (all : List (MessageCommand × Bytes)) (part : Bytes) (closed : Bool) (fut : List Read) (s : ReadSide) :
    Prop
  | live (done rem : List (MessageCommand × Bytes)) (datas : List Read)
      (hall : all = done ++ rem) (hout : s.out = done.map fun f => Poll.item f.1) (hstop : s.stopped = false)
      (hlive : Live s.framed) (hd : ∀ r ∈ datas, IsData r)
      (hsock : s.socket ++ fut = datas ++ (if closed then [.eof] else []))
      (hbytes : s.framed.buf ++ bytesOf datas = stream rem ++ part)
  | failed (hclosed : closed = true) (hpart : part ≠ []) (hout : s.out = all.map (fun f => Poll.item f.1) ++ [.failed])
      (hstop : s.stopped = false) (herr : s.framed.errored = true) (hsock : s.socket ++ fut = [])
  | stopped (hclosed : closed = true) (hout : s.out = expected (all.map (·.1)) part closed) (hstop : s.stopped = true)
      (hsock : s.socket ++ fut = [])

theorem inv_arrive {all : List (MessageCommand × Bytes)} {part : Bytes} {closed : Bool} {fut : List Read} {s : ReadSide} {r : Read}
    (h : Inv all part closed (r :: fut) s) : Inv all part closed fut (s.step (.arrive r)) := by
  cases h with
  | live done rem datas hall hout hstop hlive hd hsock hbytes =>
    exact .live done rem datas hall hout hstop hlive hd (by simpa [ReadSide.step] using hsock) hbytes
  | failed _ _ _ _ _ hsock => simp at hsock
  | stopped _ _ _ hsock => simp at hsock

/-- A poll either makes progress or finds nothing to read. -/
theorem inv_poll {all : List (MessageCommand × Bytes)} (hf : ∀ f ∈ all, IsFrame f) {part : Bytes} (hp : IsPartial part)
    {closed : Bool} {fut : List Read} {s : ReadSide} (h : Inv all part closed fut s) :
    Inv all part closed fut (s.step .poll) ∧
      ((s.step .poll).out.length = s.out.length + 1 ∨ s.stopped = true ∨
        fut ≠ [] ∨ (closed = false ∧ s.out = all.map fun f => Poll.item f.1)) := by
  cases h with
  | stopped hclosed hout hstop hsock =>
    have : s.step .poll = s := by simp [ReadSide.step, hstop]
    rw [this]
    exact ⟨.stopped hclosed hout hstop hsock, Or.inr (Or.inl hstop)⟩
  | failed hclosed hpart hout hstop herr hsock =>
    have hs : s.socket = [] := by
      have := congrArg List.length hsock
      rw [List.length_append, List.length_nil] at this
      exact List.length_eq_zero_iff.mp (by omega)
    have hfut : fut = [] := by simpa [hs] using hsock
    have hpoll : pollNext s.framed s.socket = (.ended, { s.framed with readable := false, errored := false }, []) := by
      rw [hs, pollNext]; simp [attempt, herr]
    have hstep : s.step .poll =
        ⟨{ s.framed with readable := false, errored := false }, [], s.out ++ [.ended], true⟩ := by
      simp only [ReadSide.step, hstop, hpoll, Bool.false_eq_true, if_false]
    rw [hstep]
    refine ⟨.stopped hclosed ?_ rfl (by simp [hfut]), Or.inl (by simp)⟩
    have hpe : part.isEmpty = false := by cases part <;> simp at hpart ⊢
    simp [expected, hclosed, hpe, hout]
  | live done rem datas hall hout hstop hlive hd hsock hbytes =>
    have hrem : ∀ f ∈ rem, IsFrame f := fun f hf' => hf f (by rw [hall]; exact List.mem_append_right _ hf')
    -- is the end of file already available?
    by_cases hend : closed = true ∧ fut = []
    · obtain ⟨hclosed, hfut⟩ := hend
      have hsock' : s.socket = datas ++ [.eof] := by simpa [hclosed, hfut] using hsock
      rcases poll_eof rem hrem part hp datas hd s.framed hlive hbytes with
        ⟨f, fs', st', reads', hcons, hpoll, hl', hd', hb'⟩ | ⟨hpoll, hdec, hnil⟩
      · rw [← hsock'] at hpoll
        have hstep : s.step .poll = { s with framed := st', socket := reads' ++ [.eof], out := s.out ++ [.item f.1] } := by
          simp only [ReadSide.step, hstop, hpoll, Bool.false_eq_true, if_false]
        rw [hstep]
        refine ⟨.live (done ++ [f]) fs' reads' (by rw [hall, hcons]; simp) (by simp [hout]) (by simp [hstop]) hl' hd' (by simp [hclosed, hfut]) hb',
          Or.inl (by simp)⟩
      · rw [← hsock'] at hpoll
        subst hnil
        have hall' : all = done := by simpa using hall
        have hst : stream [] ++ part = part := by simp [stream]
        rw [hst] at hpoll hdec
        by_cases hpe : part = []
        · have hpoll2 : pollNext s.framed s.socket =
              (.ended, { s.framed with buf := part, eof := true, readable := false }, []) := by
            rw [hpoll, pollNext]
            simp [attempt, hlive.errored, decodeEof, hpe]
            simp [hpe] at hdec
            simp [hdec]
          have hstep : s.step .poll =
              ⟨{ s.framed with buf := part, eof := true, readable := false }, [], s.out ++ [.ended], true⟩ := by
            simp only [ReadSide.step, hstop, hpoll2, Bool.false_eq_true, if_false]
          rw [hstep]
          exact ⟨.stopped hclosed (by simp [expected, hclosed, hpe, hout, hall']) rfl (by simp [hfut]),
            Or.inl (by simp)⟩
        · have hpe' : part.isEmpty = false := by cases part <;> simp at hpe ⊢
          have hpoll2 : pollNext s.framed s.socket =
              (.failed, { s.framed with buf := part, eof := true, readable := true, errored := true }, []) := by
            rw [hpoll, pollNext]
            simp [attempt, hlive.errored, decodeEof, hdec, hpe']
          have hstep : s.step .poll =
              ⟨{ s.framed with buf := part, eof := true, readable := true, errored := true }, [], s.out ++ [.failed],
                s.stopped⟩ := by
            simp only [ReadSide.step, hstop, hpoll2, Bool.false_eq_true, if_false]
          rw [hstep]
          exact ⟨.failed hclosed hpe (by simp [hout, hall']) (by simp [hstop]) rfl (by simp [hfut]), Or.inl (by simp)⟩
    · -- only data is available now
      have hsplit : ∃ d2, datas = s.socket ++ d2 ∧ fut = d2 ++ (if closed then [.eof] else []) := by
        rcases List.append_eq_append_iff.mp hsock with ⟨a', h1, h2⟩ | ⟨c', h1, h2⟩
        · exact ⟨a', h1, h2⟩
        · cases closed with
          | false =>
            have h2' : c' = [] ∧ fut = [] := by simpa using h2.symm
            exact ⟨[], by rw [h1, h2'.1]; simp, by simp [h2'.2]⟩
          | true =>
            have hfut : fut ≠ [] := fun h => hend ⟨rfl, h⟩
            have h2' : [Read.eof] = c' ++ fut := by simpa using h2
            cases c' with
            | nil => exact ⟨[], by rw [h1]; simp, by simpa using h2'.symm⟩
            | cons x c' =>
              have := congrArg List.length h2'
              simp at this
              exact absurd this.2 hfut
      obtain ⟨d2, hd2, hfut⟩ := hsplit
      have hb2 : s.framed.buf ++ bytesOf s.socket ++ bytesOf d2 = stream rem ++ part := by
        rw [← hbytes, hd2, bytesOf_append, List.append_assoc]
      rcases poll_data rem hrem part hp s.socket (fun r hr => hd r (by rw [hd2]; exact List.mem_append_left _ hr))
        s.framed hlive (bytesOf d2) hb2 with ⟨st', hpoll, hl', -, hbuf, hor⟩ | ⟨f, fs', st', reads', hcons, hpoll, hl', -, hd', hb'⟩
      · have hstep : s.step .poll = { s with framed := st', socket := [] } := by
          simp only [ReadSide.step, hstop, hpoll, Bool.false_eq_true, if_false]
        rw [hstep]
        refine ⟨.live done rem d2 hall hout hstop hl' (fun r hr => hd r (by rw [hd2]; exact List.mem_append_right _ hr))
          (by simpa using hfut) (by rw [hbuf, ← hb2]), ?_⟩
        right; right
        rcases hor with hor | hor
        · cases closed with
          | true => left; simp at hend; exact hend
          | false => right; exact ⟨rfl, by rw [hout, hall, hor]; simp⟩
        · left; rw [hfut]; intro h
          have : d2 = [] := by
            have := congrArg List.length h
            rw [List.length_append, List.length_nil] at this
            exact List.length_eq_zero_iff.mp (by omega)
          exact hor (by rw [this]; rfl)
      · have hstep : s.step .poll = { s with framed := st', socket := reads', out := s.out ++ [.item f.1] } := by
          simp only [ReadSide.step, hstop, hpoll, Bool.false_eq_true, if_false]
        rw [hstep]
        refine ⟨.live (done ++ [f]) fs' (reads' ++ d2) (by rw [hall, hcons]; simp) (by simp [hout]) (by simp [hstop]) hl' ?_ (by simp [hfut])
          (by rw [bytesOf_append, ← List.append_assoc]; exact hb'), Or.inl (by simp)⟩
        intro r hr
        rcases List.mem_append.mp hr with h | h
        · exact hd' r h
        · exact hd r (by rw [hd2]; exact List.mem_append_right _ h)

theorem inv_run {all : List (MessageCommand × Bytes)} (hf : ∀ f ∈ all, IsFrame f) {part : Bytes} (hp : IsPartial part)
    {closed : Bool} (evs : List Ev) (fut : List Read) (s : ReadSide) (h : Inv all part closed (arrivals evs ++ fut) s) :
    Inv all part closed fut (evs.foldl ReadSide.step s) := by
  induction evs generalizing s with
  | nil => exact h
  | cons e evs ih =>
    cases e with
    | arrive r => exact ih _ (inv_arrive h)
    | poll => exact ih _ (inv_poll hf hp h).1

theorem inv_init {all : List (MessageCommand × Bytes)} {part : Bytes} (closed : Bool) (datas : List Read)
    (hd : ∀ r ∈ datas, IsData r) (hb : bytesOf datas = stream all ++ part) :
    Inv all part closed (datas ++ (if closed then [.eof] else [])) {} :=
  .live [] all datas rfl rfl rfl ⟨rfl, rfl, fun _ => rfl⟩ hd rfl (by simpa using hb)

/-- Whatever has been produced is a prefix of what is expected. -/
theorem inv_prefix {all : List (MessageCommand × Bytes)} {part : Bytes} {closed : Bool} {fut : List Read} {s : ReadSide}
    (h : Inv all part closed fut s) : s.out <+: expected (all.map (·.1)) part closed := by
  cases h with
  | live done rem datas hall hout =>
    rw [hout, hall, expected]
    refine ⟨rem.map (fun f => Poll.item f.1) ++
      (if closed then (if part.isEmpty then [.ended] else [.failed, .ended]) else []), ?_⟩
    simp [Function.comp_def]
  | failed hclosed hpart hout =>
    rw [hout, expected]
    have hpe' : part.isEmpty = false := by cases part <;> simp at hpart ⊢
    simp [hclosed, hpe', Function.comp_def]
  | stopped _ hout => rw [hout]; exact List.prefix_rfl

/-- With everything arrived, enough polls produce everything. -/
theorem inv_complete {all : List (MessageCommand × Bytes)} (hf : ∀ f ∈ all, IsFrame f) {part : Bytes} (hp : IsPartial part)
    {closed : Bool} (n : Nat) (s : ReadSide) (h : Inv all part closed [] s)
    (hn : (expected (all.map (·.1)) part closed).length ≤ s.out.length + n) :
    ((List.replicate n Ev.poll).foldl ReadSide.step s).out = expected (all.map (·.1)) part closed := by
  induction n generalizing s with
  | zero => exact (inv_prefix h).eq_of_length_le (by simpa using hn)
  | succ n ih =>
    simp only [List.replicate_succ, List.foldl_cons]
    obtain ⟨hinv, hprog⟩ := inv_poll hf hp h
    apply ih _ hinv
    rcases hprog with hlen | hstop | hfut | ⟨hc, hout⟩
    · omega
    · have : s.step .poll = s := by simp [ReadSide.step, hstop]
      rw [this]
      cases h with
      | stopped _ hout => rw [hout]; omega
      | live _ _ _ _ _ hs => rw [hs] at hstop; simp at hstop
      | failed _ _ _ hs => rw [hs] at hstop; simp at hstop
    · simp at hfut
    · have hle := (inv_prefix hinv).length_le
      have : (expected (all.map (·.1)) part closed).length = s.out.length := by
        rw [hout, hc]; simp [expected]
      have hge : s.out.length ≤ (s.step .poll).out.length := by
        unfold ReadSide.step
        split <;> rename_i h1
        · simp at h1
        · split
          · omega
          · simp only
            split <;> simp
      omega

end Neutron.Framed
