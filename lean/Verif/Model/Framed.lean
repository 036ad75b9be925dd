import Verif.Model.Codec

/-!
# Reading frames from a socket

`connection.rs:113,106` wraps the socket in `tokio_util::codec::Framed<_, Codec>`; `ConnectionStream::next`
(`connection.rs:46-71`) polls it.  This models tokio-util's `FramedImpl::poll_next` (a dependency; version 0.7,
`framed_impl.rs`) with the default `Decoder::decode_eof`.
-/

namespace Neutron

/-- What one read of the socket returns. -/
inductive Read where
  | data (b : Bytes)   -- at least one byte
  | eof                -- a read of zero bytes
  | ioErr

/-- `ReadFrame` state of `FramedImpl`. -/
structure Framed where
  buf : Bytes := []
  eof : Bool := false
  readable : Bool := false
  errored : Bool := false

/-- Result of polling `ConnectionStream::next`. -/
inductive Poll where
  | pending
  | item (m : MessageCommand)
  | failed            -- `Some(Err(DecodeFailed))`
  | ended             -- `None`
  | panicked

namespace Framed

/-- The default `decode_eof`: decode; when nothing more decodes, leftover bytes are an error. -/
def decodeEof (st : Framed) : Poll × Framed :=
  match Codec.decode st.buf with
  | .ok (some (m, rest)) => (.item m, { st with buf := rest })
  | .ok none => if st.buf.isEmpty then (.ended, { st with readable := false }) else (.failed, { st with errored := true })
  | .err _ => (.failed, { st with errored := true })
  | .panic => (.panicked, st)

/-- The part of a `poll_next` iteration before it reads: a result, or (`none`) the need to read more. -/
def attempt (st : Framed) : Option (Poll × Framed) :=
  if st.errored then some (.ended, { st with readable := false, errored := false })
  else if st.readable then
    if st.eof then some (decodeEof st)
    else
      match Codec.decode st.buf with
      | .ok (some (m, rest)) => some (.item m, { st with buf := rest })
      | .err _ => some (.failed, { st with errored := true })
      | .panic => some (.panicked, st)
      | .ok none => none
  else none

/-- `FramedImpl::poll_next`: `reads` are the results the socket returns to the successive reads that are possible
without waiting; running out of them is `Pending`.  Returns the poll result, the new state and the reads left.
`connection.rs:46-71` maps any error to `DecodeFailed`. -/
def pollNext (st : Framed) : List Read → Poll × Framed × List Read
  | [] =>
    match attempt st with
    | some (p, st') => (p, st', [])
    | none => (.pending, { st with readable := false }, [])
  | r :: rs =>
    match attempt st with
    | some (p, st') => (p, st', r :: rs)
    | none =>
      match r with
      | .ioErr => (.failed, { st with readable := false, errored := true }, rs)
      | .eof =>
        if st.eof then (.ended, { st with readable := false }, rs)
        else pollNext { st with eof := true, readable := true } rs
      | .data b => pollNext { st with buf := st.buf ++ b, eof := false, readable := true } rs

/-- What can happen to a connection's read side: the socket has more to return, or the connection task polls it. -/
inductive Ev where
  | arrive (r : Read)
  | poll

/-- Read side of a connection: framing state, results the socket will return next, what has been produced so far
(`ended` / `panicked` end the connection task: `connection.rs:150-153,173-176`). -/
structure ReadSide where
  framed : Framed := {}
  socket : List Read := []
  out : List Poll := []
  stopped : Bool := false

/-- One event. -/
def ReadSide.step (s : ReadSide) : Ev → ReadSide
  | .arrive r => { s with socket := s.socket ++ [r] }
  | .poll =>
    if s.stopped then s
    else
      let (p, f, rs) := pollNext s.framed s.socket
      match p with
      | .pending => { s with framed := f, socket := rs }
      | .ended => { framed := f, socket := rs, out := s.out ++ [.ended], stopped := true }
      | .panicked => { framed := f, socket := rs, out := s.out ++ [.panicked], stopped := true }
      | p => { s with framed := f, socket := rs, out := s.out ++ [p] }

/-- A history of events from a fresh connection. -/
def ReadSide.run (evs : List Ev) : ReadSide := evs.foldl ReadSide.step {}

end Framed
end Neutron
