import Verif.Model.Pkt
/-!
# Model of `elkm1/src/tokio.rs` (framed connection)

`Connection` wraps `tokio_util::codec::Framed<TcpStream, Codec>` (tokio-util 0.7.18, Cargo.lock).
The relevant parts of `Framed` (`framed_impl.rs`, `decoder.rs`) are modelled from its source, which
is not in /repo, and are part of the trusted base; so are the socket and the runtime.

The socket is a pair of queues of answers that the environment extends at will: what the next reads
return, and what the next writes accept.  With no answer queued an operation is `Pending`.
-/

namespace Elk

/-- `std::task::Poll`. -/
inductive Poll (α : Type) where
  | pending
  | ready (a : α)
  deriving DecidableEq, Repr

/-- `std::io::Error`, by origin. -/
inductive IoErr where
  /-- reported by the socket -/
  | socket (code : Nat)
  /-- `decode_eof`: "bytes remaining on stream" -/
  | bytesRemaining
  /-- `Framed::poll_flush`: `WriteZero` -/
  | writeZero
  /-- state.rs:174-177 -/
  | unexpectedEof
  deriving DecidableEq, Repr

/-- Identity of a task, for wakers. -/
abbrev Waker := Nat

/-- `std::task::Context` of a poll, with the clocks at that moment (milliseconds): `now` is
`Instant::now()`, `timer` the time up to which the runtime has fired timers. -/
structure Cx where
  waker : Waker
  now : Nat
  timer : Nat
  deriving DecidableEq, Repr

/-- The answer to one read of the socket. -/
inductive ReadItem where
  /-- some bytes (none at all is taken for end of stream, as with `AsyncRead`) -/
  | data (b : Bytes)
  /-- `Pending` although more answers may already be queued -/
  | blocked
  | error (code : Nat)
  /-- end of stream, for ever -/
  | eof
  deriving DecidableEq, Repr

/-- The answer to one write to the socket. -/
inductive WriteItem where
  /-- accepts up to `n` bytes -/
  | accept (n : Nat)
  | blocked
  | error (code : Nat)
  deriving DecidableEq, Repr

/-- `TcpStream`.  `received` and `sent` are the bytes read and accepted so far, `shutdown` whether
the write side has been shut down; the wakers are those registered with the two directions (the
last one to get `Pending`). -/
structure Socket where
  incoming : List ReadItem := []
  writes : List WriteItem := []
  received : Bytes := []
  sent : Bytes := []
  shutdown : Bool := false
  readWaker : Option Waker := none
  writeWaker : Option Waker := none
  deriving DecidableEq, Repr

/-- tokio-util `ReadFrame`. -/
structure ReadFrame where
  eof : Bool := false
  isReadable : Bool := false
  buffer : Bytes := []
  hasErrored : Bool := false
  deriving DecidableEq, Repr

/-- tokio.rs:24 `Connection`: the socket, the read state and the write buffer. -/
structure Connection where
  sock : Socket := {}
  rd : ReadFrame := {}
  wbuf : Bytes := []
  deriving DecidableEq, Repr

/-- What `Stream::poll_next` of a connection yields when ready. -/
abbrev Item := Option (Except IoErr Packet)

/-- tokio.rs:93-95 `Codec::decode`. -/
def Codec.decode (src : Bytes) : P (Option Packet × Bytes) := Packet.decode src

/-- tokio.rs:102-105 `Codec::encode`: the buffer with the encoding appended. -/
def Codec.encode (item : Packet) (dst : Bytes) : P Bytes := do
  let e ← item.encode
  .ok (dst ++ e)

/-- tokio-util `FramedImpl::poll_next`, the state "pausing", with the default
`Decoder::decode_eof`. -/
def ReadFrame.pausing (f : ReadFrame) : P (Item × ReadFrame) := do
  let (r, buf) ← Codec.decode f.buffer
  match r with
  | some p => .ok (some (.ok p), { f with buffer := buf })
  | none =>
    if buf = [] then .ok (none, { f with buffer := buf, isReadable := false })
    else .ok (some (.error .bytesRemaining), { f with buffer := buf, hasErrored := true })

/-- tokio-util `FramedImpl::poll_next`, one pass of the loop up to the read: `some` is the value to
return. -/
def ReadFrame.attempt (f : ReadFrame) : P (Option Item × ReadFrame) :=
  if f.hasErrored then .ok (some none, { f with isReadable := false, hasErrored := false })
  else if f.isReadable then
    if f.eof then do
      let (r, f) ← f.pausing
      .ok (some r, f)
    else do
      let (r, buf) ← Codec.decode f.buffer
      match r with
      | some p => .ok (some (some (.ok p)), { f with buffer := buf })
      | none => .ok (none, { f with buffer := buf, isReadable := false })
  else .ok (none, f)

/-- What the read loop returns: the result, the read state, the remaining answers of the socket and
the bytes received. -/
structure ReadOut where
  res : Poll Item
  rd : ReadFrame
  incoming : List ReadItem
  got : Bytes

/-- tokio-util `FramedImpl::poll_next`, after a read of zero bytes. -/
def ReadFrame.atEof (f : ReadFrame) (q : List ReadItem) (got : Bytes) : P ReadOut :=
  if f.eof then .ok ⟨.ready none, f, q, got⟩
  else do
    let (r, f) ← { f with eof := true, isReadable := true }.pausing
    .ok ⟨.ready r, f, q, got⟩

/-- tokio-util `FramedImpl::poll_next`: the loop. -/
def ReadFrame.loop (q : List ReadItem) (got : Bytes) (f : ReadFrame) : P ReadOut :=
  match f.attempt with
  | .error e => .error e
  | .ok (some r, f) => .ok ⟨.ready r, f, q, got⟩
  | .ok (none, f) =>
    match q with
    | [] => .ok ⟨.pending, f, [], got⟩
    | .blocked :: q => .ok ⟨.pending, f, q, got⟩
    | .error c :: q =>
      .ok ⟨.ready (some (.error (.socket c))), { f with hasErrored := true }, q, got⟩
    | .eof :: q => f.atEof (.eof :: q) got
    | .data b :: q =>
      if b.length = 0 then f.atEof q got
      else ReadFrame.loop q (got ++ b)
        { f with buffer := f.buffer ++ b, eof := false, isReadable := true }

/-- tokio.rs:38-47 `<Connection as Stream>::poll_next`. -/
def Connection.pollNext (c : Connection) (cx : Cx) : P (Poll Item × Connection) := do
  let o ← c.rd.loop c.sock.incoming []
  let waker := match o.res with
    | .pending => some cx.waker
    | .ready _ => c.sock.readWaker
  .ok (o.res, { c with
    rd := o.rd
    sock := { c.sock with
      incoming := o.incoming, received := c.sock.received ++ o.got, readWaker := waker } })

/-- What the flush loop returns: the result, and the write buffer, remaining answers of the socket
and sent bytes after it. -/
structure FlushOut where
  res : Poll (Except IoErr Unit)
  wbuf : Bytes
  writes : List WriteItem
  sent : Bytes

/-- tokio-util `FramedImpl::poll_flush`: the loop (then `TcpStream::poll_flush`, which does
nothing). -/
def flushLoop : List WriteItem → Bytes → Bytes → FlushOut
  | q, buf, sent =>
    if buf.length = 0 then ⟨.ready (.ok ()), buf, q, sent⟩
    else
      match q with
      | [] => ⟨.pending, buf, [], sent⟩
      | .blocked :: q => ⟨.pending, buf, q, sent⟩
      | .error c :: q => ⟨.ready (.error (.socket c)), buf, q, sent⟩
      | .accept n :: q =>
        if min n buf.length = 0 then ⟨.ready (.error .writeZero), buf, q, sent⟩
        else flushLoop q (buf.drop (min n buf.length)) (sent ++ buf.take (min n buf.length))

/-- tokio.rs:70-75 `<Connection as Sink>::poll_flush`. -/
def Connection.pollFlush (c : Connection) (cx : Cx) : Poll (Except IoErr Unit) × Connection :=
  let o := flushLoop c.sock.writes c.wbuf c.sock.sent
  let waker := match o.res with
    | .pending => some cx.waker
    | .ready _ => c.sock.writeWaker
  (o.res, { c with
    wbuf := o.wbuf
    sock := { c.sock with writes := o.writes, sent := o.sent, writeWaker := waker } })

/-- tokio.rs:54-59 `<Connection as Sink>::poll_ready`; tokio-util's `BACKPRESSURE_BOUNDARY` is the
initial capacity 8192. -/
def Connection.pollReady (c : Connection) (cx : Cx) : Poll (Except IoErr Unit) × Connection :=
  if c.wbuf.length ≥ 8192 then c.pollFlush cx else (.ready (.ok ()), c)

/-- tokio.rs:61-67 `<Connection as Sink>::start_send`. -/
def Connection.startSend (c : Connection) (item : Packet) : P Connection := do
  let wbuf ← Codec.encode item c.wbuf
  .ok { c with wbuf }

/-- tokio.rs:77-83 `<Connection as Sink>::poll_close`. -/
def Connection.pollClose (c : Connection) (cx : Cx) : Poll (Except IoErr Unit) × Connection :=
  c.pollFlush cx

/-- The environment queues an answer for a read, waking the registered task (the second
component). -/
def Connection.arrive (c : Connection) (r : ReadItem) : List Waker × Connection :=
  (c.sock.readWaker.toList,
   { c with sock := { c.sock with incoming := c.sock.incoming ++ [r], readWaker := none } })

/-- The environment queues an answer for a write, waking the registered task. -/
def Connection.writable (c : Connection) (w : WriteItem) : List Waker × Connection :=
  (c.sock.writeWaker.toList,
   { c with sock := { c.sock with writes := c.sock.writes ++ [w], writeWaker := none } })

end Elk
