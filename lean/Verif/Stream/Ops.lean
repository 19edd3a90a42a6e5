/-!
# Operations on a stream (model, C45, C80)

Model of the operations of `src/core/nc_stream.c` on a stream of a client (`isVirtual` is false; virtual
streams are in `Verif.Stream.Virtual`). The stream module (`nabto_stream`, in the submodule nabto-common
which is not part of the repository) is the environment: its answers to `nabto_stream_read_buffer`,
`nabto_stream_write_buffer` and `nabto_stream_close` are inputs of the operations, and its application
events are operations of their own. The module never reads more bytes than it was asked for and never claims
to have taken more bytes than it was given.

An operation is named by the completion event it was given (type `E`). Buffers are lists of bytes: the
model keeps the bytes placed in the read buffer so far and the part of the write buffer which has not been
taken yet.
-/

namespace Verif.Stream

/-- The error codes of the operations. -/
inductive Ec where
  | ok | stopped | inProgress | closed | eof | aborted | unknown
deriving DecidableEq, Repr

/-- `nabto_stream_status`; `other` stands for the values `nc_stream_status_to_ec` does not know. -/
inductive Status where
  | ok | closed | eof | aborted | other
deriving DecidableEq, Repr

/-- `nc_stream_status_to_ec` (nc_stream.c:36-45). -/
def Status.toEc : Status → Ec
  | .ok => .ok
  | .closed => .closed
  | .eof => .eof
  | .aborted => .aborted
  | .other => .unknown

/-- The answer of `nabto_stream_read_buffer`: the status and the bytes the module has. -/
structure Rd where
  status : Status
  bytes : List UInt8
deriving DecidableEq, Repr

/-- The answer of `nabto_stream_write_buffer`: the status and the number of bytes there is room for. -/
structure Wr where
  status : Status
  room : Nat
deriving DecidableEq, Repr

/-- The user facing part of `struct nc_stream_context` (nc_stream.h:46-81). `readLeft` is
`readBufferLength`, `got` are the bytes which have been placed in the buffer of the current read
(`*readLength` is their number), `writeLeft` are the bytes from `writeBuffer` on. `conn` says that the stream
has a connection. -/
structure St (E : Type) where
  stopped : Bool
  closed : Bool
  conn : Bool
  acceptEv : Option E
  readAllEv : Option E
  readSomeEv : Option E
  readLeft : Nat
  got : List UInt8
  writeEv : Option E
  writeLeft : List UInt8
  closeEv : Option E
deriving DecidableEq, Repr

/-- `nc_stream_init` (nc_stream.c:53-97); the context was allocated with `np_calloc`. -/
def St.init {E : Type} : St E :=
  { stopped := false, closed := false, conn := true, acceptEv := none, readAllEv := none,
    readSomeEv := none, readLeft := 0, got := [], writeEv := none, writeLeft := [], closeEv := none }

/-- What happens outside the stream: an operation is completed (with the bytes in its buffer if it is a
read), bytes are taken from the module for a read, bytes are given to the module for a write, the module is
told to accept or to close, a RST packet is sent. -/
inductive Out (E : Type) where
  | done (e : E) (ec : Ec) (got : List UInt8)
  | take (e : E) (bytes : List UInt8)
  | put (e : E) (bytes : List UInt8)
  | accept
  | close
  | rst
deriving DecidableEq, Repr

variable {E : Type}

/-- The operations of the application and the events of the stream module. -/
inductive Op (E : Type) where
  | accept (e : E)
  | readAll (e : E) (n : Nat) (r : Rd)
  | readSome (e : E) (n : Nat) (r : Rd)
  | write (e : E) (data : List UInt8) (w : Wr)
  | close (e : E) (st : Status)
  | opened
  | dataReady (r : Rd)
  | dataWrite (w : Wr)
  | readClosed (r : Rd)
  | writeClosed
  | streamClosed (w : Wr) (r : Rd) (st : Status)
  | stop (rst : Bool)
  | connClosed
deriving DecidableEq, Repr

/-- `nc_stream_resolve_read` (nc_stream.c:497-513). -/
def resolveRead (s : St E) (ec : Ec) : St E × List (Out E) :=
  match s.readAllEv with
  | some e => ({ s with readAllEv := none, readLeft := 0, got := [] }, [.done e ec s.got])
  | none =>
    match s.readSomeEv with
    | some e => ({ s with readSomeEv := none, readLeft := 0, got := [] }, [.done e ec s.got])
    | none => ({ s with readLeft := 0, got := [] }, [])

/-- The bytes which have been read are noted in the buffer (nc_stream.c:528-530). -/
def note (s : St E) (b : List UInt8) : St E :=
  { s with got := s.got ++ b, readLeft := s.readLeft - b.length }

/-- `nc_stream_do_read` (nc_stream.c:515-548), for a stream which is not virtual. -/
def doRead (s : St E) (r : Rd) : St E × List (Out E) :=
  match s.readAllEv with
  | some e =>
    if r.status = .ok then
      let b := r.bytes.take s.readLeft
      if b = [] then (s, [])
      else if (note s b).readLeft = 0 then
        let (s', os) := resolveRead (note s b) .ok
        (s', .take e b :: os)
      else (note s b, [.take e b])
    else resolveRead s r.status.toEc
  | none =>
    match s.readSomeEv with
    | some e =>
      if r.status = .ok then
        let b := r.bytes.take s.readLeft
        if b = [] then (s, [])
        else
          let (s', os) := resolveRead (note s b) .ok
          (s', .take e b :: os)
      else resolveRead s r.status.toEc
    | none => (s, [])

/-- `nc_stream_do_write_all` (nc_stream.c:549-571); only called with a write event. -/
def doWriteAll (s : St E) (w : Wr) : St E × List (Out E) :=
  match s.writeEv with
  | none => (s, [])
  | some e =>
    if w.status = .ok then
      let b := s.writeLeft.take w.room
      if b = [] then (s, [])
      else if b.length = s.writeLeft.length then
        ({ s with writeEv := none }, [.put e b, .done e .ok []])
      else ({ s with writeLeft := s.writeLeft.drop b.length }, [.put e b])
    else ({ s with writeEv := none }, [.done e w.status.toEc []])

/-- Complete an operation which does not read, if there is one. -/
def finish (ev : Option E) (ec : Ec) : List (Out E) :=
  match ev with
  | some e => [.done e ec []]
  | none => []

/-- `nc_stream_async_accept` (nc_stream.c:364-384). -/
def asyncAccept (s : St E) (e : E) : St E × List (Out E) :=
  if s.stopped then (s, [.done e .stopped []])
  else if s.acceptEv.isSome then (s, [.done e .inProgress []])
  else ({ s with acceptEv := some e }, [.accept])

/-- `nc_stream_async_read_all` (nc_stream.c:386-411). -/
def asyncReadAll (s : St E) (e : E) (n : Nat) (r : Rd) : St E × List (Out E) :=
  if s.stopped then (s, [.done e .stopped []])
  else if s.readAllEv.isSome || s.readSomeEv.isSome then (s, [.done e .inProgress []])
  else doRead { s with readAllEv := some e, readLeft := n, got := [] } r

/-- `nc_stream_async_read_some` (nc_stream.c:413-441). -/
def asyncReadSome (s : St E) (e : E) (n : Nat) (r : Rd) : St E × List (Out E) :=
  if s.stopped then (s, [.done e .stopped []])
  else if s.readAllEv.isSome || s.readSomeEv.isSome then (s, [.done e .inProgress []])
  else doRead { s with readSomeEv := some e, readLeft := n, got := [] } r

/-- `nc_stream_async_write` (nc_stream.c:443-470). -/
def asyncWrite (s : St E) (e : E) (data : List UInt8) (w : Wr) : St E × List (Out E) :=
  if s.stopped then (s, [.done e .stopped []])
  else if s.writeEv.isSome then (s, [.done e .inProgress []])
  else if s.closed then (s, [.done e .closed []])
  else doWriteAll { s with writeEv := some e, writeLeft := data } w

/-- `nc_stream_async_close` (nc_stream.c:472-495) with `nc_stream_handle_close` (nc_stream.c:573-586). -/
def asyncClose (s : St E) (e : E) (st : Status) : St E × List (Out E) :=
  if s.stopped then (s, [.done e .stopped []])
  else if s.closeEv.isSome then (s, [.done e .inProgress []])
  else if st = .ok then ({ s with closed := true, closeEv := some e }, [.close])
  else ({ s with closed := true }, [.close, .done e st.toEc []])

/-- The branch for `CLOSED` of `nc_stream_application_event_callback` (nc_stream.c:615-628). -/
def streamClosed (s : St E) (w : Wr) (r : Rd) (st : Status) : St E × List (Out E) :=
  let (s1, o1) := doWriteAll s w
  let s2 := { s1 with acceptEv := none }
  let (s3, o3) := doRead s2 r
  let o := o1 ++ finish s1.acceptEv .aborted ++ o3
  match s3.closeEv with
  | none => (s3, o)
  | some e =>
    if st = .ok then (s3, o ++ [.close])
    else ({ s3 with closeEv := none }, o ++ [.close, .done e st.toEc []])

/-- `nc_stream_application_event_callback` (nc_stream.c:588-633). It is called by
`nabto_stream_dispatch_event` in `nc_stream_event`, which does nothing when the stream has been stopped
(nc_stream.c:118-123). -/
def event (s : St E) (f : St E → St E × List (Out E)) : St E × List (Out E) :=
  if s.stopped then (s, []) else f s

/-- `nc_stream_stop` (nc_stream.c:635-679); `rst` is the answer of
`nabto_stream_stop_should_send_rst`. -/
def stop (s : St E) (rst : Bool) : St E × List (Out E) :=
  if s.stopped then (s, [])
  else
    ({ s with stopped := true, conn := false, acceptEv := none, readAllEv := none, readSomeEv := none,
              writeEv := none, closeEv := none },
     (if rst && s.conn then [.rst] else []) ++ finish s.acceptEv .aborted ++
     (match s.readAllEv with | some e => [.done e .aborted s.got] | none => []) ++
     (match s.readSomeEv with | some e => [.done e .aborted s.got] | none => []) ++
     finish s.writeEv .aborted ++ finish s.closeEv .aborted)

/-- One step. `connClosed` is `nc_stream_handle_connection_closed` (nc_stream.c:210-224), called by
`nc_stream_manager_remove_connection` (nc_stream_manager.c:346-362); the freeing of a stream which was
never handed to an application is in `Verif.Stream.Manager`. -/
def step (s : St E) : Op E → St E × List (Out E)
  | .accept e => asyncAccept s e
  | .readAll e n r => asyncReadAll s e n r
  | .readSome e n r => asyncReadSome s e n r
  | .write e d w => asyncWrite s e d w
  | .close e st => asyncClose s e st
  | .opened => event s fun s => ({ s with acceptEv := none }, finish s.acceptEv .ok)
  | .dataReady r => event s fun s => doRead s r
  | .dataWrite w => event s fun s => doWriteAll s w
  | .readClosed r => event s fun s => doRead s r
  | .writeClosed => event s fun s => ({ s with closeEv := none }, finish s.closeEv .ok)
  | .streamClosed w r st => event s fun s => streamClosed s w r st
  | .stop rst => stop s rst
  | .connClosed => stop { s with conn := false } false

/-- A history. -/
def run (s : St E) : List (Op E) → St E × List (Out E)
  | [] => (s, [])
  | op :: ops =>
    let (s1, o1) := step s op
    let (s2, o2) := run s1 ops
    (s2, o1 ++ o2)

end Verif.Stream
