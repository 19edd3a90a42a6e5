/-!
# One connection of a TCP tunnel

Model of `src/modules/tcp_tunnel/nm_tcp_tunnel_connection.c`: a stream of a client and a TCP socket, data is forwarded
between them in both directions.

* The socket is `np_tcp.h` as `nm_select_unix_tcp.c` or `nm_libevent_tcp.c` have it, the stream is `nc_stream.c`
  (`Verif.Stream.Ops`). What the network does is an operation of the environment.
* An operation which completes at once is an operation which completes before anything else happens.
* A completion event (np_completion_event.c:44-48) has the error code and is posted once; its callback runs later
  from the event queue, in any order with the other events. Resolving an event which waits already loses one of the
  two results.
* `bad` is set by the use of something which was freed and by a lost result.
-/

namespace Verif.Tunnel.Conn

/-- Error codes, as far as they are told apart. -/
inductive Ec
  | ok
  | eof
  | aborted
  | stopped
  | other
  deriving DecidableEq, Repr

/-- The size of the two buffers, nm_tcp_tunnel.h:19. -/
def bufferSize : Nat := 8192

/-- `struct nm_tcp_tunnel_connection` (nm_tcp_tunnel.h:21-45) with its socket and stream. -/
structure St where
  /-- a connect is waiting for the network -/
  tConn : Bool
  /-- a read of the socket is waiting -/
  tRead : Bool
  /-- a write to the socket is waiting, with the bytes which are not yet written -/
  tWrite : Option (List UInt8)
  aborted : Bool
  /-- `shutdown` was called: the other end sees the end of the data -/
  fin : Bool
  sRead : Bool
  sWrite : Option (List UInt8)
  sClose : Bool
  stopped : Bool
  /-- `closed` of the stream: the client sees the end of the data -/
  closed : Bool
  /-- completion events whose callbacks will run -/
  eConn : Option Ec
  eTRead : Option Ec
  eTWrite : Option Ec
  eSRead : Option Ec
  eSWrite : Option Ec
  eSClose : Option Ec
  /-- the first `readLength` bytes of `tcpRecvBuffer` -/
  tBuf : List UInt8
  /-- the first `streamReadSize` bytes of `streamRecvBuffer` -/
  sBuf : List UInt8
  tcpReadEnded : Bool
  streamReadEnded : Bool
  /-- in the list of its service -/
  listed : Bool
  freed : Bool
  bad : Bool
  /-- bytes read from the socket, written to the stream, read from the stream, written to the socket -/
  gotTcp : List UInt8
  putStream : List UInt8
  gotStream : List UInt8
  putTcp : List UInt8
  /-- the socket, the stream have told the end of their data -/
  tEof : Bool
  sEof : Bool
  deriving DecidableEq, Repr

/-- `nm_tcp_tunnel_connection_new`, `_init` and `_start` (nm_tcp_tunnel_connection.c:39-49, :70-126, :128-135) when they
succeed. -/
def St.init : St :=
  { tConn := true, tRead := false, tWrite := none, aborted := false, fin := false, sRead := false, sWrite := none,
    sClose := false, stopped := false, closed := false, eConn := none, eTRead := none, eTWrite := none,
    eSRead := none, eSWrite := none, eSClose := none, tBuf := [], sBuf := [], tcpReadEnded := false,
    streamReadEnded := false, listed := true, freed := false, bad := false, gotTcp := [], putStream := [],
    gotStream := [], putTcp := [], tEof := false, sEof := false }

/-! ### Completion events -/

/-- A result for an event is lost or the event is freed. -/
def St.chk (s : St) (slot : Option Ec) : St := { s with bad := s.bad || s.freed || slot.isSome }

def St.resConn (s : St) (e : Ec) : St := { s.chk s.eConn with eConn := some e }
def St.resTRead (s : St) (e : Ec) : St := { s.chk s.eTRead with eTRead := some e }
def St.resTWrite (s : St) (e : Ec) : St := { s.chk s.eTWrite with eTWrite := some e }
def St.resSRead (s : St) (e : Ec) : St := { s.chk s.eSRead with eSRead := some e }
def St.resSWrite (s : St) (e : Ec) : St := { s.chk s.eSWrite with eSWrite := some e }
def St.resSClose (s : St) (e : Ec) : St := { s.chk s.eSClose with eSClose := some e }

/-! ### The socket -/

/-- `async_read`, nm_select_unix_tcp.c `async_read` and nm_libevent_tcp.c `tcp_async_read`. `checks`: the
implementation looks whether the socket was aborted; nm_select_unix_tcp.c does, nm_libevent_tcp.c does not. -/
def St.tcpRead (checks : Bool) (s : St) : St :=
  if checks && s.aborted then s.resTRead .aborted
  else if s.tRead then s.resTRead .other
  else { s with tRead := true }

/-- `async_write`, the same. -/
def St.tcpWrite (checks : Bool) (s : St) (d : List UInt8) : St :=
  if checks && s.aborted then s.resTWrite .aborted
  else if s.tWrite.isSome then s.resTWrite .other
  else { s with tWrite := some d }

/-- `tcp_abort` of both implementations. -/
def St.tcpAbort (s : St) : St :=
  if s.aborted then s
  else
    let s1 := { s with aborted := true }
    let s2 := if s1.tRead then { s1 with tRead := false }.resTRead .aborted else s1
    let s3 := if s2.tWrite.isSome then { s2 with tWrite := none }.resTWrite .aborted else s2
    if s3.tConn then { s3 with tConn := false }.resConn .aborted else s3

/-! ### The stream -/

/-- `nc_stream_async_read_some`, nc_stream.c:413-441: the length is set to zero when the read starts. -/
def St.streamRead (s : St) : St :=
  if s.stopped then s.resSRead .stopped
  else if s.sRead then s.resSRead .other
  else { s with sRead := true, sBuf := [] }

/-- `nc_stream_async_write`, nc_stream.c:443-470. -/
def St.streamWrite (s : St) (d : List UInt8) : St :=
  if s.stopped then s.resSWrite .stopped
  else if s.sWrite.isSome then s.resSWrite .other
  else if s.closed then s.resSWrite .other
  else { s with sWrite := some d }

/-- `nc_stream_async_close`, nc_stream.c:472-494. -/
def St.streamClose (s : St) : St :=
  if s.stopped then s.resSClose .stopped
  else if s.sClose then s.resSClose .other
  else { s with sClose := true, closed := true }

/-- `nc_stream_stop`, nc_stream.c:635-679. -/
def St.streamStop (s : St) : St :=
  if s.stopped then s
  else
    let s1 := { s with stopped := true }
    let s2 := if s1.sRead then { s1 with sRead := false }.resSRead .aborted else s1
    let s3 := if s2.sWrite.isSome then { s2 with sWrite := none }.resSWrite .aborted else s2
    if s3.sClose then { s3 with sClose := false }.resSClose .aborted else s3

/-! ### The tunnel -/

/-- `abort_connection`, nm_tcp_tunnel_connection.c:304-312. -/
def St.abort (s : St) : St := s.tcpAbort.streamStop

/-- `nm_tcp_tunnel_connection_free` (:51-68): the socket is destroyed, which aborts it; the completion events are
deinitialised, so their callbacks do not run; then the stream is destroyed, which stops it. -/
def St.free (s : St) : St :=
  let s1 := { s.tcpAbort with eConn := none, eTRead := none, eTWrite := none, eSRead := none, eSWrite := none,
                              eSClose := none, freed := true }
  s1.streamStop

/-- `the_end`, :328-332. -/
def St.theEnd (s : St) : St := { s with listed := false }.free

/-- `is_ended`, :314-323. -/
def St.isEnded (s : St) : St := if s.tcpReadEnded && s.streamReadEnded then s.theEnd else s

/-- `connect_callback` and `connected`, :163-178. -/
def St.onConn (checks : Bool) (s : St) (e : Ec) : St :=
  if e ≠ .ok then s.theEnd else (s.tcpRead checks).streamRead

/-- `tcp_readen` and `close_stream`, :187-220. -/
def St.onTRead (s : St) (e : Ec) : St :=
  if s.tBuf.length = 0 ∨ e = .eof then s.streamClose
  else if e = .ok then s.streamWrite s.tBuf
  else { s.abort with tcpReadEnded := true }.isEnded

/-- `stream_closed`, :222-228. -/
def St.onSClose (s : St) (_e : Ec) : St := { s with tcpReadEnded := true }.isEnded

/-- `stream_written`, :235-249. -/
def St.onSWrite (checks : Bool) (s : St) (e : Ec) : St :=
  if e ≠ .ok then { s.abort with tcpReadEnded := true }.isEnded else s.tcpRead checks

/-- `stream_readen` and `close_tcp`, :256-282. -/
def St.onSRead (checks : Bool) (s : St) (e : Ec) : St :=
  if s.sBuf.length = 0 ∨ e = .eof then { s with fin := true, streamReadEnded := true }.isEnded
  else if e ≠ .ok then { s.abort with streamReadEnded := true }.isEnded
  else s.tcpWrite checks s.sBuf

/-- `tcp_written`, :290-302. -/
def St.onTWrite (s : St) (e : Ec) : St :=
  if e ≠ .ok then { s.abort with streamReadEnded := true }.isEnded else s.streamRead

/-- What can happen. -/
inductive Op
  /-- the socket is connected or cannot be connected -/
  | connectDone (e : Ec)
  | tcpData (d : List UInt8)
  /-- the socket has no more data, or an error -/
  | tcpEnd (e : Ec)
  /-- the socket has taken some bytes of the write -/
  | tcpWrote (n : Nat)
  | tcpWriteFail (e : Ec)
  | streamData (d : List UInt8)
  | streamEnd (e : Ec)
  | streamWrote (n : Nat)
  | streamWriteFail (e : Ec)
  | streamClosed (e : Ec)
  /-- the stream is stopped because its connection is gone -/
  | streamStop
  /-- `nm_tcp_tunnel_connection_stop_from_manager`, :142-152, called from nm_tcp_tunnel.c:131-137 -/
  | managerStop
  /-- the callbacks -/
  | runConn | runTRead | runTWrite | runSRead | runSWrite | runSClose
  deriving DecidableEq, Repr

/-- One operation. What the environment cannot do changes nothing: operations complete while they wait, a read gets
between one byte and as many as the buffer holds, a write takes at least one byte. -/
def step (checks : Bool) (s : St) : Op → St
  | .connectDone e => if s.tConn then { s with tConn := false }.resConn e else s
  | .tcpData d =>
    if s.tRead ∧ d ≠ [] ∧ d.length ≤ bufferSize then
      { s with tRead := false, tBuf := d, gotTcp := s.gotTcp ++ d }.resTRead .ok
    else s
  | .tcpEnd e =>
    if s.tRead ∧ e ≠ .ok then { s with tRead := false, tEof := s.tEof || (e == Ec.eof) }.resTRead e else s
  | .tcpWrote n =>
    match s.tWrite with
    | none => s
    | some d =>
      if n = 0 ∨ d.length < n then s
      else if n < d.length then { s with tWrite := some (d.drop n), putTcp := s.putTcp ++ d.take n }
      else { s with tWrite := none, putTcp := s.putTcp ++ d }.resTWrite .ok
  | .tcpWriteFail e =>
    if s.tWrite.isSome ∧ e ≠ .ok then { s with tWrite := none }.resTWrite e else s
  | .streamData d =>
    if s.sRead ∧ d ≠ [] ∧ d.length ≤ bufferSize then
      { s with sRead := false, sBuf := d, gotStream := s.gotStream ++ d }.resSRead .ok
    else s
  | .streamEnd e =>
    if s.sRead ∧ e ≠ .ok then { s with sRead := false, sEof := s.sEof || (e == Ec.eof) }.resSRead e else s
  | .streamWrote n =>
    match s.sWrite with
    | none => s
    | some d =>
      if n = 0 ∨ d.length < n then s
      else if n < d.length then { s with sWrite := some (d.drop n), putStream := s.putStream ++ d.take n }
      else { s with sWrite := none, putStream := s.putStream ++ d }.resSWrite .ok
  | .streamWriteFail e =>
    if s.sWrite.isSome ∧ e ≠ .ok then { s with sWrite := none }.resSWrite e else s
  | .streamClosed e => if s.sClose then { s with sClose := false }.resSClose e else s
  | .streamStop => s.streamStop
  | .managerStop =>
    if s.listed then
      let s1 := { s with listed := false }
      if s.freed then { s1 with bad := true } else s1.abort
    else s
  | .runConn => match s.eConn with | none => s | some e => { s with eConn := none }.onConn checks e
  | .runTRead => match s.eTRead with | none => s | some e => { s with eTRead := none }.onTRead e
  | .runTWrite => match s.eTWrite with | none => s | some e => { s with eTWrite := none }.onTWrite e
  | .runSRead => match s.eSRead with | none => s | some e => { s with eSRead := none }.onSRead checks e
  | .runSWrite => match s.eSWrite with | none => s | some e => { s with eSWrite := none }.onSWrite checks e
  | .runSClose => match s.eSClose with | none => s | some e => { s with eSClose := none }.onSClose e

/-- A history of a tunnel connection. -/
def run (checks : Bool) (ops : List Op) : St := ops.foldl (step checks) St.init

end Verif.Tunnel.Conn
