/-!
# The secure session of a client connection

Model of `src/modules/mbedtls/nm_mbedtls_srv.c`, the queue of messages, the packet which is on its way, closing and
destroying, together with what `src/core/nc_client_connection.c` does when the session tells it that it is closed: it
destroys the session and itself, within the call.

The TLS library is the environment: a `Tls` says which packets a call of it wants to send and what it returns. Messages are
numbered in the order in which they are accepted. The channel ids are left out; they are in `Core/Conn`. The completion event
of a close is left out: `nc_client_connection_close_connection` passes NULL.

What is simplified: the timer may fire whenever the session is there. The result of a callback which runs on memory which was
freed is a flag, `bad`.
-/

namespace Verif.Dtls.Server

/-- `enum sslState`, nm_mbedtls_common.h:4-8. -/
inductive Phase
  | connecting | data | closing
  deriving DecidableEq, Repr

/-- The packet in `sslSendBuffer`. -/
inductive Net
  | idle
  /-- handed to the socket, `sentCb` is set and the completion is awaited -/
  | flying
  /-- `senderEvent` is in the event queue -/
  | done
  /-- the connection which awaits the completion is gone -/
  | lost
  deriving DecidableEq, Repr

inductive Ec
  | ok | malformed | unknown | closing
  deriving DecidableEq, Repr

structure St where
  phase : Phase
  /-- `sslSendBuffer` is not NULL -/
  buf : Bool
  net : Net
  /-- `sendList` -/
  queue : List Nat
  /-- `startSendEvent` is in the event queue -/
  ev : Bool
  receiving : Bool
  destroyed : Bool
  /-- how often the session was freed -/
  freed : Nat
  /-- the client connection is there -/
  owner : Bool
  /-- freed memory was used -/
  bad : Bool
  /-- the session was freed while a packet was with the socket, which still has the completion event of the session -/
  early : Bool
  /-- the number of the next message -/
  next : Nat
  /-- the messages whose completion event was resolved -/
  answers : List (Nat × Ec)
  /-- the messages which the TLS library took -/
  wire : List Nat
  deriving DecidableEq, Repr

/-- `nm_mbedtls_srv_create_connection`, nm_mbedtls_srv.c:207-287, when it succeeds. -/
def St.init : St :=
  { phase := .connecting, buf := false, net := .idle, queue := [], ev := false, receiving := false, destroyed := false,
    freed := 0, owner := true, bad := false, early := false, next := 0, answers := [], wire := [] }

/-- The session is used. -/
def St.touch (s : St) : St := if s.freed = 0 then s else { s with bad := true }

/-- What happens to a packet which the TLS library wants to send. -/
inductive Snd
  /-- no buffer can be allocated -/
  | noBuffer
  /-- the sender returns an error -/
  | refused
  | sent
  deriving DecidableEq, Repr

/-- `nm_mbedtls_srv_mbedtls_send`, nm_mbedtls_srv.c:576-600. -/
def St.emit (s : St) (r : Snd) : St :=
  if s.buf then s
  else
    match r with
    | .noBuffer => s
    | .refused => if s.owner then s else { s with bad := true }
    | .sent => if s.owner then { s with buf := true, net := .flying } else { s with bad := true }

def St.emits (s : St) (l : List Snd) : St := l.foldl St.emit s

/-- `nm_mbedtls_srv_do_free_connection`, nm_mbedtls_srv.c:289-309. The events are destroyed. -/
def St.free (s : St) : St :=
  { s.touch with
      freed := s.freed + 1, queue := [], answers := s.answers ++ s.queue.map fun m => (m, .closing), ev := false,
      net := .idle, early := s.early || s.buf }

/-- `nm_mbedtls_srv_destroy_connection`, nm_mbedtls_srv.c:311-320. -/
def St.destroy (s : St) : St :=
  let s1 := { s.touch with destroyed := true }
  if !s.buf && !s.receiving then s1.free else s1

/-- `nc_client_connection_destroy_connection`, nc_client_connection.c:147-166: the completion event of the packet which is
being sent is deinitialised. -/
def St.destroyOwner (s : St) : St :=
  let s1 := s.destroy
  { s1 with owner := false, net := if s1.net = .flying then .lost else s1.net }

/-- `event_callback`, nm_mbedtls_srv.c:407-413, with `NP_DTLS_EVENT_CLOSED`, and `nc_client_connection_handle_event`,
nc_client_connection.c:168-182. -/
def St.closedEvent (s : St) : St := if s.owner then s.destroyOwner else { s with bad := true }

/-- `nm_mbedtls_srv_is_closed`, nm_mbedtls_srv.c:466-487. -/
def St.isClosed (s : St) : St :=
  if s.phase ≠ .closing then s
  else if s.buf then s
  else if s.queue ≠ [] then s
  else s.closedEvent

/-- `nm_mbedtls_srv_start_send`, nm_mbedtls_srv.c:415-418. -/
def St.startSend (s : St) : St := { s.touch with ev := true }

/-- `nm_mbedtls_srv_async_send_data`, nm_mbedtls_srv.c:454-464. -/
def St.send (s : St) : St :=
  if s.phase = .closing then s
  else { s with queue := s.queue ++ [s.next], next := s.next + 1 }.startSend

/-- `nm_mbedtls_srv_async_close`, nm_mbedtls_srv.c:489-505. `l`: the close notify. -/
def St.close (s : St) (l : List Snd) : St :=
  if s.phase = .closing then s
  else ({ s with phase := .closing }.emits l).isClosed

/-- What the connection does while it handles data. -/
inductive Act
  | send
  | close (l : List Snd)
  deriving DecidableEq, Repr

def St.act (s : St) : Act → St
  | .send => if s.owner then s.send else s
  | .close l => if s.owner then s.close l else s

def St.acts (s : St) (l : List Act) : St := l.foldl St.act s

/-- What a handshake or a read returns. -/
inductive Ret
  /-- WANT_READ or WANT_WRITE -/
  | want
  /-- the handshake is complete, or data was read -/
  | ok (acts : List Act)
  /-- end of file, close notify, timeout, or an error -/
  | ended
  deriving DecidableEq, Repr

/-- A call of the TLS library: the packets it wants to send, and what it returns. -/
structure Tls where
  snd : List Snd
  ret : Ret
  deriving DecidableEq, Repr

/-- `nm_mbedtls_srv_do_one`, nm_mbedtls_srv.c:354-405. The handler of the connection is called with memory of the
connection. -/
def St.doOne (s : St) (r : Tls) : St :=
  if s.phase = .closing then s
  else
    let s1 := s.emits r.snd
    match r.ret with
    | .want => s1
    | .ok acts =>
      let s2 := { s1 with phase := .data }
      if s2.owner then s2.acts acts else { s2 with bad := true }
    | .ended => s1.closedEvent

/-- `nm_mbedtls_srv_handle_packet`, nm_mbedtls_srv.c:322-340. -/
def St.packet (s : St) (r : Tls) : St :=
  let s1 := ({ s with receiving := true }.doOne r).touch
  let s2 := { s1 with receiving := false }
  if s2.destroyed && !s2.buf then s2.free else s2

/-- `nm_mbedtls_srv_connection_send_callback`, nm_mbedtls_srv.c:602-619. -/
def St.sent (s : St) (r : Tls) : St :=
  let s1 := { s with buf := false, net := .idle }
  if s1.phase = .closing && s1.destroyed then s1.free
  else (s1.doOne r).startSend

inductive WriteRet
  | ok | tooLarge | error
  deriving DecidableEq, Repr

structure Write where
  snd : List Snd
  ret : WriteRet
  deriving DecidableEq, Repr

/-- `nm_mbedtls_srv_start_send_deferred`, nm_mbedtls_srv.c:420-452. -/
def St.runSend (s : St) (w : Write) : St :=
  let s1 := { s with ev := false }
  if s1.buf then s1
  else
    match s1.queue with
    | [] => s1.isClosed
    | m :: q =>
      let s2 := { s1 with queue := q }.emits w.snd
      match w.ret with
      | .tooLarge => { s2 with answers := s2.answers ++ [(m, .malformed)] }
      | .error => { s2 with answers := s2.answers ++ [(m, .unknown)] }
      | .ok => { s2 with answers := s2.answers ++ [(m, .ok)], wire := s2.wire ++ [m] }

inductive Op
  /-- calls of the connection -/
  | send
  | close (l : List Snd)
  /-- the device is freed, nc_connection.c:20-36 -/
  | kill
  | packet (r : Tls)
  /-- the socket has sent the packet, `nc_client_connection_send_to_udp_cb`, nc_client_connection.c:325-339 -/
  | udpDone
  /-- events -/
  | sent (r : Tls)
  | runSend (w : Write)
  | timer (r : Tls)
  deriving DecidableEq, Repr

/-- One operation. Calls are only made by a connection which is there, and events of a session which was freed do not run:
they were destroyed. -/
def step (s : St) : Op → St
  | .send => if s.owner then s.send else s
  | .close l => if s.owner then s.close l else s
  | .kill => if s.owner then s.destroyOwner else s
  | .packet r => if s.owner then s.packet r else s
  | .udpDone => if s.net = .flying then { s with net := .done } else s
  | .sent r => if s.net = .done then s.sent r else s
  | .runSend w => if s.ev then s.runSend w else s
  | .timer r => if s.freed = 0 then s.doOne r else s

def run (ops : List Op) : St := ops.foldl step St.init

end Verif.Dtls.Server
