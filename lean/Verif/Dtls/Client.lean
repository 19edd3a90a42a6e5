/-!
# The secure session with the basestation

Model of `src/modules/mbedtls/nm_mbedtls_cli.c`, the queue of messages, the packet which is on its way, closing and
destroying, together with the attacher, which destroys the session when it hears that it ended (`reset_dtls_connection`,
nc_attacher.c:554-572, called from `dtls_event_handler`, nc_attacher.c:525-548).

The TLS library is the environment: a `Tls` says which packets a call of it wants to send and what it returns. The sender of
the attacher, `dtls_packet_sender`, nc_attacher.c:780-795, never returns an error. As in `Core/Attacher`, `mbedtls_ssl_read`
is taken not to return 0.

What is simplified: the timer may fire whenever the session is there. What the attacher does with an event beyond the session
is in `Core/Attacher`.
-/

namespace Verif.Dtls.Client

/-- `enum sslState`, nm_mbedtls_common.h:4-8. -/
inductive Phase
  | connecting | data | closing
  deriving DecidableEq, Repr

/-- The packet in `sslSendBuffer`. -/
inductive Net
  | idle
  /-- handed to the socket -/
  | flying
  /-- `senderEvent` is in the event queue -/
  | done
  deriving DecidableEq, Repr

inductive Ec
  | ok | malformed | unknown | closing
  deriving DecidableEq, Repr

structure St where
  phase : Phase
  /-- `sslSendBuffer` is not NULL -/
  buf : Bool
  net : Net
  /-- `sendList` -/
  queue : List Nat
  /-- `startSendEvent` is in the event queue -/
  ev : Bool
  receiving : Bool
  destroyed : Bool
  /-- how often the session was freed -/
  freed : Nat
  /-- the attacher has the session, `ctx->dtls` -/
  held : Bool
  /-- how often the attacher heard that the session ended -/
  ends : Nat
  /-- freed memory was used -/
  bad : Bool
  /-- the number of the next message -/
  next : Nat
  /-- the messages whose completion event was resolved -/
  answers : List (Nat × Ec)
  /-- the messages which the TLS library took -/
  wire : List Nat
  deriving DecidableEq, Repr

/-- `create_connection`, nm_mbedtls_cli.c:260-312, when it succeeds. -/
def St.init : St :=
  { phase := .connecting, buf := false, net := .idle, queue := [], ev := false, receiving := false, destroyed := false,
    freed := 0, held := true, ends := 0, bad := false, next := 0, answers := [], wire := [] }

/-- The session is used. -/
def St.touch (s : St) : St := if s.freed = 0 then s else { s with bad := true }

/-- `nm_dtls_mbedtls_send`, nm_mbedtls_cli.c:759-798. `mem`: a buffer can be allocated. -/
def St.emit (s : St) (mem : Bool) : St :=
  if s.buf then s.touch
  else if mem then { s.touch with buf := true, net := .flying }
  else s.touch

def St.emits (s : St) (l : List Bool) : St := l.foldl St.emit s

/-- `do_free_connection`, nm_mbedtls_cli.c:450-471. The events are destroyed. -/
def St.free (s : St) : St :=
  { s.touch with
      freed := s.freed + 1, queue := [], answers := s.answers ++ s.queue.map fun m => (m, Ec.closing), ev := false,
      net := .idle }

/-- `destroy_connection`, nm_mbedtls_cli.c:438-448. -/
def St.destroy (s : St) : St :=
  let s1 := { s.touch with phase := .closing, destroyed := true }
  if !s.buf && !s.receiving then s1.free else s1

/-- An event which ends the session: the attacher destroys the session which it has. -/
def St.endEvent (s : St) : St :=
  let s1 := { s with ends := s.ends + 1 }
  if s.held then { s1.destroy with held := false } else s1

/-- `start_send`, nm_mbedtls_cli.c:620-623. -/
def St.startSend (s : St) : St := { s.touch with ev := true }

/-- `async_send_data`, nm_mbedtls_cli.c:666-678. -/
def St.send (s : St) : St :=
  if s.phase ≠ .data then s
  else { s with queue := s.queue ++ [s.next], next := s.next + 1 }.startSend

/-- `async_close`, nm_mbedtls_cli.c:680-700. `l`: the close notify. -/
def St.close (s : St) (l : List Bool) : St :=
  if s.phase = .closing then s
  else
    let s1 := ({ s with phase := .closing }.emits l).touch
    if s1.buf then s1 else s1.endEvent

/-- What the attacher does while it handles data or the end of the handshake. -/
inductive Act
  | send
  | close (l : List Bool)
  deriving DecidableEq, Repr

def St.act (s : St) : Act → St
  | .send => if s.held then s.send else s
  | .close l => if s.held then s.close l else s

def St.acts (s : St) (l : List Act) : St := l.foldl St.act s

/-- What a handshake or a read returns. -/
inductive Ret
  /-- WANT_READ or WANT_WRITE -/
  | want
  /-- the handshake is complete, or data was read -/
  | ok (acts : List Act)
  /-- an error, an alert, or a close notify -/
  | ended
  deriving DecidableEq, Repr

/-- A call of the TLS library: the packets it wants to send, and what it returns. -/
structure Tls where
  snd : List Bool
  ret : Ret
  deriving DecidableEq, Repr

/-- `event_do_one`, nm_mbedtls_cli.c:571-610, with `event_handle_connecting_state`, nm_mbedtls_cli.c:826-887. -/
def St.doOne (s : St) (r : Tls) : St :=
  if s.phase = .closing then s
  else
    let s1 := s.emits r.snd
    match r.ret with
    | .want => s1
    | .ok acts => { s1 with phase := .data }.acts acts
    | .ended => { s1 with phase := .closing }.endEvent

/-- `handle_packet`, nm_mbedtls_cli.c:702-718. -/
def St.packet (s : St) (r : Tls) : St :=
  let s1 := ({ s with receiving := true }.doOne r).touch
  let s2 := { s1 with receiving := false }
  if s2.destroyed && !s2.buf then s2.free else s2

/-- `dtls_udp_send_callback`, nm_mbedtls_cli.c:720-745. -/
def St.sent (s : St) (r : Tls) : St :=
  if s.phase = .closing then
    let s1 := { s with net := .idle }.endEvent.touch
    let s2 := { s1 with buf := false }
    if s2.destroyed then s2.free else s2
  else
    let s1 := { s with buf := false, net := .idle }
    let s2 := if s1.phase = .data then s1.startSend else s1
    s2.doOne r

inductive WriteRet
  | ok | tooLarge | error
  deriving DecidableEq, Repr

structure Write where
  snd : List Bool
  ret : WriteRet
  deriving DecidableEq, Repr

/-- `start_send_deferred`, nm_mbedtls_cli.c:625-664. -/
def St.runSend (s : St) (w : Write) : St :=
  let s1 := { s with ev := false }
  if s1.phase = .closing then s1
  else if s1.buf then s1
  else
    match s1.queue with
    | [] => s1
    | m :: q =>
      let s2 := { s1 with queue := q }.emits w.snd
      let s3 :=
        match w.ret with
        | .tooLarge => { s2 with answers := s2.answers ++ [(m, Ec.malformed)] }
        | .error => { s2 with answers := s2.answers ++ [(m, Ec.unknown)] }
        | .ok => { s2 with answers := s2.answers ++ [(m, Ec.ok)], wire := s2.wire ++ [m] }
      s3.startSend

inductive Op
  /-- calls of the attacher -/
  | connect (r : Tls)
  | send
  | close (l : List Bool)
  /-- `nc_attacher_deinit`, nc_attacher.c:162-190 -/
  | kill
  | packet (r : Tls)
  /-- the socket has sent the packet -/
  | udpDone
  /-- events -/
  | sent (r : Tls)
  | runSend (w : Write)
  | timer (r : Tls)
  deriving DecidableEq, Repr

/-- One operation. Calls are only made by an attacher which has the session, and events of a session which was freed do not
run: they were destroyed. -/
def step (s : St) : Op → St
  /- dtls_connect, nm_mbedtls_cli.c:560-566: it is called once, on a new session -/
  | .connect r => if s.held && s.phase = .connecting then s.doOne r else s
  | .send => if s.held then s.send else s
  | .close l => if s.held then s.close l else s
  | .kill => if s.held then { s.destroy with held := false } else s
  | .packet r => if s.held then s.packet r else s
  | .udpDone => if s.net = .flying then { s with net := .done } else s
  | .sent r => if s.net = .done then s.sent r else s
  | .runSend w => if s.ev then s.runSend w else s
  /- nm_dtls_timed_event_do_one, nm_mbedtls_cli.c:817-824 -/
  | .timer r => if s.freed = 0 then s.doOne r else s

def run (ops : List Op) : St := ops.foldl step St.init

end Verif.Dtls.Client
