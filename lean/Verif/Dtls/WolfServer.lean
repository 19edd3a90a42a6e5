import Verif.Dtls.Server

/-!
# The secure session of a client connection, with wolfSSL

Model of `src/modules/wolfssl/nm_wolfssl_srv.c`, which a device uses instead of `nm_mbedtls_srv.c` when it is built with
wolfSSL. The state is that of `Dtls/Server` and the timer of the handshake. The parts which are the same line by line are taken
from there: `wolfssl_send` (nm_wolfssl_srv.c:594-629), `do_free_connection` (nm_wolfssl_srv.c:313-335), `destroy_connection`
(nm_wolfssl_srv.c:337-344), `is_closed` (nm_wolfssl_srv.c:513-535), `start_send` (nm_wolfssl_srv.c:461-464) and
`async_send_data` (nm_wolfssl_srv.c:500-511).

What is simplified: as in `Dtls/Server`; when the timer fires is left to the environment. The completion event of a close is
NULL, nc_client_connection.c.
-/

namespace Verif.Dtls.WolfServer

open Verif.Dtls.Server (Snd Write)

structure St where
  s : Server.St
  /-- `timerEvent` is set -/
  timer : Bool
  deriving DecidableEq, Repr

/-- `nm_wolfssl_srv_create_connection`, nm_wolfssl_srv.c:241-311, when it succeeds. -/
def St.init : St := { s := Server.St.init, timer := false }

/-- `nm_wolfssl_srv_async_close`, nm_wolfssl_srv.c:537-554. -/
def St.close (w : St) (l : List Snd) : St :=
  if w.s.phase = .closing then w
  else { s := (Server.St.emits { w.s with phase := .closing } l).isClosed, timer := false }

def St.act (w : St) : Server.Act → St
  | .send => if w.s.owner then { w with s := w.s.send } else w
  | .close l => if w.s.owner then w.close l else w

def St.acts (w : St) (l : List Server.Act) : St := l.foldl St.act w

/-- What `wolfSSL_accept` or `wolfSSL_read` gives. -/
inductive Ret
  /-- WANT_READ, and there is a timeout for the retransmission -/
  | wantRead (timeout : Bool)
  | wantWrite
  /-- the handshake is complete, or data was read; what the connection does then -/
  | ok (acts : List Server.Act)
  /-- end of file or an error -/
  | ended
  deriving DecidableEq, Repr

structure Tls where
  snd : List Snd
  ret : Ret
  deriving DecidableEq, Repr

/-- The connection is called with memory of the connection. -/
def St.handler (w : St) (acts : List Server.Act) : St :=
  if w.s.owner then w.acts acts else { w with s := { w.s with bad := true } }

/-- `nm_wolfssl_srv_do_one`, nm_wolfssl_srv.c:376-429, with `set_timeout`, nm_wolfssl_srv.c:431-438. -/
def St.doOne (w : St) (r : Tls) : St :=
  match w.s.phase with
  | .closing => w
  | .connecting =>
    let s1 := w.s.emits r.snd
    match r.ret with
    | .wantRead t => { s := s1, timer := w.timer || t }
    | .wantWrite => { w with s := s1 }
    | .ended => { s := s1.closedEvent, timer := false }
    | .ok acts => St.handler { s := { s1 with phase := .data }, timer := false } acts
  | .data =>
    let s1 := w.s.emits r.snd
    match r.ret with
    | .wantRead _ | .wantWrite => { w with s := s1 }
    | .ended => { w with s := s1.closedEvent }
    | .ok acts => St.handler { w with s := s1 } acts

/-- `nm_wolfssl_srv_handle_packet`, nm_wolfssl_srv.c:346-366. -/
def St.packet (w : St) (r : Tls) : St :=
  let w1 := St.doOne { w with s := { w.s with receiving := true } } r
  let s2 := { w1.s.touch with receiving := false }
  if s2.destroyed && !s2.buf then { s := s2.free, timer := false } else { w1 with s := s2 }

/-- `nm_wolfssl_srv_connection_send_callback`, nm_wolfssl_srv.c:631-647. -/
def St.sent (w : St) (r : Tls) : St :=
  let s1 := { w.s with buf := false, net := .idle }
  if s1.phase = .closing && s1.destroyed then { s := s1.free, timer := false }
  else
    let w2 := St.doOne { w with s := s1 } r
    { w2 with s := w2.s.startSend }

/-- `nm_wolfssl_srv_start_send_deferred`, nm_wolfssl_srv.c:466-498. `ok`: what `wolfSSL_write` returns is positive. -/
def St.runSend (w : St) (snd : List Snd) (ok : Bool) : St :=
  let s1 := { w.s with ev := false }
  if s1.buf then { w with s := s1 }
  else
    match s1.queue with
    | [] => { w with s := s1.isClosed }
    | m :: q =>
      let s2 := Server.St.emits { s1 with queue := q } snd
      if ok then { w with s := { s2 with answers := s2.answers ++ [(m, .ok)], wire := s2.wire ++ [m] } }
      else { w with s := { s2 with answers := s2.answers ++ [(m, .unknown)] } }

/-- What `wolfSSL_dtls_got_timeout` gives. -/
inductive Timeout
  /-- success, and there is a next timeout -/
  | again (timeout : Bool)
  | failed
  /-- not compiled in -/
  | other
  deriving DecidableEq, Repr

/-- `handle_timeout`, nm_wolfssl_srv.c:440-453. -/
def St.handleTimeout (w : St) (snd : List Snd) (t : Timeout) : St :=
  let s1 := w.s.emits snd
  match t with
  | .again t => { s := s1, timer := t }
  | .failed => { s := s1.closedEvent, timer := false }
  | .other => { s := s1, timer := false }

inductive Op
  | send
  | close (l : List Snd)
  | kill
  | packet (r : Tls)
  | udpDone
  | sent (r : Tls)
  | runSend (snd : List Snd) (ok : Bool)
  | timer (snd : List Snd) (t : Timeout)
  deriving DecidableEq, Repr

/-- One operation, as in `Dtls/Server`. The timer was destroyed with the session. -/
def step (w : St) : Op → St
  | .send => w.act .send
  | .close l => w.act (.close l)
  | .kill => if w.s.owner then { w with s := w.s.destroyOwner } else w
  | .packet r => if w.s.owner then w.packet r else w
  | .udpDone => if w.s.net = .flying then { w with s := { w.s with net := .done } } else w
  | .sent r => if w.s.net = .done then w.sent r else w
  | .runSend snd ok => if w.s.ev then w.runSend snd ok else w
  | .timer snd t => if w.timer && w.s.freed = 0 then w.handleTimeout snd t else w

def run (ops : List Op) : St := ops.foldl step St.init

end Verif.Dtls.WolfServer
