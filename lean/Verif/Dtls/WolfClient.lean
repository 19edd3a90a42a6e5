import Verif.Dtls.Client

/-!
# The secure session with the basestation, with wolfSSL

Model of `src/modules/wolfssl/nm_wolfssl_cli.c`, which a device uses instead of `nm_mbedtls_cli.c` when it is built with
wolfSSL. The state is that of `Dtls/Client`, the timer of the handshake, and the messages which wolfSSL took. The parts which
are the same line by line are taken from there: `nm_dtls_wolfssl_send` (nm_wolfssl_cli.c:679-720) with a sender which returns
no error, `do_destroy_connection` (nm_wolfssl_cli.c:319-337), `destroy_connection` (nm_wolfssl_cli.c:339-347),
`nm_wolfssl_cli_start_send` (nm_wolfssl_cli.c:547-550) and `async_send_data` (nm_wolfssl_cli.c:590-602).

What is simplified: as in `Dtls/Client`; when the timer fires is left to the environment.
-/

namespace Verif.Dtls.WolfClient

structure St where
  s : Client.St
  /-- `timerEvent` is set -/
  timer : Bool
  /-- the messages which wolfSSL took -/
  taken : List Nat
  deriving DecidableEq, Repr

/-- `create_client_connection`, nm_wolfssl_cli.c:217-286, when it succeeds. -/
def St.init : St := { s := Client.St.init, timer := false, taken := [] }

/-- `async_close`, nm_wolfssl_cli.c:612-629, with `nm_wolfssl_do_close`, nm_wolfssl_cli.c:604-610. -/
def St.close (w : St) (l : List Bool) : St :=
  if w.s.phase = .closing then w
  else
    let s1 := (Client.St.emits { w.s with phase := .closing } l).touch
    if s1.buf then { w with s := s1 } else { w with s := s1.endEvent, timer := false }

def St.act (w : St) : Client.Act → St
  | .send => if w.s.held then { w with s := w.s.send } else w
  | .close l => if w.s.held then w.close l else w

def St.acts (w : St) (l : List Client.Act) : St := l.foldl St.act w

/-- What `wolfSSL_connect` or `wolfSSL_read` gives. -/
inductive Ret
  /-- WANT_READ, and there is a timeout for the retransmission -/
  | wantRead (timeout : Bool)
  | wantWrite
  /-- the handshake is complete, or data was read; what the attacher does then -/
  | ok (acts : List Client.Act)
  /-- end of file, an alert or an error -/
  | ended
  deriving DecidableEq, Repr

structure Tls where
  snd : List Bool
  ret : Ret
  deriving DecidableEq, Repr

/-- `event_do_one`, nm_wolfssl_cli.c:420-509, with `set_timeout`, nm_wolfssl_cli.c:511-518. -/
def St.doOne (w : St) (r : Tls) : St :=
  match w.s.phase with
  | .closing => w
  | .connecting =>
    let s1 := w.s.emits r.snd
    match r.ret with
    | .wantRead t => { w with s := s1, timer := t }
    | .wantWrite => { w with s := s1 }
    | .ended => { w with s := Client.St.endEvent { s1 with phase := .closing }, timer := false }
    | .ok acts => St.acts { w with s := { s1 with phase := .data }, timer := false } acts
  | .data =>
    let s1 := w.s.emits r.snd
    match r.ret with
    | .wantRead _ | .wantWrite => { w with s := s1 }
    | .ended => { w with s := Client.St.endEvent { s1 with phase := .closing }, timer := false }
    | .ok acts => St.acts { w with s := s1 } acts

/-- `handle_packet`, nm_wolfssl_cli.c:631-650. -/
def St.packet (w : St) (r : Tls) : St :=
  let w1 := St.doOne { w with s := { w.s with receiving := true } } r
  let s2 := { w1.s.touch with receiving := false }
  if s2.destroyed && !s2.buf then { w1 with s := s2.free, timer := false } else { w1 with s := s2 }

/-- `nm_dtls_udp_send_callback`, nm_wolfssl_cli.c:652-677. When the session is closing the pointer to the buffer, which was
freed, is left as it is. -/
def St.sent (w : St) (r : Tls) : St :=
  if w.s.phase = .closing then
    let s1 := (Client.St.endEvent { w.s with net := .idle }).touch
    if s1.destroyed then { w with s := Client.St.free { s1 with buf := false }, timer := false }
    else { w with s := s1, timer := false }
  else
    let s1 := { w.s with buf := false, net := .idle }
    let s2 := if s1.phase = .data then s1.startSend else s1
    St.doOne { w with s := s2 } r

/-- What `wolfSSL_write` returns. -/
inductive WriteRet
  | positive | zero | negative
  deriving DecidableEq, Repr

/-- `start_send_deferred`, nm_wolfssl_cli.c:552-587. -/
def St.runSend (w : St) (snd : List Bool) (ret : WriteRet) : St :=
  let s1 := { w.s with ev := false }
  if s1.phase = .closing then { w with s := s1 }
  else if s1.buf then { w with s := s1 }
  else
    match s1.queue with
    | [] => { w with s := s1 }
    | m :: q =>
      let s2 := Client.St.emits { s1 with queue := q } snd
      let taken := if ret = .positive then w.taken ++ [m] else w.taken
      if ret = .negative then
        { w with s := Client.St.startSend { s2 with answers := s2.answers ++ [(m, .unknown)] }, taken := taken }
      else
        { w with
            s := Client.St.startSend { s2 with answers := s2.answers ++ [(m, .ok)], wire := s2.wire ++ [m] }
            taken := taken }

/-- What `wolfSSL_dtls_got_timeout` gives. -/
inductive Timeout
  /-- success, WANT_READ or WANT_WRITE, and there is a next timeout -/
  | again (timeout : Bool)
  | failed
  /-- not compiled in -/
  | other
  deriving DecidableEq, Repr

/-- `handle_timeout`, nm_wolfssl_cli.c:520-544. The state of the session is not looked at. -/
def St.handleTimeout (w : St) (snd : List Bool) (t : Timeout) : St :=
  let s1 := w.s.emits snd
  match t with
  | .again t => { w with s := s1, timer := t }
  | .failed => { w with s := s1.endEvent, timer := false }
  | .other => { w with s := s1, timer := false }

inductive Op
  | connect (r : Tls)
  | send
  | close (l : List Bool)
  | kill
  | packet (r : Tls)
  | udpDone
  | sent (r : Tls)
  | runSend (snd : List Bool) (ret : WriteRet)
  | timer (snd : List Bool) (t : Timeout)
  deriving DecidableEq, Repr

/-- One operation, as in `Dtls/Client`. The timer was destroyed with the session. -/
def step (w : St) : Op → St
  /- nm_wolfssl_connect, nm_wolfssl_cli.c:409-415 -/
  | .connect r => if w.s.held && w.s.phase = .connecting then w.doOne r else w
  | .send => w.act .send
  | .close l => w.act (.close l)
  | .kill => if w.s.held then { w with s := { w.s.destroy with held := false } } else w
  | .packet r => if w.s.held then w.packet r else w
  | .udpDone => if w.s.net = .flying then { w with s := { w.s with net := .done } } else w
  | .sent r => if w.s.net = .done then w.sent r else w
  | .runSend snd ret => if w.s.ev then w.runSend snd ret else w
  | .timer snd t => if w.timer && w.s.freed = 0 then w.handleTimeout snd t else w

def run (ops : List Op) : St := ops.foldl step St.init

end Verif.Dtls.WolfClient
