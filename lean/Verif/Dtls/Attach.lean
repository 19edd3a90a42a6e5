/-!
# Making the secure connection to the attach server

Both DTLS clients (`nm_mbedtls_cli.c`, `nm_wolfssl_cli.c`) as the attacher (`nc_attacher.c`) uses them: the
root certificates, the switch which turns certificate validation off, the creation of the attach connection
with every step which can fail, the verdict about the certificate of the server, and the places where the
attacher uses or destroys the connection.

Simplified: a certificate is the root it chains to and the names it is valid for (expiry, signatures and
revocation are inside the libraries), a host name is a number, and a connection is destroyed at once (the
deferral while a packet is on its way is in `Verif.Dtls.Client` and `Verif.Dtls.WolfClient`).  After a failed
creation the attacher as written never tries again (C38); this model lets it try again, so that the theorems
also hold once that is repaired.
-/

namespace Verif.Dtls.Attach

/-- The two implementations of the DTLS client. -/
inductive Lib | mbed | wolf
  deriving DecidableEq, Repr

/-- What a server presents in the handshake: the root its certificate chains to, the names it is valid for. -/
structure Cert where
  root : Nat
  names : List Nat
  deriving DecidableEq, Repr

/-- Which steps of a creation work (the answers of the heap, the event queue and the TLS library):
`np_calloc`, the event of the timer, the completion event of the sender, the event `startSendEvent`,
`mbedtls_ssl_setup` / `wolfSSL_new`, `wolfSSL_UseALPN`, `wolfSSL_dtls_set_timeout_*`,
`mbedtls_ssl_set_hostname` / `wolfSSL_UseSNI`, `wolfSSL_check_domain_name`. -/
structure Works where
  alloc : Bool := true
  timer : Bool := true
  sender : Bool := true
  start : Bool := true
  ssl : Bool := true
  alpn : Bool := true
  timeouts : Bool := true
  sni : Bool := true
  domain : Bool := true
  deriving DecidableEq, Repr

/-- A connection on the heap (`struct np_dtls_cli_connection`): its number, whether the completion event of
the sender exists, the setting `wolfSSL_set_verify` of the connection and the name which is checked. -/
structure Conn where
  id : Nat
  sender : Bool
  verify : Bool
  host : Option Nat
  deriving DecidableEq, Repr

/-- The attacher and the DTLS client of one device. -/
structure St where
  /-- `rootCerts` / the store of the wolfSSL context -/
  roots : List Nat
  /-- `ctx->certValidationDisabled` (nc_attacher.h:185) -/
  disabled : Bool := false
  /-- the attacher has been started (`moduleState` is not `SETUP`) and for which host name -/
  host : Option Nat := none
  /-- mbedTLS: `authmode` of the shared `attachConf` is `VERIFY_REQUIRED` -/
  confVerify : Bool := true
  heap : List Conn := []
  /-- `ctx->dtls` -/
  dtls : Option Nat := none
  /-- a connection was created and has not been closed -/
  up : Bool := false
  next : Nat := 0
  /-- freed or missing memory was used -/
  crash : Bool := false
  /-- the certificates of servers with which the handshake completed, newest first -/
  accepted : List Cert := []
  /-- the attacher is gone -/
  over : Bool := false
  deriving DecidableEq, Repr

/-- "Nabto Root CA 1", set by `nc_attacher_init` (nc_attacher.c:133). -/
def defaultRoot : Nat := 0

/-- `nc_attacher_init` (nc_attacher.c:104-158), `initialize_context` (nm_mbedtls_cli.c:214-258: the attach
configuration is made with `VERIFY_REQUIRED`). -/
def init : St := { roots := [defaultRoot] }

/-- `nc_attacher_set_root_certs` (nc_attacher.c:216-222) with `set_root_certs` (nm_mbedtls_cli.c:516-532,
nm_wolfssl_cli.c:368-379): refused once started; both libraries *add* the certificates of the text to what
they have.  If the call fails the library may have added the first `k`. -/
def St.setRoots (s : St) (text : List Nat) (k : Nat) (ok : Bool) : St :=
  if s.host.isSome then s
  else { s with roots := s.roots ++ (if ok then text else text.take k) }

/-- `nc_attacher_disable_certificate_validation` (nc_attacher.c:924-927). -/
def St.disable (s : St) : St := { s with disabled := true }

/-- `nc_attacher_start` (nc_attacher.c:263-284); a second start is refused (line 265). -/
def St.start (s : St) (host : Nat) : St :=
  if s.host.isSome then s else { s with host := some host }

/-- `do_free_connection` (nm_mbedtls_cli.c:446-471) / `do_destroy_connection` (nm_wolfssl_cli.c:319-338) of
the connection with number `i`: everything it consists of goes with it; a number which is not on the heap is
a double free. -/
def St.free (s : St) (i : Nat) : St :=
  if s.heap.any (fun c => c.id == i) then { s with heap := s.heap.filter (fun c => c.id != i) }
  else { s with crash := true }

/-- The block of a new connection (`np_calloc` succeeded). -/
def St.new (s : St) (c : Conn) : St := { s with heap := c :: s.heap, next := s.next + 1 }

/-- The fields of the connection with the number of `c` are written. -/
def St.put (s : St) (c : Conn) : St := { s with heap := c :: s.heap.filter (fun d => d.id != c.id) }

/-- `connect` (nc_attacher.c:451) sends the first packet; its completion is posted to the completion event of
the sender (nc_attacher.c:812, np_completion_event.c:45-49), which must exist. -/
def St.connect (s : St) (c : Conn) : St :=
  if c.sender then { s with up := true } else { s with up := true, crash := true }

/-- mbedTLS `create_connection` and `create_attach_connection` (nm_mbedtls_cli.c:262-312, 342-383), called at
nc_attacher.c:442.  The events are made before `*connection` is set, so that `do_free_connection(*connection)`
of the caller frees nothing when one of them fails. -/
def St.attemptMbed (s : St) (host : Nat) (w : Works) : St :=
  let s := { s with dtls := none }
  if !w.alloc then s
  else
    let c : Conn := ⟨s.next, w.timer && w.sender, false, none⟩
    if !w.timer || !w.sender || !w.start then s.new c
    else
      let s := (s.new c)
      let s := if s.disabled then { s with confVerify := false } else s
      if !w.ssl || !w.sni then s.free c.id
      else
        let s := { s.put { c with host := some host } with dtls := some c.id }
        s.connect c

/-- wolfSSL `create_client_connection` and `create_attach_connection` (nm_wolfssl_cli.c:217-317), called at
nc_attacher.c:442.  The result of `np_completion_event_init` is not looked at (line 254); a failure of the
last two steps destroys the connection but leaves it in `*connection`. -/
def St.attemptWolf (s : St) (host : Nat) (w : Works) : St :=
  let s := { s with dtls := none }
  if !w.alloc then s
  else
    let c : Conn := ⟨s.next, w.sender, false, none⟩
    let s := s.new c
    if !w.timer then s.free c.id
    else if !w.start then s
    else if !w.ssl || !w.alpn || !w.timeouts then s.free c.id
    else
      let s := { s with dtls := some c.id }
      if !w.sni || !w.domain then s.free c.id
      else
        (s.put { c with host := some host, verify := !s.disabled }).connect c

/-- `handle_state_change` in `NC_ATTACHER_STATE_DTLS_ATTACH_REQUEST` (nc_attacher.c:439-453): entered when the
device is started and has no connection. -/
def St.attempt (l : Lib) (s : St) (w : Works) : St :=
  match s.host with
  | none => s
  | some h =>
    if s.up then s
    else match l with
      | .mbed => s.attemptMbed h w
      | .wolf => s.attemptWolf h w

/-- Whether the handshake of a connection looks at the certificate: mbedTLS asks the configuration the
connection points to (`mbedtls_ssl_setup( &(*connection)->ssl, &ctx->attachConf )`, nm_mbedtls_cli.c:361),
wolfSSL the connection (nm_wolfssl_cli.c:313-315). -/
def St.verifies (l : Lib) (s : St) (c : Conn) : Bool :=
  match l with
  | .mbed => s.confVerify
  | .wolf => c.verify

/-- The libraries: a certificate is good if it chains to a root in the store and is valid for the name set by
`mbedtls_ssl_set_hostname` / `wolfSSL_check_domain_name` (no name set: any name is). -/
def St.good (s : St) (c : Conn) (x : Cert) : Bool :=
  s.roots.contains x.root && (match c.host with | none => true | some h => x.names.contains h)

/-- The server answers the handshake of the connection with certificate `x`. -/
def St.answer (l : Lib) (s : St) (x : Cert) : St :=
  if !s.up then s
  else match s.dtls with
    | none => s
    | some i =>
      match s.heap.find? (fun c => c.id == i) with
      | none => { s with crash := true }
      | some c => if !s.verifies l c || s.good c x then { s with accepted := x :: s.accepted } else s

/-- `nc_attacher_handle_dtls_packet` (nc_attacher.c:761-778): nothing without a connection, else it is used. -/
def St.packet (s : St) : St :=
  match s.dtls with
  | none => s
  | some i => if s.heap.any (fun c => c.id == i) then s else { s with crash := true }

/-- The connection is closed or failed: `reset_dtls_connection` (nc_attacher.c:554-575). -/
def St.closed (s : St) : St :=
  if !s.up then s
  else match s.dtls with
    | none => { s with up := false }
    | some i => { s.free i with dtls := none, up := false }

/-- `nc_attacher_deinit` (nc_attacher.c:162-200). -/
def St.deinit (s : St) : St :=
  match s.dtls with
  | none => { s with over := true, up := false }
  | some i => { s.free i with over := true, up := false, dtls := none }

/-- What can happen to the attacher. -/
inductive Op
  | setRoots (text : List Nat) (k : Nat) (ok : Bool)
  | disable
  | start (host : Nat)
  | attempt (w : Works)
  | answer (x : Cert)
  | packet
  | closed
  | deinit
  deriving DecidableEq, Repr

/-- One operation; nothing happens to an attacher which is gone. -/
def step (l : Lib) (s : St) : Op → St
  | o => if s.over then s else match o with
    | .setRoots t k ok => s.setRoots t k ok
    | .disable => s.disable
    | .start h => s.start h
    | .attempt w => s.attempt l w
    | .answer x => s.answer l x
    | .packet => s.packet
    | .closed => s.closed
    | .deinit => s.deinit

/-- A history from any state. -/
def runFrom (l : Lib) (s : St) (ops : List Op) : St := ops.foldl (step l) s

/-- A history. -/
def run (l : Lib) (ops : List Op) : St := runFrom l init ops

end Verif.Dtls.Attach
