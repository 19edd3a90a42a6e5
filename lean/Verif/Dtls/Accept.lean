/-!
# Opening a connection to a client

What a packet from an unknown client allocates and what is given back: `nc_client_connection_dispatch.c`,
`nc_connection.c`, `nc_client_connection.c` and the creation of a session in both DTLS servers
(`nm_mbedtls_srv.c`, `nm_wolfssl_srv.c`), with every step that can fail.

Simplified: a client is a number (its connection id), a session is destroyed at once (the deferral while a
packet is on its way is in `Verif.Dtls.Server` and `Verif.Dtls.WolfServer`), the packet itself and builds with
`NABTO_DEVICE_DTLS_CLIENT_ONLY` are left out.  `made` and `freed` count blocks of memory, events and objects of
the TLS library.
-/

namespace Verif.Dtls.Accept

/-- The two implementations of the DTLS server. -/
inductive Lib | mbed | wolf
  deriving DecidableEq, Repr

/-- Which steps work: the two blocks and the reference of a connection, the events of the keep alive and of
the two completion events; the block of the session, its events (`startSendEvent`, the timer, the completion
event of the sender), `mbedtls_ssl_setup` / `wolfSSL_new`, and the steps after it. -/
structure Works where
  block : Bool := true
  block2 : Bool := true
  ref : Bool := true
  keepAlive : Bool := true
  send : Bool := true
  kaSend : Bool := true
  alloc : Bool := true
  start : Bool := true
  timer : Bool := true
  sender : Bool := true
  ssl : Bool := true
  rest : Bool := true
  deriving DecidableEq, Repr

/-- `struct nc_connection` with its `struct nc_client_connection`: the reference, the client, which of its
three events exist, and its session (`conn->dtls`; the number of parts of the session). -/
structure Conn where
  ref : Nat
  client : Nat
  keepAlive : Bool := false
  send : Bool := false
  kaSend : Bool := false
  dtls : Option Nat := none
  deriving DecidableEq, Repr

/-- What the listener for connection events is told. -/
inductive Event
  | opened (ref : Nat)
  | closed (ref : Nat)
  deriving DecidableEq, Repr

/-- The connections of a device. -/
structure St where
  conns : List Conn := []
  /-- `ctx->currentConnections` -/
  current : Nat := 0
  /-- `ctx->maxConcurrentConnections`, `none` is `SIZE_MAX` -/
  max : Option Nat := none
  nextRef : Nat := 0
  made : Nat := 0
  freed : Nat := 0
  /-- a NULL pointer was followed -/
  crash : Bool := false
  /-- the events, newest first -/
  told : List Event := []
  deriving DecidableEq, Repr

/-- `nm_mbedtls_srv_create_connection` (nm_mbedtls_srv.c:207-287) and `nm_wolfssl_srv_create_connection`
(nm_wolfssl_srv.c:238-312), which fail alike: the session, if it could be made, and the number of things
allocated.  Every `return` after the first allocation leaves behind what was made.  (`wolfSSL_new` is not
checked, but `wolfSSL_UseALPN` refuses NULL.) -/
def createSession (w : Works) : Option Nat × Nat :=
  if !w.alloc then (none, 0)
  else if !w.start then (none, 1)
  else if !w.timer then (none, 2)
  else if !w.sender then (none, 3)
  else if !w.ssl then (none, 4)
  else if !w.rest then (none, 5)
  else (some 5, 5)

/-- `nc_client_connection_init` (nc_client_connection.c:35-90): the connection as it is when the function
returns, the number of things made, and whether it succeeded. -/
def initConn (c : Conn) (w : Works) : Conn × Nat × Bool :=
  if !w.keepAlive then (c, 0, false)
  else
    let c := { c with keepAlive := true }
    if !w.send then (c, 1, false)
    else
      let c := { c with send := true }
      if !w.kaSend then (c, 2, false)
      else
        let c := { c with kaSend := true }
        let r := createSession w
        ({ c with dtls := r.1 }, 3 + r.2, r.1.isSome)

/-- `dtlsS.destroy_connection`: mbedTLS checks for NULL (nm_mbedtls_srv.c:311-320), wolfSSL does not
(nm_wolfssl_srv.c:336-343). -/
def St.destroySession (l : Lib) (s : St) : Option Nat → St
  | some n => { s with freed := s.freed + n }
  | none => match l with
    | .mbed => s
    | .wolf => { s with crash := true }

/-- `nc_client_connection_destroy_connection` (nc_client_connection.c:147-166) with
`nc_connections_free_connection` (nc_connection.c:108-122): the listener is told, the events which exist and
the session are destroyed, the connection leaves the list and its two blocks are freed. -/
def St.destroy (l : Lib) (s : St) (c : Conn) : St :=
  let s := { s with told := .closed c.ref :: s.told }
  let s := { s with freed := s.freed + c.keepAlive.toNat }
  let s := s.destroySession l c.dtls
  { s with
    freed := s.freed + c.send.toNat + c.kaSend.toNat + 2
    conns := s.conns.filter (fun d => d.ref != c.ref)
    current := s.current - 1 }

/-- Whether the limit is reached (nc_connection.c:62, 92). -/
def St.full (s : St) : Bool :=
  match s.max with
  | none => false
  | some m => decide (m ≤ s.current)

/-- The first packet of a client: `nc_client_connection_dispatch_handle_packet`
(nc_client_connection_dispatch.c:80-122) with `nc_connections_alloc_client_connection` (nc_connection.c:60-83).
A packet of a known client, or one which does not start a handshake, opens nothing. -/
def St.first (l : Lib) (s : St) (client : Nat) (handshake : Bool) (w : Works) : St :=
  if s.conns.any (fun c => c.client == client) || !handshake then s
  else if s.full then s
  else if !w.block || !w.block2 then
    let n := w.block.toNat + w.block2.toNat
    { s with made := s.made + n, freed := s.freed + n }
  else if !w.ref then { s with made := s.made + 2, freed := s.freed + 2 }
  else
    let r := initConn ⟨s.nextRef, client, false, false, false, none⟩ w
    let s := { s with
      current := s.current + 1, conns := s.conns ++ [r.1], nextRef := s.nextRef + 1, made := s.made + 2 + r.2.1 }
    if r.2.2 then s else s.destroy l r.1

/-- `NP_DTLS_EVENT_HANDSHAKE_COMPLETE` (nc_client_connection.c:173-180) on the connection `ref`. -/
def St.complete (s : St) (ref : Nat) : St :=
  if s.conns.any (fun c => c.ref == ref) then { s with told := .opened ref :: s.told } else s

/-- `NP_DTLS_EVENT_CLOSED` (nc_client_connection.c:171-172) on the connection `ref`. -/
def St.gone (l : Lib) (s : St) (ref : Nat) : St :=
  match s.conns.find? (fun c => c.ref == ref) with
  | none => s
  | some c => s.destroy l c

/-- `nc_connections_deinit` (nc_connection.c:18-35). -/
def St.deinit (l : Lib) (s : St) : St := s.conns.foldl (fun s c => s.destroy l c) s

/-- What can happen. -/
inductive Op
  | first (client : Nat) (handshake : Bool) (w : Works)
  | complete (ref : Nat)
  | gone (ref : Nat)
  | limit (n : Nat)
  | deinit
  deriving DecidableEq, Repr

/-- One operation. -/
def step (l : Lib) (s : St) : Op → St
  | .first c h w => s.first l c h w
  | .complete r => s.complete r
  | .gone r => s.gone l r
  | .limit n => { s with max := some n }
  | .deinit => s.deinit l

/-- A history from any state. -/
def runFrom (l : Lib) (s : St) (ops : List Op) : St := ops.foldl (step l) s

/-- A history. -/
def run (l : Lib) (ops : List Op) : St := runFrom l {} ops

end Verif.Dtls.Accept
