/-!
# Client connections (model)

Model of `src/core/nc_connection.c`, `src/core/nc_client_connection_dispatch.c`,
`src/core/nc_client_connection.c` and the creation and removal of virtual connections in
`src/core/nc_virtual_connection.c`.

The DTLS session of a connection (`np_dtls_srv` / `np_dtls_cli`), the UDP sockets and the memory
allocator are the environment: what the code hands to them is an output, what they hand to the code is
an input. Sockets and endpoints are numbers. The linked list of connections (`nn_llist`, not part of the
repository) is a list. Keep alive timers are modelled in `Verif.Core.KeepAlive`; removing the
connection from the CoAP server and the stream manager is not modelled here. Logging and the socket
error codes are left out.
-/

namespace Verif.Core.Conn

abbrev Bytes := List UInt8

/-- `struct nc_connection_channel` (nc_client_connection.h:23-27). -/
structure Channel where
  sock : Nat
  ep : Nat
  id : UInt8
deriving DecidableEq, Repr

/-- The part of `struct nc_client_connection` (nc_client_connection.h:33-60) which is modelled; `hdr` is
the field `id`, `sending` says that `sentCb` is not `NULL`. -/
structure Client where
  hdr : Bytes
  cur : Channel
  alt : Channel
  maxSeq : Nat
  sending : Bool
deriving DecidableEq, Repr

/-- `struct nc_connection` (nc_connection.h:22-34); `client` is `none` for a virtual connection. The
fields of the password authentication are modelled in `Verif.Core.Spake2`. -/
structure Conn where
  ref : Nat
  client : Option Client
deriving DecidableEq, Repr

/-- `struct nc_connections_context` (nc_connection.h:36-45), `connectionRef` of the device and
`sendingInternalError` of the dispatcher (nc_client_connection_dispatch.h:17-26). `clientOnly` is the
build option `NABTO_DEVICE_DTLS_CLIENT_ONLY`. -/
structure Ctx where
  clientOnly : Bool
  conns : List Conn
  max : Nat
  current : Nat
  closing : Bool
  closeCb : Bool
  lastRef : Nat
  sendingInternalError : Bool
deriving DecidableEq, Repr

/-- `enum nc_connection_event` (nc_connection_event.h). -/
inductive ConnEvent where
  | opened | closed | channelChanged
deriving DecidableEq, Repr

/-- Which part of the device gets the data of a connection (nc_client_connection.c:208-219). -/
inductive Kind where
  | stream | coap | keepAlive | unknown
deriving DecidableEq, Repr

/-- Everything the code does to its environment. -/
inductive Out where
  /-- a connection has been created (nc_client_connection_dispatch.c:108), `none` for a virtual one -/
  | created (ref : Nat) (hdr : Option Bytes)
  /-- a connection event is given to the listeners -/
  | event (ref : Nat) (e : ConnEvent)
  /-- a received packet is given to the DTLS session of a connection, with a channel id -/
  | toDtls (ref : Nat) (channel : UInt8) (data : Bytes)
  /-- the DTLS handshake is started by the device (only in the client only build) -/
  | dtlsConnect (ref : Nat)
  /-- a datagram is sent -/
  | udp (sock ep : Nat) (data : Bytes)
  /-- decrypted data is given to a part of the device -/
  | app (ref : Nat) (k : Kind) (channel : UInt8) (data : Bytes)
  /-- the DTLS session is told that its packet has been sent -/
  | sent (ref : Nat)
  /-- the DTLS session is told that a packet is being sent already -/
  | refused (ref : Nat)
  /-- the DTLS session of a connection is asked to close -/
  | dtlsClose (ref : Nat)
  /-- the callback given to `nc_connections_async_close` is called -/
  | closeDone
  /-- `nc_connections_async_close` returns `NABTO_EC_STOPPED`: nothing had to be closed -/
  | closeNothing
deriving DecidableEq, Repr

/-- `nc_connections_init` and `nc_client_connection_dispatch_init` (nc_connection.c:9-16,
nc_client_connection_dispatch.c:15-30); `maxConcurrentConnections` is `SIZE_MAX`. -/
def init (clientOnly : Bool) : Ctx :=
  { clientOnly, conns := [], max := 2 ^ 64 - 1, current := 0, closing := false, closeCb := false,
    lastRef := 0, sendingInternalError := false }

/-- `nc_device_next_connection_ref` (nc_device.c:487-497): the 64 bit counter, and the reference unless
the counter wrapped. -/
def nextRef (c : Ctx) : Ctx × Option Nat :=
  let new := (c.lastRef + 1) % 2 ^ 64
  ({ c with lastRef := new }, if c.lastRef > new then none else some new)

/-- `nc_connections_alloc_client_connection` and `nc_connections_alloc_virtual_connection`
(nc_connection.c:61-109) with `nc_connection_init` (nc_connection.c:168-181). `mem` says whether the two
allocations succeed. The connection is appended with its implementation not yet initialised. -/
def alloc (c : Ctx) (mem : Bool) (client : Option Client) : Ctx × Option Nat :=
  if c.current ≥ c.max then (c, none)
  else if !mem then (c, none)
  else
    match nextRef c with
    | (c, none) => (c, none)
    | (c, some ref) =>
      ({ c with current := c.current + 1, conns := c.conns ++ [⟨ref, client⟩] }, some ref)

/-- `nc_connections_free_connection` (nc_connection.c:111-125). -/
def free (c : Ctx) (ref : Nat) : Ctx × List Out :=
  let c := { c with conns := c.conns.filter (fun k => k.ref ≠ ref), current := c.current - 1 }
  if c.closing ∧ c.current ≤ 0 then
    ({ c with closeCb := false }, if c.closeCb then [.closeDone] else [])
  else (c, [])

/-- `nc_client_connection_destroy_connection` (nc_client_connection.c:147-166) and
`nc_virtual_connection_destroy` (nc_virtual_connection.c:21-30). -/
def destroy (c : Ctx) (ref : Nat) : Ctx × List Out :=
  let (c, os) := free c ref
  (c, .event ref .closed :: os)

/-- `memcmp(id+1, cliConn->id.id+1, 14) == 0` (nc_connection.c:155): the argument is a pointer to a
header, the first byte is skipped. -/
def sameId (hdr hdr' : Bytes) : Bool := (hdr.drop 1).take 14 == (hdr'.drop 1).take 14

/-- `nc_connections_connection_from_id` (nc_connection.c:148-161). -/
def fromId (c : Ctx) (hdr : Bytes) : Option Conn :=
  c.conns.find? fun k =>
    match k.client with
    | some cl => sameId hdr cl.hdr
    | none => false

/-- Change the client connection `ref`. -/
def update (c : Ctx) (ref : Nat) (f : Client → Client) : Ctx :=
  { c with conns := c.conns.map fun k => if k.ref = ref then { k with client := k.client.map f } else k }

/-- `nc_connections_connection_from_ref` (nc_connection.c:127-136), for client connections. -/
def clientOf (c : Ctx) (ref : Nat) : Option Client :=
  match c.conns.find? (fun k => k.ref = ref) with
  | some k => k.client
  | none => none

/-- The alert which tells a client that there is no room for it
(nc_client_connection_dispatch.c:58-71). -/
def internalError (packet : Bytes) : Bytes :=
  packet.take 16 ++ [21, 0xfe, 0xfd] ++ [0, 0, 0, 0, 0, 0, 0, 0] ++ [0, 2, 2, 80]

/-- `nc_client_connection_dispatch_send_internal_error` (nc_client_connection_dispatch.c:46-77). -/
def sendInternalError (c : Ctx) (sock ep : Nat) (packet : Bytes) : Ctx × List Out :=
  if c.sendingInternalError then (c, [])
  else if packet.length < 16 then (c, [])
  else ({ c with sendingInternalError := true }, [.udp sock ep (internalError packet)])

/-- The client connection made by `nc_client_connection_init` (nc_client_connection.c:41-56). -/
def newClient (sock ep : Nat) (packet : Bytes) (h : 16 ≤ packet.length) : Client :=
  let ch : Channel := ⟨sock, ep, packet[15]⟩
  { hdr := packet.take 16, cur := ch, alt := ch, maxSeq := 0, sending := false }

/-- `nc_client_connection_handle_packet` (nc_client_connection.c:105-136): note the channel id given to
the DTLS session (line 131 and line 133). -/
def clientPacket (c : Ctx) (ref : Nat) (cl : Client) (sock ep : Nat) (channel : UInt8) (packet : Bytes) :
    Ctx × List Out :=
  let c' := update c ref fun cl =>
    if channel ≠ cl.cur.id then { cl with alt := ⟨sock, ep, channel⟩ }
    else { cl with cur := ⟨sock, ep, cl.cur.id⟩ }
  (c', [.toDtls ref (if c.clientOnly then channel else cl.cur.id) (packet.drop 16)])

/-- `nc_client_connection_start` (nc_client_connection.c:91-103). -/
def start (c : Ctx) (ref : Nat) (channel : UInt8) (packet : Bytes) : List Out :=
  if c.clientOnly then [.dtlsConnect ref] else [.toDtls ref channel (packet.drop 16)]

/-- The branch of `nc_client_connection_dispatch_handle_packet` for a packet which opens a connection
(nc_client_connection_dispatch.c:103-119). `mem` and `initOk` say whether allocating and initialising the
new connection succeeds. -/
def openNew (c : Ctx) (sock ep : Nat) (packet : Bytes) (cl : Client) (mem initOk : Bool) :
    Ctx × List Out :=
  match alloc c mem (some cl) with
  | (c, none) => sendInternalError c sock ep packet
  | (c, some ref) =>
    if initOk then (c, .created ref (some cl.hdr) :: start c ref cl.cur.id packet)
    else
      let (c, os) := sendInternalError c sock ep packet
      let (c, os') := destroy c ref
      (c, os ++ os')

/-- `nc_client_connection_dispatch_handle_packet` (nc_client_connection_dispatch.c:82-121). -/
def handlePacket (c : Ctx) (sock ep : Nat) (packet : Bytes) (mem initOk : Bool) : Ctx × List Out :=
  if h : packet.length < 17 then (c, [])
  else
    match fromId c packet with
    | some ⟨ref, some cl⟩ => clientPacket c ref cl sock ep packet[15] packet
    | some ⟨_, none⟩ => (c, [])
    | none =>
      if packet[16] = 22 then
        openNew c sock ep packet (newClient sock ep packet (by omega)) mem initOk
      else (c, [])

/-- Which part of the device gets data starting with this byte (nc_client_connection.c:208-219,
nc_protocol_defines.h:9-14). -/
def kindOf (b : UInt8) : Kind :=
  if b = 5 then .stream
  else if b ≥ 0x40 ∧ b ≤ 0x7f then .coap
  else if b = 4 then .keepAlive
  else .unknown

/-- `nc_client_connection_handle_data` (nc_client_connection.c:184-220): data which the DTLS session has
authenticated. `none`: the first byte of an empty buffer is read. -/
def handleData (c : Ctx) (ref : Nat) (cl : Client) (channel : UInt8) (seq : Nat) (data : Bytes) :
    Option (Ctx × List Out) :=
  match data with
  | [] => none
  | b :: _ =>
    if b ≠ 4 ∧ seq > cl.maxSeq then
      if cl.cur.id ≠ channel ∧ cl.alt.id = channel then
        some (update c ref (fun cl => { cl with maxSeq := seq, cur := cl.alt }),
          [.event ref .channelChanged, .app ref (kindOf b) channel data])
      else
        some (update c ref (fun cl => { cl with maxSeq := seq }), [.app ref (kindOf b) channel data])
    else some (c, [.app ref (kindOf b) channel data])

/-- `NP_DTLS_DEFAULT_CHANNEL_ID` (np_dtls.h:6). -/
def defaultChannel : UInt8 := 0xff

/-- `nc_client_connection_async_send_to_udp` (nc_client_connection.c:339-369): the DTLS session sends a
packet. The space for the header in front of the packet is not modelled. -/
def sendToUdp (c : Ctx) (ref : Nat) (cl : Client) (channel : UInt8) (data : Bytes) : Ctx × List Out :=
  if cl.sending then (c, [.refused ref])
  else
    let c := update c ref fun cl => { cl with sending := true }
    if channel = cl.cur.id ∨ channel = defaultChannel then
      (c, [.udp cl.cur.sock cl.cur.ep (cl.hdr.take 15 ++ [cl.cur.id] ++ data)])
    else if channel = cl.alt.id then
      (c, [.udp cl.alt.sock cl.alt.ep (cl.hdr.take 15 ++ [cl.alt.id] ++ data)])
    else (c, [])

/-- `nc_client_connection_send_to_udp_cb` (nc_client_connection.c:324-337). -/
def sentToUdp (c : Ctx) (ref : Nat) (cl : Client) : Ctx × List Out :=
  if cl.sending then (update c ref (fun cl => { cl with sending := false }), [.sent ref]) else (c, [])

/-- The loop of `nc_connections_async_close` (nc_connection.c:42-52) over the connections which existed
when it started. `sync` tells which DTLS sessions close at once, that is, call back with
`NP_DTLS_EVENT_CLOSED` while they are asked to close (nm_mbedtls_srv.c:489-505). -/
def closeLoop (sync : Nat → Bool) : List Conn → Ctx → Ctx × List Out
  | [], c => (c, [])
  | k :: ks, c =>
    if k.client.isSome then
      let (c, os) := if sync k.ref then destroy c k.ref else (c, [])
      let (c, os') := closeLoop sync ks c
      (c, .dtlsClose k.ref :: os ++ os')
    else closeLoop sync ks c

/-- `nc_connections_async_close` (nc_connection.c:37-59); `cb` says whether the callback is not `NULL`.
The callback is stored after the connections have been told to close. -/
def asyncClose (c : Ctx) (cb : Bool) (sync : Nat → Bool) : Ctx × List Out :=
  let c := { c with closing := true }
  let (c', os) := closeLoop sync c.conns c
  if c.conns.any (fun k => k.client.isSome) then ({ c' with closeCb := cb }, os)
  else (c', os ++ [.closeNothing])

/-- What can happen. -/
inductive Op where
  /-- a datagram arrives -/
  | packet (sock ep : Nat) (data : Bytes) (mem initOk : Bool)
  /-- the DTLS session of a connection delivers data -/
  | data (ref : Nat) (channel : UInt8) (seq : Nat) (data : Bytes)
  /-- the DTLS session of a connection has completed the handshake -/
  | handshakeDone (ref : Nat)
  /-- the DTLS session of a connection is closed -/
  | dtlsClosed (ref : Nat)
  /-- the DTLS session of a connection sends a packet -/
  | dtlsSend (ref : Nat) (channel : UInt8) (data : Bytes)
  /-- the packet of a connection has been sent -/
  | udpSent (ref : Nat)
  /-- the alert has been sent -/
  | internalErrorSent
  /-- the application makes a virtual connection -/
  | newVirtual (mem : Bool)
  /-- the application frees a virtual connection -/
  | freeVirtual (ref : Nat)
  /-- `nabto_device_limit_connections` -/
  | setMax (n : Nat)
  /-- the device is closed (`nc_device_close`, nc_device.c:468-485, with a callback) or stopped
  (`nc_device_stop`, nc_device.c:454-466, without) -/
  | close (cb : Bool) (sync : Nat → Bool)

/-- One event. Events of connections which do not exist are ignored, they cannot happen as long as the
DTLS session of a freed connection is silent. `none` is undefined behaviour. -/
def step (c : Ctx) : Op → Option (Ctx × List Out)
  | .packet sock ep data mem initOk => some (handlePacket c sock ep data mem initOk)
  | .data ref channel seq data =>
    match clientOf c ref with
    | some cl => handleData c ref cl channel seq data
    | none => some (c, [])
  | .handshakeDone ref =>
    match clientOf c ref with
    | some _ => some (c, [.event ref .opened])
    | none => some (c, [])
  | .dtlsClosed ref =>
    match clientOf c ref with
    | some _ => some (destroy c ref)
    | none => some (c, [])
  | .dtlsSend ref channel data =>
    match clientOf c ref with
    | some cl => some (sendToUdp c ref cl channel data)
    | none => some (c, [])
  | .udpSent ref =>
    match clientOf c ref with
    | some cl => some (sentToUdp c ref cl)
    | none => some (c, [])
  | .internalErrorSent => some ({ c with sendingInternalError := false }, [])
  | .newVirtual mem =>
    match alloc c mem none with
    | (c, none) => some (c, [])
    | (c, some ref) => some (c, [.created ref none, .event ref .opened])
  | .freeVirtual ref =>
    if c.conns.any (fun k => k.ref = ref ∧ k.client = none) then some (destroy c ref) else some (c, [])
  | .setMax n => some ({ c with max := n }, [])
  | .close cb sync => some (asyncClose c cb sync)

/-- A history: the state and everything the code has done. -/
def run (c : Ctx) : List Op → Option (Ctx × List Out)
  | [] => some (c, [])
  | op :: ops =>
    match step c op with
    | none => none
    | some (c, os) =>
      match run c ops with
      | none => none
      | some (c, os') => some (c, os ++ os')

end Verif.Core.Conn
