import Verif.Core.Conn

/-!
# Rendezvous packets (model, C49)

Model of `src/core/nc_rendezvous.c` and of the part of `src/core/nc_rendezvous_coap.c` which follows the
decoding of the payload (decoding is modelled in `Verif.Core.CborUse`). UDP sockets and endpoints are
numbers. Allocation of the communication buffer and the completion of a send are inputs.
-/

namespace Verif.Core.Rendezvous
open Verif.Core.Conn (Bytes)

/-- `NC_RENDEZVOUS_SEND_QUEUE_LENGTH` (nc_rendezvous.h:12). -/
def queueLength : Nat := 10

/-- `NABTO_PROTOCOL_PREFIX_RENDEZVOUS` (nc_protocol_defines.h:6). -/
def prefixByte : UInt8 := 241

/-- The types of rendezvous packets: `CT_RENDEZVOUS_CLIENT_REQUEST`, `CT_RENDEZVOUS_CLIENT_RESPONSE`,
`CT_RENDEZVOUS_DEVICE_REQUEST`, `CT_RENDEZVOUS_PING_REQUEST` and `CT_RENDEZVOUS_PING_RESPONSE`
(nc_protocol_defines.h:21-27). -/
def clientRequest : UInt8 := 1
def clientResponse : UInt8 := 2
def deviceRequest : UInt8 := 3
def pingRequest : UInt8 := 4
def pingResponse : UInt8 := 5

/-- `struct nc_rendezvous_send_packet` (nc_rendezvous.h:17-23). `sock` is `none` for a `NULL` `udpDispatch`. -/
structure Pkt where
  type : UInt8
  id : Bytes
  channel : UInt8
  sock : Option Nat
  ep : Nat
deriving DecidableEq, Repr

/-- A packet in the queue has a socket. -/
structure Queued where
  type : UInt8
  id : Bytes
  channel : UInt8
  sock : Nat
  ep : Nat
deriving DecidableEq, Repr

/-- `struct nc_rendezvous_context` (nc_rendezvous.h:25-34): `busy` says that `sendBuffer` is not `NULL`,
`queue` is `packetList` up to `packetIndex`. `sendingDevReqs` is not used by the code. -/
structure Ctx where
  busy : Bool
  dflt : Option Nat
  queue : List Queued
deriving DecidableEq, Repr

/-- A call of `nc_udp_dispatch_async_send_to`. -/
structure Send where
  sock : Nat
  ep : Nat
  bytes : Bytes
deriving DecidableEq, Repr

/-- `nc_rendezvous_init` (nc_rendezvous.c:18-33). -/
def init : Ctx := { busy := false, dflt := none, queue := [] }

/-- The datagram for a packet (nc_rendezvous.c:89-101). -/
def encode (p : Queued) : Bytes := prefixByte :: p.id ++ [p.channel, p.type]

/-- `nc_rendezvous_send_device_request` (nc_rendezvous.c:63-105); `alloc` says whether the allocation of
the buffer succeeds. The last packet of the queue is sent. -/
def sendNext (c : Ctx) (alloc : Bool) : Ctx × List Send :=
  if c.busy then (c, [])
  else
    match c.queue.getLast? with
    | none => (c, [])
    | some p =>
      if !alloc then ({ c with queue := [] }, [])
      else ({ c with busy := true, queue := c.queue.dropLast }, [⟨p.sock, p.ep, encode p⟩])

/-- Result of a step: `none` is a write outside `packetList`. -/
abbrev Out := Option (Ctx × List Send)

/-- The assignment `packetList[packetIndex] = *packet` with the increment (nc_rendezvous.c:123-124). -/
def push (c : Ctx) (p : Queued) : Option Ctx :=
  if c.queue.length < queueLength then some { c with queue := c.queue ++ [p] } else none

/-- The socket for a packet: its own, or else the default (nc_rendezvous.c:114-121). -/
def sockFor (own dflt : Option Nat) : Option Nat :=
  match own with
  | some s => some s
  | none => dflt

/-- `nc_rendezvous_send_rendezvous` (nc_rendezvous.c:107-126). -/
def sendRendezvous (c : Ctx) (p : Pkt) (alloc : Bool) : Out :=
  if c.queue.length ≥ queueLength then some (c, [])
  else
    match sockFor p.sock c.dflt with
    | none => some (c, [])
    | some s =>
      match push c ⟨p.type, p.id, p.channel, s, p.ep⟩ with
      | none => none
      | some c => some (sendNext c alloc)

/-- `nc_client_connection_dispatch_validate_connection_id` (nc_client_connection_dispatch.c:131-137). The
argument is handed to `nc_connections_connection_from_id`, which skips the first byte. -/
def validateId (conns : Conn.Ctx) (id : Bytes) : Bool := (Conn.fromId conns id).isSome

/-- `nc_rendezvous_handle_packet` (nc_rendezvous.c:128-160). -/
def handlePacket (c : Ctx) (conns : Conn.Ctx) (sock ep : Nat) (buf : Bytes) (alloc : Bool) : Out :=
  if buf.length < 17 then some (c, [])
  else
    match buf[16]?, buf[15]? with
    | some type, some channel =>
      if type = clientRequest then
        if validateId conns (buf.drop 1) then
          sendRendezvous c ⟨clientResponse, (buf.drop 1).take 14, channel, some sock, ep⟩ alloc
        else some (c, [])
      else if type = pingRequest then
        sendRendezvous c ⟨pingResponse, (buf.drop 1).take 14, channel, some sock, ep⟩ alloc
      else some (c, [])
    | _, _ => none

/-- The loop of `handle_rendezvous_payload` over the endpoints of a request
(nc_rendezvous_coap.c:39-109), each with the outcome of the allocation; `id` is what
`nc_coap_server_context_request_get_connection_id` (nc_coap_server.c:178-187) has copied. The local
packet keeps the socket which has been filled in for the first endpoint. -/
def sendAll (c : Ctx) (id : Bytes) (sock : Option Nat) : List (Nat × Bool) → Out
  | [] => some (c, [])
  | (ep, alloc) :: eps => do
    let (c1, s1) ← sendRendezvous c ⟨deviceRequest, id, 0, sock, ep⟩ alloc
    let sock := if c.queue.length ≥ queueLength then sock else sockFor sock c.dflt
    let (c2, s2) ← sendAll c1 id sock eps
    return (c2, s1 ++ s2)

/-- What happens to the module. -/
inductive Op where
  /-- A rendezvous datagram, with the connections at this time. -/
  | datagram (conns : Conn.Ctx) (sock ep : Nat) (buf : Bytes) (alloc : Bool)
  /-- A CoAP request of the connection with this id, with its endpoints. -/
  | request (id : Bytes) (eps : List (Nat × Bool))
  /-- The socket has sent the packet, or failed to do so: `nc_rendezvous_packet_sent`
  (nc_rendezvous.c:53-61). -/
  | sent (alloc : Bool)
  /-- `nc_rendezvous_set_udp_dispatch` and `nc_rendezvous_remove_udp_dispatch` (nc_rendezvous.c:43-51). -/
  | dflt (sock : Option Nat)

/-- One event. There is no completion without a send. -/
def step (c : Ctx) : Op → Out
  | .datagram conns sock ep buf alloc => handlePacket c conns sock ep buf alloc
  | .request id eps => sendAll c id none eps
  | .sent alloc => if c.busy then some (sendNext { c with busy := false } alloc) else some (c, [])
  | .dflt sock => some ({ c with dflt := sock }, [])

/-- A history. -/
def run (c : Ctx) : List Op → Out
  | [] => some (c, [])
  | op :: ops => do
    let (c1, s1) ← step c op
    let (c2, s2) ← run c1 ops
    return (c2, s1 ++ s2)

end Verif.Core.Rendezvous
