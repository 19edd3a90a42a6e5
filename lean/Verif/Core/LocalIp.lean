import Verif.Core.Payloads

/-!
# The local addresses of a device

Model of `get_local_ips` (src/modules/unix/nm_unix_local_ip.c:26-106 and src/modules/libevent/nm_libevent_get_local_ip.c:51-131, which do
the same), of `np_local_ip_get_local_ips` (src/platform/np_local_ip_wrapper.c:8-15), and of what is made of the addresses:
`nm_mdns_update_local_ips` (src/modules/mdns/nm_mdns_server.c:246-264) and `nc_rendezvous_endpoints_completed`
(src/core/nc_stun_coap.c:86-165).

The system is its interfaces and its routes: connecting a datagram socket succeeds if a route covers the destination, and the socket then
has the source address of the first such route. Other failures of `connect` and failures of `getsockname` are outcomes too. `memcmp`
with the wildcard address is a comparison with zeros.
-/

namespace Verif.Core.LocalIp
open Verif.Cbor
open Verif.Net.Addr (Ip Family Endpoint)

/-- A route: the destinations it covers, and the address of the device it is used with. -/
structure Route where
  covers : Ip → Bool
  source : Ip

/-- The system: addresses of the interfaces, routes in the order of preference, and the outcomes of `socket`, `connect` (if there is a
route) and `getsockname`. -/
structure Sys where
  addrs : List Ip
  routes : List Route
  socketOk : Family → Bool := fun _ => true
  connectOk : Family → Bool := fun _ => true
  nameOk : Family → Bool := fun _ => true

/-- The route to a destination. -/
def Sys.route (s : Sys) (d : Ip) : Option Ip := (s.routes.find? fun r => r.covers d).map (·.source)

/-- `8.8.8.8`. -/
def probe4 : Ip := .v4 8 8 8 8

/-- `2001:4860:4860::8888`. -/
def probe6 : Ip := .v6 #v[0x20, 0x01, 0x48, 0x60, 0x48, 0x60, 0, 0, 0, 0, 0, 0, 0, 0, 0x88, 0x88]

/-- `INADDR_ANY` and `in6addr_any`. -/
def Ip.isAny : Ip → Bool
  | .v4 a b c d => a = 0 && b = 0 && c = 0 && d = 0
  | .v6 v => v = Vector.replicate 16 0

/-- The array of the caller, the index `ind`, and the sockets which are open. -/
structure St where
  room : Nat
  found : List Ip := []
  opened : Nat := 0

/-- `addrs[ind] = ..; ind++`: `none` if the index is outside of the array. -/
def St.put (s : St) (a : Ip) : Option St := if s.found.length < s.room then some { s with found := s.found ++ [a] } else none

/-- One family, nm_unix_local_ip.c:39-70 and 74-104. -/
def probe (sys : Sys) (f : Family) (dest : Ip) (s : St) : Option St :=
  if !sys.socketOk f then some s
  else
    let s := { s with opened := s.opened + 1 }
    let after : Option St :=
      match sys.route dest with
      | none => some s
      | some a =>
        if !sys.connectOk f || !sys.nameOk f then some s
        else if Ip.isAny a then some s
        else s.put a
    after.map fun s => { s with opened := s.opened - 1 }

/-- `get_local_ips`. -/
def getLocalIps (sys : Sys) (size : Nat) : Option St :=
  if size < 1 then some { room := size }
  else (probe sys .v4 probe4 { room := size }).bind fun s =>
    if size < s.found.length + 1 then some s else probe sys .v6 probe6 s

/-- `np_local_ip_get_local_ips`: a platform may have no implementation. -/
def localIps (impl : Bool) (sys : Sys) (size : Nat) : Option St := if impl then getLocalIps sys size else some { room := size }

/-- `nm_mdns_update_local_ips`: the addresses which are announced; both arrays have two elements. -/
def mdnsIps (impl : Bool) (sys : Sys) : Option (List Ip) := (localIps impl sys 2).map (·.found)

/-- The endpoints of the answer to `GET /p2p/endpoints`, nc_stun_coap.c:98-122, in an array of three: the local addresses with the port
of the socket, and the endpoint of the analysis if it succeeded. -/
def answerEndpoints (impl : Bool) (sys : Sys) (port : UInt16) (stun : Option Endpoint) : Option (List Endpoint) :=
  (localIps impl sys 2).bind fun s =>
    let eps := s.found.map fun ip => { ip, port : Endpoint }
    match stun with
    | none => if eps.length ≤ 3 then some eps else none
    | some e => if eps.length < 3 then some (eps ++ [e]) else none

/-- The payload of the answer, nc_stun_coap.c:124-150. -/
def answer (alloc : Nat → Bool) (impl : Bool) (sys : Sys) (port : UInt16) (stun : Option Endpoint) : Payloads.Built :=
  match answerEndpoints impl sys port stun with
  | none => .ub
  | some l => Payloads.build alloc (Payloads.endpoints l)

end Verif.Core.LocalIp
