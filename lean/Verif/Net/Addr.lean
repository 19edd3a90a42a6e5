import Verif.Core.Dispatch

/-!
# Addresses of UDP packets and TCP connections

Model of the conversions between the endpoints of the library and the socket addresses of the system:
`udp_send_to`, `udp_recv_from` (src/modules/libevent/nm_libevent_udp.c:281-366,
src/modules/select_unix/nm_select_unix_udp.c:276-367), `udp_bind_port`/`bind_port`, and the connect functions
(src/modules/libevent/nm_libevent_tcp.c:219-260, src/modules/select_unix/nm_select_unix_tcp.c:135-251).

`nn_ip_is_v4_mapped`, `nn_ip_convert_v4_to_v4_mapped` and `nn_ip_convert_v4_mapped_to_v4` are in the library nabto-common, which is
not in /repo; they are taken to be what their names and RFC 4291 (section 2.5.5.2) say. Flow labels are left out: the code sets
them to zero.
-/

namespace Verif.Net.Addr

/-- `struct np_ip_address`, which is `struct nn_ip_address` of nabto-common (src/platform/np_ip_address.h:15-19): the bytes in
network order. -/
inductive Ip where
  | v4 (a b c d : UInt8)
  | v6 (bytes : Vector UInt8 16)
deriving DecidableEq

/-- `enum np_ip_address_type`. -/
inductive Family where
  | v4
  | v6
deriving DecidableEq, Repr

def Ip.family : Ip → Family
  | .v4 .. => .v4
  | .v6 _ => .v6

/-- `struct np_udp_endpoint`, src/platform/interfaces/np_udp.h. -/
structure Endpoint where
  ip : Ip
  port : UInt16
deriving DecidableEq

/-- `struct sockaddr_in` and `struct sockaddr_in6`; the port is two bytes in network order. -/
inductive Sockaddr where
  | in4 (port : UInt8 × UInt8) (addr : Vector UInt8 4)
  | in6 (port : UInt8 × UInt8) (addr : Vector UInt8 16) (scope : UInt32)
deriving DecidableEq

/-- `htons`: the bytes of a number in network order. C library. -/
def htons (p : UInt16) : UInt8 × UInt8 := ((p >>> 8).toUInt8, p.toUInt8)

/-- `ntohs`. C library. -/
def ntohs (b : UInt8 × UInt8) : UInt16 := (b.1.toUInt16 <<< 8) ||| b.2.toUInt16

/-- `nn_ip_convert_v4_to_v4_mapped`: library, by RFC 4291. -/
def toMapped (a b c d : UInt8) : Vector UInt8 16 := #v[0, 0, 0, 0, 0, 0, 0, 0, 0, 0, 255, 255, a, b, c, d]

/-- `nn_ip_is_v4_mapped`: library, by RFC 4291. -/
def isMapped (v : Vector UInt8 16) : Bool := decide (v.toList.take 12 = [0, 0, 0, 0, 0, 0, 0, 0, 0, 0, 255, 255])

/-- The choice of the address in `udp_send_to`, nm_libevent_udp.c:287-299, nm_select_unix_udp.c:282-293. -/
def sendIp (sock : Family) (ip : Ip) : Option Ip :=
  if sock = ip.family then some ip
  else match sock, ip with
    | .v6, .v4 a b c d => some (.v6 (toMapped a b c d))
    | .v4, .v6 v => if isMapped v then some (.v4 v[12] v[13] v[14] v[15]) else none
    | _, _ => none

/-- The socket address of an address and a port: nm_libevent_udp.c:302-315, nm_select_unix_udp.c:296-310,
nm_libevent_tcp.c:229-243, nm_select_unix_tcp.c:206-224. The scope is always zero. -/
def sockaddr (ip : Ip) (port : UInt16) : Sockaddr :=
  match ip with
  | .v4 a b c d => .in4 (htons port) #v[a, b, c, d]
  | .v6 v => .in6 (htons port) v 0

/-- `udp_send_to` up to `sendto`; `none`: the packet is refused. -/
def sendTo (sock : Family) (ep : Endpoint) : Option Sockaddr := (sendIp sock ep.ip).map fun ip => sockaddr ip ep.port

/-- `udp_recv_from` after `recvfrom`, nm_libevent_udp.c:343-357, nm_select_unix_udp.c:340-354: the endpoint which is reported for
the address of the sender. The system gives addresses of the family of the socket. -/
def recvFrom : Sockaddr → Endpoint
  | .in6 port addr _ => { ip := .v6 addr, port := ntohs port }
  | .in4 port addr => { ip := .v4 addr[0] addr[1] addr[2] addr[3], port := ntohs port }

/-- The family of the socket on which the system gives such an address. -/
def Sockaddr.family : Sockaddr → Family
  | .in4 .. => .v4
  | .in6 .. => .v6

/-- The address a TCP socket is connected to, nm_libevent_tcp.c:229-243, nm_select_unix_tcp.c:145-151,206-224: the socket is of the
family of the address. -/
def connectTo (ip : Ip) (port : UInt16) : Sockaddr := sockaddr ip port

/-- The platform. -/
inductive Impl where
  | libevent
  | select
deriving DecidableEq, Repr

/-- `errno` after a call which failed. -/
inductive Errno where
  | again
  | addrNotAvail
  | netUnreach
  | afNoSupport
  | hostUnreach
  | intr
  | noBufs
  | noMem
  | other (n : Nat)
deriving DecidableEq, Repr

/-- `ERR_IS_EXPECTED`, src/modules/libevent/nm_libevent_types.h:36 (not the one for Windows). -/
def Errno.expected : Errno → Bool
  | .addrNotAvail | .netUnreach | .afNoSupport | .hostUnreach => true
  | _ => false

/-- What `recvfrom` gives. -/
inductive RecvSys where
  | packet (from_ : Sockaddr) (bytes : List UInt8)
  | failed (e : Errno)

/-- The result of `np_udp_recv_from` in the words of the receive loop: nm_libevent_udp.c:336-367, nm_select_unix_udp.c:337-367.
`NABTO_EC_ABORTED` is never returned. -/
def recvResult (impl : Impl) : RecvSys → Verif.Core.Dispatch.Recv
  | .packet _ d => .datagram d
  | .failed e =>
    match impl with
    | .libevent => if e = .again || e.expected then .again else .error
    | .select => if e = .again then .again else .error

/-- The results of `async_send_to`. -/
inductive SendEc where
  | ok
  | failedToSend
  | failed
deriving DecidableEq, Repr

/-- `udp_send_to`, nm_libevent_udp.c:281-334, nm_select_unix_udp.c:276-335: the address given to `sendto`, if it is called, and the
result. `sys` is the outcome of `sendto`. -/
def send (impl : Impl) (sock : Family) (ep : Endpoint) (sys : Option Errno) : Option Sockaddr × SendEc :=
  match sendTo sock ep with
  | none => (none, match impl with | .libevent => .failedToSend | .select => .failed)
  | some a =>
    (some a,
      match sys with
      | none => .ok
      | some e =>
        match impl with
        | .libevent => if e = .again then .ok else .failedToSend
        | .select => .failedToSend)

end Verif.Net.Addr
