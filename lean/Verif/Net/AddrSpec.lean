import Verif.Net.Addr

/-!
# Addresses: specification

A host on the network: an IPv4 address, or an IPv6 address with the link on which it is meant (scope 0: the system chooses). An
IPv4-mapped IPv6 address (RFC 4291) means the IPv4 host.
-/

namespace Verif.Net.Addr.Spec

open Verif.Net.Addr

inductive Host where
  | ipv4 (bytes : List Nat)
  | ipv6 (bytes : List Nat) (link : Nat)
deriving DecidableEq

/-- The host which sixteen bytes mean. -/
def hostOf6 (bytes : List Nat) (link : Nat) : Host :=
  if bytes.take 12 = List.replicate 10 0 ++ [255, 255] then .ipv4 (bytes.drop 12) else .ipv6 bytes link

/-- The host and port which an endpoint of the library means. -/
def endpoint : Endpoint → Host × Nat
  | { ip := .v4 a b c d, port } => (.ipv4 [a.toNat, b.toNat, c.toNat, d.toNat], port.toNat)
  | { ip := .v6 v, port } => (hostOf6 (v.toList.map UInt8.toNat) 0, port.toNat)

/-- The host and port which a socket address means: the port is big endian. -/
def sockaddr : Sockaddr → Host × Nat
  | .in4 port addr => (.ipv4 (addr.toList.map UInt8.toNat), 256 * port.1.toNat + port.2.toNat)
  | .in6 port addr scope =>
    (hostOf6 (addr.toList.map UInt8.toNat) scope.toNat, 256 * port.1.toNat + port.2.toNat)

/-- An IPv4 host. -/
def Host.isV4 : Host → Bool
  | .ipv4 _ => true
  | .ipv6 .. => false

/-- The link of a host. -/
def Host.link : Host → Nat
  | .ipv4 _ => 0
  | .ipv6 _ l => l

/-- The errors after which a socket can still be used, src/platform/interfaces/np_udp.h:36-41: "temporary memory issues and network
connectivity issues. Examples: ENOBUFS, ENOMEM, EAGAIN, EWOULDBLOCK, etc.", and an interrupted call. -/
def transient : Errno → Bool
  | .again | .addrNotAvail | .netUnreach | .afNoSupport | .hostUnreach | .intr | .noBufs | .noMem => true
  | .other _ => false

end Verif.Net.Addr.Spec
