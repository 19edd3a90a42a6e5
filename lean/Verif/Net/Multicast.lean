/-!
# On which networks the mDNS server hears queries — model

The sockets of the mDNS server join the group of mDNS on the networks of the device when they are bound:
`nm_select_unix_mdns_udp_bind.c`, `nm_libevent_mdns_udp_bind.c` and `nm_unix_mdns.c`, which do the same for IPv4 and IPv6.

Simplifications: the kernel is modelled after the documentation of `IP_ADD_MEMBERSHIP` and `IPV6_JOIN_GROUP`: a socket has a set
of interfaces on which it joined, joining twice fails with `EADDRINUSE`, the number of groups is limited
(`igmp_max_memberships`), an interface can refuse, and joining without an interface takes the one of the default route. When
an interface goes away its memberships are gone. A query is delivered to sockets which joined on the interface it came
from; that Linux delivers it to others too, once some program joined there, is left out. What is written to the log is left
out. The numbers of interfaces are not larger than an `int` (comment in line 226).
-/

namespace Verif.Net.Multicast

/-- An entry of `getifaddrs`. An interface has one entry for each of its addresses. -/
structure Entry where
  name : String
  /-- `ifa_addr` is not NULL -/
  addr : Bool
  deriving DecidableEq, Repr

/-- What the system says. -/
structure Sys where
  /-- the steps before the socket is bound work -/
  reuseAddr : Bool := true
  reusePort : Bool := true
  bind : Bool := true
  /-- the interface of the default route -/
  default : Option Nat := none
  /-- `getifaddrs`; `none` if it fails, or if libevent is built without it -/
  entries : Option (List Entry) := some []
  /-- `if_nametoindex`, 0 if there is no such interface -/
  index : String → Nat
  /-- interfaces which can do multicast -/
  able : Nat → Bool := fun _ => true
  /-- how many groups a socket may join -/
  max : Nat := 20

/-- The kernel: a socket which joined on interfaces `m` joins on `i`. -/
def join (k : Sys) (m : List Nat) (i : Nat) : List Nat :=
  if i ∈ m then m else if k.able i && decide (m.length < k.max) then m ++ [i] else m

/-- `init_mdns_ipv4_socket`, nm_select_unix_mdns_udp_bind.c:177-210, `init_mdns_ipv6_socket`, :141-174,
nm_libevent_mdns_udp_bind.c:169-243. That joining on the default interface fails is not an error. -/
def initSocket (k : Sys) : Option (List Nat) :=
  if !k.reuseAddr then none
  else if !k.reusePort then none
  else if !k.bind then none
  else match k.default with
    | none => some []
    | some d => some (join k [] d)

/-- The loop of `mdns_update_ipv4_socket_registration`, nm_select_unix_mdns_udp_bind.c:218-241, and
`mdns_update_ipv6_socket_registration`, :252-277; nm_libevent_mdns_udp_bind.c:253-276. -/
def update (k : Sys) : List Entry → List Nat → List Nat
  | [], m => m
  | e :: l, m =>
    if !e.addr then update k l m
    else if k.index e.name = 0 then update k l m
    else update k l (join k m (k.index e.name))

/-- `nm_select_unix_async_bind_mdns_ipv4_ec`, nm_select_unix_mdns_udp_bind.c:47-68, from line 60 on; the interfaces of the
socket, `none` if it is not bound. -/
def bindMdns (k : Sys) : Option (List Nat) :=
  match initSocket k with
  | none => none
  | some m =>
    match k.entries with
    | none => some m
    | some l => some (update k l m)

/-- What happens to the networks of the device afterwards. No code runs: the functions above are called by the binds only. -/
inductive Event
  /-- an interface comes up, or gets an address -/
  | up (i : Nat)
  /-- an interface goes away -/
  | gone (i : Nat)
  deriving DecidableEq, Repr

def step (m : List Nat) : Event → List Nat
  | .up _ => m
  | .gone i => m.filter (· != i)

def run (m : List Nat) (es : List Event) : List Nat := es.foldl step m

/-- A query on a network is delivered to the socket. -/
def hears (m : List Nat) (i : Nat) : Bool := decide (i ∈ m)

end Verif.Net.Multicast
