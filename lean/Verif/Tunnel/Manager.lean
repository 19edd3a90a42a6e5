/-!
# Services of TCP tunnels

Model of `src/modules/tcp_tunnel/nm_tcp_tunnel.c`, `nm_tcp_tunnel_coap.c` and
`src/api/nabto_device_tcp_tunnelling.c`.

* One operation is one call from the application or one callback of the core; all of them hold the lock of the core, so
  they do not interleave.
* A check of access (`pl->authorization.check_access`) is answered later by another operation, `verdict`; that it is
  answered once is C30.
* The listener of a service gets its port from the stream manager (`Verif.Stream.Manager`, C42): no two listeners have the
  same port, and a stream to a port arrives at the listener of this port.
* A connection is `Verif.Tunnel.Conn`; here it is a name in the list of its service until it is erased.
* Allocations are told by the environment whether they succeed.
* The maps (`nn_string_int_map`, `nn_string_map`) of nabto-common are not in the source tree. They are modelled as maps.
-/

namespace Verif.Tunnel.Manager

/-- `struct nm_tcp_tunnel_service`, nm_tcp_tunnel.h:47-65. `serial` is not in the code: it tells services apart in what is
stated about them. `target` is `address` and `port`. -/
structure Svc where
  serial : Nat
  wp : UInt64
  id : String
  type : String
  target : Nat
  streamPort : UInt32
  metadata : List (String × String)
  conns : List Nat
  deriving DecidableEq, Repr

/-- What waits for the answer of a check. -/
inductive What
  /-- the arguments of `service_stream_iam_callback`: weak pointer and stream -/
  | tunnel (wp : UInt64) (stream : Nat)
  /-- `list_services_iam` -/
  | list
  /-- `get_service_iam`; the id is the parameter of the request -/
  | get (id : String)
  deriving DecidableEq, Repr

/-- `serial` of the service the check was made for, not in the code. -/
structure Req where
  what : What
  serial : Nat
  deriving DecidableEq, Repr

inductive Action
  | connect | listServices | getService
  deriving DecidableEq, Repr

inductive Ec
  | ok | outOfMemory | notFound | failed
  deriving DecidableEq, Repr

/-- What others see. -/
inductive Out
  /-- the result of an API function -/
  | ret (e : Ec)
  /-- access is checked: the attributes are TcpTunnel:ServiceId and TcpTunnel:ServiceType -/
  | check (r : Nat) (a : Action) (attrs : Option (String × String))
  /-- a tunnel is opened for a stream -/
  | opened (c : Nat) (stream : Nat) (target : Nat)
  | destroyed (stream : Nat)
  /-- a connection is aborted since its service is removed -/
  | aborted (c : Nat)
  /-- answers to CoAP requests: an error, the list of ids, the description of a service -/
  | error (code : Nat)
  | services (ids : List String)
  | service (id type : String) (target : Nat) (streamPort : UInt32) (metadata : List (String × String))
  deriving DecidableEq, Repr

/-- `struct nm_tcp_tunnels`, nm_tcp_tunnel.h:67-76. -/
structure St where
  services : List Svc
  /-- `limitsByType` -/
  limits : String → Option Nat
  /-- `weakPtrCounter` -/
  counter : UInt64
  /-- how many services were created, streams have arrived, connections were opened, checks were made -/
  created : Nat
  streams : Nat
  opened : Nat
  asked : Nat
  /-- checks which are not answered -/
  pending : List (Nat × Req)
  /-- memory of services which nothing reaches any more -/
  leaked : Nat
  out : List Out

/-- `nm_tcp_tunnels_init`, nm_tcp_tunnel.c:25-42. -/
def St.init : St :=
  { services := [], limits := fun _ => none, counter := 1, created := 0, streams := 0, opened := 0, asked := 0,
    pending := [], leaked := 0, out := [] }

def St.tell (s : St) (o : List Out) : St := { s with out := s.out ++ o }

/-- `nm_tcp_tunnels_find_service`, nm_tcp_tunnel.c:258-272. -/
def findId (id : String) : List Svc → Option Svc
  | [] => none
  | x :: xs => if x.id = id then some x else findId id xs

/-- `nm_tcp_tunnels_find_service_by_weak_ptr`, nm_tcp_tunnel.c:273-283. -/
def findWp (wp : UInt64) : List Svc → Option Svc
  | [] => none
  | x :: xs => if x.wp = wp then some x else findWp wp xs

/-- The service whose listener has a port (`Verif.Stream.Manager`). -/
def findPort (p : UInt32) : List Svc → Option Svc
  | [] => none
  | x :: xs => if x.streamPort = p then some x else findPort p xs

/-- `nm_tcp_tunnel_connections_by_type`, nm_tcp_tunnel.c:285-296. -/
def byType (t : String) : List Svc → Nat
  | [] => 0
  | x :: xs => (if x.type = t then x.conns.length else 0) + byType t xs

/-- Replace the first service with the id. -/
def modId (id : String) (f : Svc → Svc) : List Svc → List Svc
  | [] => []
  | x :: xs => if x.id = id then f x :: xs else x :: modId id f xs

def modWp (wp : UInt64) (f : Svc → Svc) : List Svc → List Svc
  | [] => []
  | x :: xs => if x.wp = wp then f x :: xs else x :: modWp wp f xs

/-- `nm_tcp_tunnel_service_destroy`, nm_tcp_tunnel.c:102-108: the first service with the id leaves the list. -/
def delId (id : String) : List Svc → List Svc
  | [] => []
  | x :: xs => if x.id = id then xs else x :: delId id xs

/-- `nn_string_map_erase` and `nn_string_map_insert`. -/
def Svc.eraseMeta (x : Svc) (key : String) : Svc := { x with metadata := x.metadata.filter fun p => p.1 ≠ key }
def Svc.insertMeta (x : Svc) (key value : String) : Svc := { x with metadata := x.metadata ++ [(key, value)] }

/-- `nn_llist_append` to the connections, and `nn_llist_erase_node`. -/
def Svc.addConn (c : Nat) (x : Svc) : Svc := { x with conns := x.conns ++ [c] }
def Svc.delConn (c : Nat) (x : Svc) : Svc := { x with conns := x.conns.filter fun d => d ≠ c }

/-- `INT_MAX`. -/
def intMax : Nat := 2147483647

/-- `nabto_device_add_tcp_tunnel_service` (nabto_device_tcp_tunnelling.c:8-28) with `nm_tcp_tunnel_service_create`
(nm_tcp_tunnel.c:61-74) and `_init` (:110-127). `mem` and `mem'`: the allocations of the service and of its two strings;
`port`: what the stream manager answers. A service whose initialisation fails is not freed. -/
def St.addService (s : St) (id type : String) (target : Nat) (mem mem' : Bool) (port : Option UInt32) : St :=
  if !mem then s.tell [.ret .outOfMemory]
  else
    let s1 := { s with counter := s.counter + 1, created := s.created + 1 }
    if !mem' then { s1 with leaked := s1.leaked + 1 }.tell [.ret .outOfMemory]
    else match port with
      | none => { s1 with leaked := s1.leaked + 1 }.tell [.ret .failed]
      | some p =>
        let x : Svc := ⟨s.created, s1.counter, id, type, target, p, [], []⟩
        { s1 with services := s1.services ++ [x] }.tell [.ret .ok]

/-- `nabto_device_remove_tcp_tunnel_service` (nabto_device_tcp_tunnelling.c:30-41) with
`nm_tcp_tunnel_service_destroy_by_id` (nm_tcp_tunnel.c:76-85) and `nm_tcp_tunnel_service_deinit` (:129-140). -/
def St.removeService (s : St) (id : String) : St :=
  match findId id s.services with
  | none => s.tell [.ret .notFound]
  | some x => { s with services := delId id s.services }.tell (x.conns.map Out.aborted ++ [Out.ret .ok])

/-- `nabto_device_limit_tcp_tunnel_connections` (nabto_device_tcp_tunnelling.c:71-82) with
`nm_tcp_tunnel_limit_concurrent_connections_by_type` (nm_tcp_tunnel.c:87-99). -/
def St.setLimit (s : St) (type : String) (limit : Nat) (mem : Bool) : St :=
  let s1 := { s with limits := fun t => if t = type then none else s.limits t }
  if intMax < limit then s1.tell [.ret .ok]
  else if !mem then s1.tell [.ret .outOfMemory]
  else { s1 with limits := fun t => if t = type then some limit else s.limits t }.tell [.ret .ok]

/-- `nm_tcp_tunnel_service_add_metadata`, nm_tcp_tunnel.c:227-244: the result of the insertion is not looked at. -/
def St.addMeta (s : St) (id key value : String) (mem : Bool) : St :=
  match findId id s.services with
  | none => s.tell [.ret .notFound]
  | some _ =>
    let f := fun x : Svc => if mem then (x.eraseMeta key).insertMeta key value else x.eraseMeta key
    { s with services := modId id f s.services }.tell [.ret .ok]

/-- `nm_tcp_tunnel_service_remove_metadata`, nm_tcp_tunnel.c:246-256. -/
def St.removeMeta (s : St) (id key : String) : St :=
  match findId id s.services with
  | none => s.tell [.ret .notFound]
  | some _ =>
    { s with services := modId id (fun x => x.eraseMeta key) s.services }.tell [.ret .ok]

/-- A check of access is started. -/
def St.ask (s : St) (a : Action) (attrs : Option (String × String)) (r : Req) : St :=
  { s with pending := s.pending ++ [(s.asked, r)], asked := s.asked + 1 }.tell [.check s.asked a attrs]

/-- `nm_tcp_tunnel_service_stream_listener_callback`, nm_tcp_tunnel.c:154-181. `mem`: the request can be made. -/
def St.incoming (s : St) (port : UInt32) (mem : Bool) : St :=
  match findPort port s.services with
  | none => s
  | some x =>
    let s1 := { s with streams := s.streams + 1 }
    if mem then s1.ask .connect (some (x.id, x.type)) ⟨.tunnel x.wp s.streams, x.serial⟩
    else s1.tell [.destroyed s.streams]

/-- There are as many connections of a type as its limit allows, nm_tcp_tunnel.c:200-209. -/
def St.full (s : St) (type : String) : Bool :=
  match s.limits type with
  | some l => decide (l ≤ byType type s.services)
  | none => false

/-- `service_stream_iam_callback`, nm_tcp_tunnel.c:183-225. `mem`: connection, socket and events can be made. The C code
compares as `int`; the number of connections is below `INT_MAX`, which the memory of a device ensures. -/
def St.tunnelVerdict (s : St) (wp : UInt64) (stream : Nat) (allow mem : Bool) : St :=
  match findWp wp s.services with
  | none => s.tell [.destroyed stream]
  | some x =>
    if !allow then s.tell [.destroyed stream]
    else if s.full x.type then s.tell [.destroyed stream]
    else if !mem then s.tell [.destroyed stream]
    else
      { s with opened := s.opened + 1, services := modWp wp (Svc.addConn s.opened) s.services }.tell
        [.opened s.opened stream x.target]

/-- `list_services`, nm_tcp_tunnel_coap.c:76-91. -/
def St.coapList (s : St) (mem : Bool) : St :=
  if mem then s.ask .listServices none ⟨.list, 0⟩ else s.tell [.error 500]

/-- `get_service`, `get_connect` and `get_service_action`, nm_tcp_tunnel_coap.c:204-241. -/
def St.coapGet (s : St) (id : String) (a : Action) (mem : Bool) : St :=
  match findId id s.services with
  | none => s.tell [.error 404]
  | some x => if mem then s.ask a (some (x.id, x.type)) ⟨.get id, x.serial⟩ else s.tell [.error 500]

/-- `list_services_iam`, nm_tcp_tunnel_coap.c:170-202. `mem`: buffer and payload can be allocated. -/
def St.listVerdict (s : St) (allow mem : Bool) : St :=
  if !allow then s.tell [.error 403]
  else if !mem then s.tell [.error 500]
  else s.tell [.services (s.services.map Svc.id)]

/-- `get_service_iam`, nm_tcp_tunnel_coap.c:243-282: the service is looked up again. -/
def St.getVerdict (s : St) (id : String) (allow mem : Bool) : St :=
  if !allow then s.tell [.error 403]
  else match findId id s.services with
    | none => s.tell [.error 404]
    | some x =>
      if !mem then s.tell [.error 500]
      else s.tell [.service x.id x.type x.target x.streamPort x.metadata]

/-- The answer of a check. -/
def St.verdict (s : St) (r : Nat) (allow mem : Bool) : St :=
  match s.pending.lookup r with
  | none => s
  | some q =>
    let s1 := { s with pending := s.pending.filter fun p => p.1 ≠ r }
    match q.what with
    | .tunnel wp stream => s1.tunnelVerdict wp stream allow mem
    | .list => s1.listVerdict allow mem
    | .get id => s1.getVerdict id allow mem

/-- `the_end` of a connection, nm_tcp_tunnel_connection.c:328-332: it leaves the list it is in. -/
def St.connEnds (s : St) (c : Nat) : St :=
  { s with services := s.services.map (Svc.delConn c) }

inductive Op
  | addService (id type : String) (target : Nat) (mem mem' : Bool) (port : Option UInt32)
  | removeService (id : String)
  | setLimit (type : String) (limit : Nat) (mem : Bool)
  | addMeta (id key value : String) (mem : Bool)
  | removeMeta (id key : String)
  | incoming (port : UInt32) (mem : Bool)
  | coapList (mem : Bool)
  | coapGet (id : String) (connect : Bool) (mem : Bool)
  | verdict (r : Nat) (allow mem : Bool)
  | connEnds (c : Nat)
  deriving DecidableEq, Repr

/-- The stream manager does not give a port which is in use (C42). -/
def St.freePort (s : St) : Option UInt32 → Option UInt32
  | none => none
  | some p => if (findPort p s.services).isSome then none else some p

/-- One operation. -/
def step (s : St) : Op → St
  | .addService id type target mem mem' port => s.addService id type target mem mem' (s.freePort port)
  | .removeService id => s.removeService id
  | .setLimit type limit mem => s.setLimit type limit mem
  | .addMeta id key value mem => s.addMeta id key value mem
  | .removeMeta id key => s.removeMeta id key
  | .incoming port mem => s.incoming port mem
  | .coapList mem => s.coapList mem
  | .coapGet id connect mem => s.coapGet id (if connect then .connect else .getService) mem
  | .verdict r allow mem => s.verdict r allow mem
  | .connEnds c => s.connEnds c

def run (ops : List Op) : St := ops.foldl step St.init

end Verif.Tunnel.Manager
