/-!
# Virtual CoAP requests

Model of the virtual part of `src/core/nc_coap_server.c`, of `src/core/nc_virtual_connection.c` and of the CoAP part of
`src/api/nabto_device_virtual_connection.c` and `src/api/nabto_device_coap.c`.

One request is modelled: requests share nothing but the connection, whose end is told to each of them. Every operation
holds the lock of the core.

* The client is the part of the application which makes the request with `nabto_device_virtual_coap_request_*`.
* The server is who handles it: a listener of the application, or a resource of the device.
* Allocations are told by the environment whether they succeed.
* `bad` is set when freed memory is used, or when the client breaks its contract by executing a request twice.
-/

namespace Verif.Coap.Virtual

inductive Ec
  | ok | outOfMemory | stopped
  deriving DecidableEq, Repr

/-- `struct nc_coap_server_virtual_request`, nc_coap_server.h:29-53. -/
structure Core where
  connectionClosed : Bool
  clientFreed : Bool
  serverFreed : Bool
  resolved : Bool
  responseReady : Bool
  payload : Option (List UInt8)
  format : UInt16
  code : UInt8
  deriving DecidableEq, Repr

/-- `nc_coap_server_create_virtual_request`, nc_coap_server.c:469-502, the fields after creation. -/
def Core.new : Core :=
  { connectionClosed := false, clientFreed := false, serverFreed := false, resolved := false, responseReady := false,
    payload := none, format := 0, code := 0 }

/-- Who has the request on the side of the server. -/
inductive Holder
  /-- nobody: the request is not executed, or nobody was found or could take it -/
  | nobody
  /-- the queue of a listener -/
  | queue
  /-- the handler -/
  | handler
  /-- it was given back with `nc_coap_server_request_free` -/
  | released
  /-- the last pointer to it is gone -/
  | lost
  deriving DecidableEq, Repr

/-- What others see. -/
inductive Out
  /-- the future of the execution is resolved -/
  | resolved (e : Ec)
  /-- results of the functions which read the response -/
  | invalidState
  | unknown
  | code (c : UInt16)
  | format (f : UInt16)
  | payload (d : List UInt8)
  deriving DecidableEq, Repr

structure St where
  /-- `struct nabto_device_virtual_coap_request` is not freed; its `responseReady` -/
  api : Bool
  apiReady : Bool
  executed : Bool
  /-- the request in the core while its memory is not freed -/
  core : Option Core
  holder : Holder
  /-- in the list `coapRequests` of the connection -/
  listed : Bool
  connAlive : Bool
  /-- how often the memory of the request was freed -/
  frees : Nat
  /-- payloads whose last pointer is gone -/
  leaked : Nat
  bad : Bool
  out : List Out
  deriving DecidableEq, Repr

/-- `nabto_device_virtual_coap_request_new`, nabto_device_virtual_connection.c:210-260, when it succeeds. -/
def St.init : St :=
  { api := true, apiReady := false, executed := false, core := none, holder := .nobody, listed := false,
    connAlive := true, frees := 0, leaked := 0, bad := false, out := [] }

def St.tell (s : St) (o : Out) : St := { s with out := s.out ++ [o] }

/-- `response_handler`, nabto_device_virtual_connection.c:374-383. -/
def St.onResponse (s : St) (e : Ec) : St :=
  if s.api then { s with apiReady := s.apiReady || (e == Ec.ok) }.tell (.resolved e) else { s with bad := true }

/-- `nc_coap_server_resolve_virtual`, nc_coap_server.c:553-559. -/
def St.resolve (s : St) (c : Core) (e : Ec) : St :=
  if c.resolved then { s with core := some c }
  else { s with core := some { c with resolved := true } }.onResponse e

/-- An access to the request. -/
def St.withCore (s : St) (f : Core → St) : St :=
  match s.core with
  | none => { s with bad := true }
  | some c => f c

/-- `nn_strdup` or `np_calloc` into `respPayload`: what was there is lost. -/
def St.lose (s : St) (c : Core) : St := { s with leaked := s.leaked + (if c.payload.isSome then 1 else 0) }

/-- `nc_coap_server_send_error_response`, nc_coap_server.c:303-316. `mem`: the description, if there is one, can be
copied. -/
def St.sendError (s : St) (code : UInt8) (d : Option (List UInt8)) (mem : Bool) : St :=
  s.withCore fun c =>
    match d with
    | none => s.resolve { c with code := code, responseReady := true } .ok
    | some d => (s.lose c).resolve { c with code := code, payload := if mem then some d else none, responseReady := true } .ok

/-- `do_free_virtual_request`, nc_coap_server.c:374-386. -/
def St.doFree (s : St) (c : Core) : St :=
  let s1 := if c.connectionClosed then s
    else if s.connAlive then { s with listed := false } else { s with bad := true }
  { s1 with core := none, frees := s1.frees + 1 }

/-- `nc_coap_server_request_free`, nc_coap_server.c:388-399. -/
def St.serverFree (s : St) : St :=
  s.withCore fun c =>
    let s1 := { s with core := some { c with serverFreed := true } }
    if c.clientFreed then s1.doFree { c with serverFreed := true } else s1

/-- `nc_coap_server_virtual_request_free`, nc_coap_server.c:400-409. -/
def St.clientFree (s : St) : St :=
  s.withCore fun c =>
    let s1 := { s with core := some { c with clientFreed := true } }
    if c.serverFreed then s1.doFree { c with clientFreed := true } else s1

/-- "Resource not found" and the other descriptions; the text does not matter. -/
def notFoundText : List UInt8 := [82, 101, 115, 111, 117, 114, 99, 101, 32, 110, 111, 116, 32, 102, 111, 117, 110, 100]
def unavailable : List UInt8 := [72, 97, 110, 100, 108, 101, 114, 32, 117, 110, 97, 118, 97, 105, 108, 97, 98, 108, 101]
def insufficient : List UInt8 := [73, 110, 115, 117, 102, 102, 105, 99, 105, 101, 110, 116]

/-- What the search for the resource and its handler come to. -/
inductive Found
  | notFound
  /-- a listener, but there is no memory for the event: `nabto_device_coap_resource_handler`,
  nabto_device_coap.c:234-259 -/
  | refused
  /-- a listener -/
  | queue
  /-- a resource of the device, whose handler has the request at once -/
  | handler
  deriving DecidableEq, Repr

/-- `nabto_device_virtual_coap_request_execute`, nabto_device_virtual_connection.c:302-317, with
`nc_coap_server_create_virtual_request`, nc_coap_server.c:469-513. `mem`: the request can be allocated; `mem'`: the
description of an error can be copied. -/
def St.execute (s : St) (f : Found) (mem mem' : Bool) : St :=
  if s.executed || !s.connAlive || !s.api then { s with bad := true }
  else if !mem then { s with executed := true }.tell (.resolved .outOfMemory)
  else
    let s1 := { s with executed := true, core := some Core.new, listed := true }
    match f with
    | .notFound => { s1 with core := some { Core.new with serverFreed := true } }.sendError 132 (some notFoundText) mem'
    | .refused => { (s1.sendError 160 (some insufficient) mem').serverFree with holder := .released }
    | .queue => { s1 with holder := .queue }
    | .handler => { s1 with holder := .handler }

/-- `nabto_device_virtual_coap_request_free`, nabto_device_virtual_connection.c:262-277. -/
def St.apiFree (s : St) : St :=
  if !s.api then { s with bad := true }
  else
    let s1 := { s with api := false }
    if s.core.isSome then s1.clientFree else s1

/-- `nc_virtual_connection_destroy`, nc_virtual_connection.c:21-31, with `nc_coap_server_remove_connection`,
nc_coap_server.c:189-204. -/
def St.connClosed (s : St) : St :=
  let s1 := { s with connAlive := false, listed := false }
  match s.core with
  | some c => if s.listed then s1.resolve { c with connectionClosed := true } .stopped else s1
  | none => s1

/-- `nc_coap_server_response_get_code_human`, nc_coap_server.c:540-551: the code as the client sees it. -/
def human (c : UInt8) : UInt16 := ((c >>> 5).toUInt16) * 100 + (c &&& 31).toUInt16

/-- `nc_coap_server_response_set_code_human`, nc_coap_server.c:327-336. The macro `NABTO_COAP_CODE` of nabto-common is not
in the source tree; it is taken as in RFC 7252: three bits of class, five of detail. -/
def ofHuman (n : UInt16) : UInt8 := (((n / 100) <<< 5) ||| (n % 100)).toUInt8

inductive Op
  | execute (f : Found) (mem mem' : Bool)
  /-- the application gets the request from its listener -/
  | take
  /-- the listener is stopped while the request is in its queue, nabto_device_coap.c:222-229 -/
  | listenerStop (mem : Bool)
  /-- the handler -/
  | setCode (c : UInt8)
  | setPayload (d : List UInt8) (mem : Bool)
  | setFormat (f : UInt16)
  | ready
  | error (c : UInt8) (d : Option (List UInt8)) (mem : Bool)
  | serverFree
  /-- the client -/
  | getCode
  | getFormat
  | getPayload
  | apiFree
  | connClosed
  deriving DecidableEq, Repr

/-- An operation of the handler, which does nothing unless it has the request. -/
def St.asHandler (s : St) (f : St → St) : St := if s.holder = .handler then f s else s

/-- A function which reads the response, nabto_device_virtual_connection.c:319-372. -/
def St.read (s : St) (f : Core → Out) : St :=
  if !s.api then { s with bad := true }
  else if !s.apiReady then s.tell .invalidState
  else if !s.connAlive then { s with bad := true }
  else s.withCore fun c => s.tell (if c.responseReady then f c else .unknown)

/-- One operation. -/
def step (s : St) : Op → St
  | .execute f mem mem' => s.execute f mem mem'
  | .take => if s.holder = .queue then { s with holder := .handler } else s
  | .listenerStop mem =>
    if s.holder = .queue then { s.sendError 163 (some unavailable) mem with holder := .lost } else s
  /- nc_coap_server.c:318-325 -/
  | .setCode v => s.asHandler fun s => s.withCore fun c => { s with core := some { c with code := v } }
  /- nc_coap_server.c:338-349 -/
  | .setPayload d mem => s.asHandler fun s => s.withCore fun c =>
      { s.lose c with core := some { c with payload := if mem then some d else none } }
  /- nc_coap_server.c:351-358 -/
  | .setFormat v => s.asHandler fun s => s.withCore fun c => { s with core := some { c with format := v } }
  /- nc_coap_server.c:360-372 -/
  | .ready => s.asHandler fun s => s.withCore fun c =>
      if c.connectionClosed then s else s.resolve { c with responseReady := true } .ok
  | .error v d mem => s.asHandler fun s => s.sendError v d mem
  | .serverFree => s.asHandler fun s => { s.serverFree with holder := .released }
  | .getCode => s.read fun c => .code (human c.code)
  | .getFormat => s.read fun c => .format c.format
  | .getPayload => s.read fun c => match c.payload with | some d => .payload d | none => .unknown
  | .apiFree => s.apiFree
  | .connClosed => s.connClosed

def run (ops : List Op) : St := ops.foldl step St.init

/-! ### Paths -/

/-- `nabto_device_virtual_coap_request_new`, nabto_device_virtual_connection.c:232-257, on the bytes of a path before its
terminator: a slash at the end is cut off (the byte before the string is read if the path is empty, hence `none`), every
slash becomes a terminator, and a segment starts after each of them. -/
def cut (path : List UInt8) : Option (List UInt8) :=
  match path.getLast? with
  | none => none
  | some c => some (if c = 47 then path.dropLast else path)

/-- The bytes from a place up to the next terminator. -/
def cstr : List UInt8 → List UInt8
  | [] => []
  | c :: cs => if c = 0 then [] else c :: cstr cs

/-- The second loop: `seen` are the bytes before, with terminators for slashes; what a segment points to is read when the
loop is done. -/
def starts : List UInt8 → List (List UInt8)
  | [] => []
  | c :: cs => if c = 47 then (cs.map fun d => if d = 47 then 0 else d) :: starts cs else starts cs

def segments (path : List UInt8) : Option (List (List UInt8)) :=
  (cut path).map fun p => (starts p).map cstr

end Verif.Coap.Virtual
