/-!
# Requests of the application to the basestation

Model of push notifications (`src/api/nabto_device_fcm.c`, `src/core/nc_attacher_fcm.c`), service invocations
(`src/api/nabto_device_service_invocation.c`, `src/core/nc_attacher_service_invoke.c`) and requests for ICE servers
(`src/api/nabto_device_ice_servers.c`, `src/core/nc_attacher_ice_servers.c`): one object of one of these kinds, the attacher
it asks, and the CoAP library, which is the environment.

The CoAP library is not in the repository. It is taken to call the handler of a request which was sent once, with any result,
also after `nabto_coap_client_request_cancel`; and to do nothing when a request is cancelled which was not sent. The bytes of
the answers are decoded in `Core/CborUse`; here an answer says what decoding gave. All functions hold the lock of the device,
except `nabto_device_ice_servers_request_new`.
-/

namespace Verif.Device.Ask

abbrev Bytes := List UInt8

inductive Kind
  /-- a push notification -/
  | fcm
  /-- a service invocation -/
  | invoke
  /-- a request for ICE servers -/
  | ice
  deriving DecidableEq, Repr

inductive Ec
  | ok | outOfMemory | inProgress | notAttached | failed | badResponse | stopped | timeout | unknown
  deriving DecidableEq, Repr

/-- The field `coapRequest`. -/
inductive Req
  | none
  /-- made for this session with the basestation, and not sent -/
  | made (session : Option Nat)
  /-- handed to the CoAP library: the handler will be called -/
  | sent (session : Option Nat)
  /-- the handler was called, and the request freed -/
  | freed
  /-- the handler was called, and the request is kept -/
  | done
  deriving DecidableEq, Repr

/-- A request which was handed to the CoAP library. -/
structure Wire where
  /-- the session on which it goes -/
  session : Option Nat
  /-- the session of the attacher at that time -/
  current : Option Nat
  /-- the project id, the service id, or the identifier -/
  name : Bytes
  /-- the payload or the message -/
  content : Bytes
  deriving DecidableEq, Repr

structure St where
  kind : Kind
  /-- `projectId` or `serviceId` -/
  name : Option Bytes
  /-- `payload` or `message` -/
  content : Option Bytes
  /-- `messageLength` of a service invocation -/
  length : Nat
  /-- the field `future` -/
  fut : Option Nat
  req : Req
  /-- what the getters give: status code, body or message, ICE servers -/
  status : Nat
  body : Option Bytes
  servers : List Bytes
  /-- the object was freed -/
  gone : Bool
  /-- requests of the CoAP library which nobody frees any more -/
  leaked : Nat
  /-- `attacher->dtls`, and whether the state of the attacher is attached -/
  session : Option Nat
  attached : Bool
  /-- undefined behaviour -/
  bad : Bool
  /-- the number of futures which were given -/
  asked : Nat
  /-- the futures which were resolved -/
  results : List (Nat × Ec)
  wire : List Wire
  deriving DecidableEq, Repr

/-- `nabto_device_fcm_notification_new`, nabto_device_fcm.c:18-27, `nabto_device_service_invocation_new`,
nabto_device_service_invocation.c:25-34, `nabto_device_ice_servers_request_new`, nabto_device_ice_servers.c:18-28, with
`nc_attacher_ice_servers_ctx_init`, nc_attacher_ice_servers.c:31-39: the request for ICE servers is made now, for the session
which the attacher has now. `mem`: the request can be allocated. -/
def St.new (kind : Kind) (session : Option Nat) (attached : Bool) (mem : Bool) : St :=
  { kind, name := none, content := none, length := 0, fut := none,
    req := if kind = .ice && mem then .made session else .none,
    status := 0, body := none, servers := [], gone := false, leaked := 0, session, attached, bad := false, asked := 0,
    results := [], wire := [] }

/-- `nabto_device_fcm_notification_set_project_id`, nabto_device_fcm.c:45-65, and
`nabto_device_service_invocation_set_service_id`, nabto_device_service_invocation.c:52-72: the old string is freed first. -/
def St.setName (s : St) (v : Bytes) (mem : Bool) : St := { s with name := if mem then some v else none }

/-- `nabto_device_fcm_notification_set_payload`, nabto_device_fcm.c:67-87, and `nabto_device_service_invocation_set_message`,
nabto_device_service_invocation.c:74-96: the length is set only with success. -/
def St.setContent (s : St) (v : Bytes) (mem : Bool) : St :=
  if mem then { s with content := some v, length := v.length } else { s with content := none }

/-- The outcomes of the allocations of a send, and of `nabto_coap_client_request_set_payload`. -/
structure Mem where
  request : Bool
  buffer : Bool
  payload : Bool
  deriving DecidableEq, Repr

def St.resolve (s : St) (f : Nat) (e : Ec) : St := { s with results := s.results ++ [(f, e)] }

/-- What `encode_request` reads, nc_attacher_fcm.c:119-131, nc_attacher_service_invoke.c:129-138. `none`: a null pointer is
read. Writing no bytes from a null pointer is taken to be harmless. -/
def St.encode (s : St) : Option (Bytes × Bytes) :=
  match s.kind with
  | .fcm =>
    match s.name, s.content with
    | some n, some c => some (n, c)
    | _, _ => none
  | _ =>
    match s.name, s.content with
    | some n, some c => some (n, c)
    | some n, none => if s.length = 0 then some (n, []) else none
    | _, _ => none

/-- The request is filled and handed to the CoAP library, nc_attacher_fcm.c:32-68, nc_attacher_service_invoke.c:32-68,
nc_attacher_ice_servers.c:56-93. -/
def St.hand (s : St) (f : Nat) (session : Option Nat) (name content : Bytes) (m : Mem) : St :=
  if !m.buffer then s.resolve f .outOfMemory
  else if !m.payload then s.resolve f .outOfMemory
  else { s with req := .sent session, wire := s.wire ++ [⟨session, s.session, name, content⟩] }

/-- `nc_attacher_fcm_send`, nc_attacher_fcm.c:21-69, and `nc_attacher_service_invoke_execute`,
nc_attacher_service_invoke.c:21-69: the result of making the request is not checked. -/
def St.ask (s : St) (f : Nat) (m : Mem) : St :=
  if !s.attached then s.resolve f .notAttached
  else if !m.request then { s with bad := true }
  else
    match s.encode with
    | none => { s with req := .made s.session, bad := true }
    | some (n, c) => { s with req := .made s.session }.hand f s.session n c m

/-- `nc_attacher_request_ice_servers`, nc_attacher_ice_servers.c:50-94. -/
def St.askIce (s : St) (f : Nat) (name : Bytes) (m : Mem) : St :=
  if !s.attached then s.resolve f .notAttached
  else
    match s.req with
    | .made c => s.hand f c name [] m
    | _ => { s with bad := true }

/-- `nabto_device_fcm_send`, nabto_device_fcm.c:95-115, `nabto_device_service_invocation_execute`,
nabto_device_service_invocation.c:104-124, `nabto_device_ice_servers_request_send`, nabto_device_ice_servers.c:48-71. `name`:
the identifier of a request for ICE servers. -/
def St.send (s : St) (name : Bytes) (m : Mem) : St :=
  let f := s.asked
  let s1 := { s with asked := s.asked + 1 }
  if s1.fut ≠ none then s1.resolve f .inProgress
  else
    let s2 := { s1 with fut := some f }
    match s2.kind with
    | .ice => s2.askIce f name m
    | _ => s2.ask f m

/-- What the CoAP library gives to the handler of a request. -/
inductive Answer
  | stopped | timeout | error
  /-- another code than 201 -/
  | code
  /-- no CBOR, or no payload -/
  | format
  /-- a push notification: the body if it could be copied, and the status code if it is a number of 16 bits,
  nc_attacher_fcm.c:133-169 -/
  | fcm (body : Option Bytes) (status : Option Nat)
  /-- a service invocation: the status code if it is there, the message, which is not copied for the format NONE, and whether
  all of it could be read, nc_attacher_service_invoke.c:140-204 -/
  | invoke (status : Option Nat) (message : Option Bytes) (fine : Bool)
  /-- ICE servers: those which could be read, and whether all could be, nc_attacher_ice_servers.c:166-249 -/
  | ice (servers : List Bytes) (fine : Bool)
  deriving DecidableEq, Repr

/-- `coap_handler`, nc_attacher_fcm.c:71-109, nc_attacher_service_invoke.c:71-119, nc_attacher_ice_servers.c:106-164: the code,
and what is stored in the object. -/
def St.take (s : St) : Answer → Ec × St
  | .stopped => (.stopped, s)
  | .timeout => (.timeout, s)
  | .error => (.unknown, s)
  | .code => (if s.kind = .fcm then .badResponse else .failed, s)
  | .format => (.badResponse, s)
  | .fcm body status =>
    match body, status with
    | some b, some c => (.ok, { s with body := some b, status := c })
    | some b, none => (.badResponse, { s with body := some b })
    | none, _ => (.badResponse, s)
  | .invoke status message fine =>
    match status with
    | none => (.badResponse, s)
    | some c =>
      if fine then (.ok, { s with status := c, body := message }) else (.badResponse, { s with status := c })
  | .ice servers fine => (if fine then .ok else .badResponse, { s with servers := s.servers ++ servers })

/-- The answer fits the kind of the request. -/
def Answer.fits : Answer → Kind → Bool
  | .fcm _ _, .fcm => true
  | .invoke _ _ _, .invoke => true
  | .ice _ _, .ice => true
  | .fcm _ _, _ | .invoke _ _ _, _ | .ice _ _, _ => false
  | _, _ => true

/-- The CoAP library calls the handler of the request. The callbacks `fcm_send_callback`, nabto_device_fcm.c:89-93,
`service_invoke_send_callback`, nabto_device_service_invocation.c:98-102 and `turn_req_send_callback`,
nabto_device_ice_servers.c:42-46 resolve the future, and leave the field as it is. -/
def St.answer (s : St) (a : Answer) : St :=
  match s.req with
  | .sent _ =>
    if s.gone then (if s.kind = .ice then s else { s with bad := true })
    else
      let p := s.take a
      let s1 := { p.2 with req := if s.kind = Kind.ice then Req.done else Req.freed }
      match s.fut with
      | some f => s1.resolve f p.1
      | none => { s1 with bad := true }
  | _ => s

/-- `nabto_device_fcm_stop`, nabto_device_fcm.c:117-126, with `nc_attacher_fcm_send_stop`, nc_attacher_fcm.c:111-117, and
`nabto_device_service_invocation_stop`, nabto_device_service_invocation.c:126-135, with `nc_attacher_service_invoke_stop`,
nc_attacher_service_invoke.c:121-127: the request is cancelled if there is a pointer to it. There is no such function for ICE
servers. -/
def St.stop (s : St) : St :=
  if s.kind = .ice then s
  else if s.req = .freed then { s with bad := true }
  else s

/-- `nabto_device_fcm_notification_free`, nabto_device_fcm.c:29-43, `nabto_device_service_invocation_free`,
nabto_device_service_invocation.c:36-50: the CoAP request is not freed; `nabto_device_ice_servers_request_free`,
nabto_device_ice_servers.c:31-40, with `nc_attacher_ice_servers_ctx_deinit`, nc_attacher_ice_servers.c:41-48: it is freed, and
its handler is not called any more. -/
def St.free (s : St) : St :=
  { s with
      gone := true, leaked := match s.kind, s.req with
        | .ice, _ => s.leaked
        | _, .made _ => s.leaked + 1
        | _, _ => s.leaked }

inductive Op
  | setName (v : Bytes) (mem : Bool)
  | setContent (v : Bytes) (mem : Bool)
  | send (name : Bytes) (m : Mem)
  | stop
  | free
  /-- the CoAP library answers -/
  | answer (a : Answer)
  /-- the attacher has a new session, and is attached on it, or not any more -/
  | session (c : Option Nat)
  | attached
  | detached
  deriving DecidableEq, Repr

/-- One operation. The application does not use an object which it freed; the setters are not for requests for ICE servers;
the attacher is attached only while it has a session, see `Core/Attacher`. -/
def step (s : St) : Op → St
  | .setName v mem => if !s.gone && s.kind ≠ .ice then s.setName v mem else s
  | .setContent v mem => if !s.gone && s.kind ≠ .ice then s.setContent v mem else s
  | .send name m => if !s.gone then s.send name m else s
  | .stop => if !s.gone then s.stop else s
  | .free => if !s.gone then s.free else s
  | .answer a => if a.fits s.kind then s.answer a else s
  | .session c => { s with session := c, attached := false }
  | .attached => if s.session ≠ none then { s with attached := true } else s
  | .detached => { s with session := none, attached := false }

def run (s : St) (ops : List Op) : St := ops.foldl step s

end Verif.Device.Ask
