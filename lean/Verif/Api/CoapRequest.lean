import Verif.Iam.Record

/-!
# CoAP requests on their way to the application — model

Transcription of `nabto_device_coap_init_listener`, `nabto_device_listener_new_coap_request`, `nabto_device_coap_request_free`,
`nabto_device_coap_resource_handler` and `nabto_device_coap_listener_callback` (`/repo/src/api/nabto_device_coap.c`), of
`resource_callback` and the functions for resources (`/repo/src/core/nc_coap_server.c`), and of what they use of
`/repo/src/api/nabto_device_listener.c`, where every request for memory may fail.

Simplifications:
* One listener, which is initialised once. It is not released before it is stopped.
* Requests of virtual connections are the matter of `Verif.Coap.Virtual`.
* The CoAP library is not in the repository. Its request is one block, which `nabto_coap_server_request_free` gives back; the library may keep it
  until the response is delivered. It answers a request by itself if it has no memory for it or there is no resource.
* The place for the request which `nabto_device_listener_new_coap_request` takes is never `NULL`.
* Every function runs with the mutex of the device held, so each is one step.
-/

namespace Verif.Api.CoapRequest
open Verif.Iam.Record

/-- A request: `struct nabto_coap_server_request` of the library, `struct nc_coap_server_request` of the core and
`struct nabto_device_coap_request` (`nabto_device_coap.h:20-26`) of the API, each a block. -/
structure Req where
  id : Nat
  lib : Nat
  wrap : Nat
  api : Nat
  deriving DecidableEq, Repr

/-- The listener: not initialised, in use with its two structures for the resource (`nabto_device_coap.h:10-18`), or stopped. -/
inductive Phase
  | fresh
  | listening (res nc : Nat)
  | stopped
  deriving DecidableEq, Repr

/-- What the device answers by itself. -/
inductive Answer
  /-- 5.00 "Insufficient resources" -/
  | insufficient
  /-- 5.03 "Handler unavailable" -/
  | unavailable
  deriving DecidableEq, Repr

structure St where
  mem : Mem
  phase : Phase := .fresh
  /-- `listener->fut` is set, and with it `res->futureRequest` -/
  waiting : Bool := false
  /-- `listener->eventsList` -/
  queue : List Req := []
  /-- the requests the application has and did not release -/
  given : List Req := []
  /-- the requests the application was given, in order -/
  handed : List Nat := []
  /-- the answers of the device, in order -/
  told : List (Nat × Answer) := []
  /-- `NULL` was dereferenced -/
  crashed : Bool := false

/-- `nabto_device_listener_try_resolve`, `nabto_device_listener.c:172-191`, with the first branch of `nabto_device_coap_listener_callback`,
`nabto_device_coap.c:208-214`. -/
def tryResolve (s : St) : St :=
  if s.waiting then
    match s.queue with
    | [] => s
    | r :: q => { s with queue := q, given := s.given ++ [r], handed := s.handed ++ [r.id], waiting := false }
  else s

/-- `nabto_device_coap_init_listener`, `nabto_device_coap.c:21-50`, with `nc_coap_server_add_resource`, `nc_coap_server.c:272-283`. `registers`: the
library can register the resource. -/
def initListener (s : St) (registers : Bool) : St :=
  match s.phase with
  | .fresh =>
    match alloc s.mem with
    | (none, m) => { s with mem := m }
    | (some res, m) =>
      match alloc m with
      | (none, m) => { s with mem := free m res }
      | (some nc, m) =>
        if registers then { s with mem := m, phase := .listening res nc }
        else { s with mem := free m res }
  | _ => s

/-- A request comes in: the library makes its request, then `resource_callback`, `nc_coap_server.c:251-259`, and
`nabto_device_coap_resource_handler`, `nabto_device_coap.c:237-260`. The listener of a registered resource is not stopped, since stopping removes the
resource; `nabto_device_listener_add_event` therefore takes the event. -/
def arrive (s : St) (id : Nat) : St :=
  match s.phase with
  | .listening _ _ =>
    match alloc s.mem with
    | (none, m) => { s with mem := m }
    | (some lib, m) =>
      match alloc m with
      | (none, m) => { s with mem := m, crashed := true }
      | (some wrap, m) =>
        match alloc m with
        | (none, m) => { s with mem := free (free m lib) wrap, told := s.told ++ [(id, .insufficient)] }
        | (some api, m) => tryResolve { s with mem := m, queue := s.queue ++ [⟨id, lib, wrap, api⟩] }
  | _ => s

/-- `nabto_device_listener_new_coap_request`, `nabto_device_coap.c:52-82`: refused if a future waits already or the listener is stopped. -/
def listen (s : St) : St :=
  match s.phase with
  | .listening _ _ => if s.waiting then s else tryResolve { s with waiting := true }
  | _ => s

/-- One round of the loop in `nabto_device_listener_resolve_error_state`, `nabto_device_listener.c:201-209`, with the last branch of
`nabto_device_coap_listener_callback`, `nabto_device_coap.c:226-233`: the request is answered and the structure of the API given back. -/
def turnAway (s : St) (r : Req) : St :=
  { s with mem := free s.mem r.api, told := s.told ++ [(r.id, .unavailable)] }

/-- `nabto_device_listener_stop`, `nabto_device_listener.c:113-122`, `:159-169`, `:193-220`, with the branch for `NABTO_EC_ABORTED` of the callback,
`nabto_device_coap.c:222-225`, and `nc_coap_server_remove_resource`, `nc_coap_server.c:285-301`. -/
def stop (s : St) : St :=
  match s.phase with
  | .listening res nc =>
    let s := { s.queue.foldl turnAway s with queue := [] }
    { s with mem := free (free s.mem nc) res, phase := .stopped, waiting := false }
  | _ => s

/-- `nabto_device_coap_request_free`, `nabto_device_coap.c:84-92`, with `nc_coap_server_request_free`, `nc_coap_server.c:387-398`, of the request the
application has at place `k`. -/
def release (s : St) (k : Nat) : St :=
  match s.given[k]? with
  | none => s
  | some r => { s with mem := free (free (free s.mem r.lib) r.wrap) r.api, given := s.given.eraseIdx k }

inductive Op
  | init (registers : Bool)
  | arrive (id : Nat)
  | listen
  | stop
  | release (k : Nat)
  deriving DecidableEq, Repr

/-- One call or one request; nothing happens after a crash. -/
def step (s : St) (o : Op) : St :=
  if s.crashed then s else
  match o with
  | .init b => initListener s b
  | .arrive id => arrive s id
  | .listen => listen s
  | .stop => stop s
  | .release k => release s k

def run (s : St) (ops : List Op) : St := ops.foldl step s

end Verif.Api.CoapRequest
