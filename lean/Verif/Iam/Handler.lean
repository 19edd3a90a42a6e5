import Verif.Api.Authorization
import Verif.Iam.State

/-!
# The authorization handler of the IAM module

Model of `src/modules/iam/nm_iam_auth_handler.c` on top of the authorization requests of `Verif.Api.Authorization`, with
the attributes of the requests (`src/api/nabto_device_authorization.c:166-262`) and the decision of
`Verif.Iam.checkAccess`. The core makes requests, adds attributes to them and asks; the handler is handed one request at a
time, decides it, frees it and listens again.

The handler runs in the thread of the futures without the lock of the core: between any two of its calls of the library
anything else may happen. Reading the request and deciding is one step; the IAM state is protected by the lock of the IAM
module there, and a request which was submitted does not change. Listening and setting the callback of the future is one
step. Requests and attributes are blocks of memory; the blocks of attributes are counted.
-/

namespace Verif.Iam.Handler

open Verif.Api Verif.Iam

/-- What `struct nabto_device_authorization_request` (`nabto_device_authorization.h:32-62`) says about the request; the
newest attribute is the first of the list. -/
structure Info where
  conn : Nat
  action : String
  attrs : Attrs := []
  deriving DecidableEq, Repr

/-- Where the handler is. -/
inductive Pc
  /-- not initialised -/
  | off
  /-- `start_listen` is next -/
  | listening
  /-- the future waits for a request -/
  | waiting
  /-- the future was resolved with this request -/
  | called (i : Nat)
  /-- `nm_iam_internal_check_access` has answered -/
  | decided (i : Nat) (v : Bool)
  /-- the verdict was given -/
  | answered (i : Nat)
  /-- the future was resolved with an error -/
  | ended
  /-- `nm_iam_auth_handler_deinit` was called -/
  | gone
  deriving DecidableEq, Repr

structure W where
  auth : Auth.World := Auth.init
  reqs : Nat → Info := fun _ => { conn := 0, action := "" }
  iam : Iam := {}
  conns : Nat → ConnInfo := fun _ => { fpOk := false }
  pc : Pc := .off
  /-- blocks of attributes which were allocated and freed -/
  made : Nat := 0
  freed : Nat := 0
  /-- the calls of the library which were made; not in the code -/
  trace : List Auth.Ev := []

def init : W := {}

/-- The future of the handler is resolved: with a request, or with an error (`request_callback`,
`nm_iam_auth_handler.c:45-50`). -/
def notice (pc : Pc) : List Auth.Obs → Pc
  | [] => pc
  | .handed i _ :: os => notice (if pc = .waiting then .called i else pc) os
  | .resolved _ _ :: os => notice (if pc = .waiting then .ended else pc) os
  | .given _ _ :: os => notice pc os

/-- `nabto_device_authorization_request_ref_dec`, `nabto_device_authorization.c:303-320`: the attributes are freed with the
request, three blocks each (`free_attribute`, lines 166-175). -/
def sweep (w w' : W) (i : Nat) : W :=
  if (w.auth.reqs i).freed = false ∧ (w'.auth.reqs i).freed = true then
    { w' with freed := w'.freed + 3 * (w'.reqs i).attrs.length }
  else w'

/-- The request which a call may free. -/
def subject : Auth.Ev → Nat
  | .discard i => i
  | .run i => i
  | .free i => i
  | _ => 0

/-- One call of the library. -/
def api (w : W) (e : Auth.Ev) : Option W :=
  match Auth.step w.auth e with
  | none => none
  | some a =>
    some (sweep w { w with
      auth := a
      trace := w.trace ++ [e]
      pc := notice w.pc (a.log.drop w.auth.log.length) } (subject e))

/-- `create_request`, `nabto_device_authorization.c:31-53`, when memory suffices. -/
def create (w : W) (conn : Nat) (action : String) : Option W :=
  api { w with reqs := fun j => if j = w.auth.next then { conn := conn, action := action } else w.reqs j } .create

/-- `add_string_attribute`, `nabto_device_authorization.c:178-205`. The flags tell whether the attribute and the copies of
its key and value can be allocated. Using a freed request is undefined. -/
def add (w : W) (i : Nat) (key value : String) (m1 m2 m3 : Bool) : Option W :=
  if (w.auth.reqs i).freed then none
  else if !m1 then some w
  else if !(m2 && m3) then
    some { w with made := w.made + 1 + m2.toNat + m3.toNat, freed := w.freed + 1 + m2.toNat + m3.toNat }
  else
    some { w with
      made := w.made + 3
      reqs := fun j => if j = i then { w.reqs i with attrs := (key, value) :: (w.reqs i).attrs } else w.reqs j }

/-- `get_attribute`, `nabto_device_authorization.c:207-215`; `none` is the null pointer. -/
def getAttribute : Attrs → Nat → Option (String × String)
  | [], _ => none
  | a :: _, 0 => some a
  | _ :: as, i + 1 => getAttribute as i

/-- `get_attributes_size`, `nabto_device_authorization.c:217-226`. -/
def getAttributesSize : Attrs → Nat
  | [] => 0
  | _ :: as => getAttributesSize as + 1

/-- The loop of `handle_request`, `nm_iam_auth_handler.c:66-70`, from index `i` on with `n` rounds to go. The getters
(`nabto_device_authorization.c:244-275`) dereference what `get_attribute` gives them; `none` is undefined behaviour. -/
def collect (E : Env) (attrs : Attrs) : (n i : Nat) → Attrs → Option Attrs
  | 0, _, m => some m
  | n + 1, i, m =>
    match getAttribute attrs i with
    | none => none
    | some a => collect E attrs n (i + 1) (E.ins m a.1 a.2)

/-- `handle_request`, `nm_iam_auth_handler.c:59-75`, until the verdict is known. -/
def decideReq (E : Env) (w : W) (i : Nat) : Option Bool :=
  if (w.auth.reqs i).freed then none
  else
    match collect E (w.reqs i).attrs (getAttributesSize (w.reqs i).attrs) 0 [] with
    | none => none
    | some m =>
      match checkAccess E w.iam (w.conns (w.reqs i).conn) (w.reqs i).conn (w.reqs i).action m with
      | .ok v => some v
      | .ub => none

/-- The next call of the handler: `request_callback`, `handle_request` and `start_listen`,
`nm_iam_auth_handler.c:39-77`. -/
def work (E : Env) (w : W) : Option W :=
  match w.pc with
  | .listening => api { w with pc := .waiting } (.listen 0)
  | .called i =>
    match decideReq E w i with
    | none => none
    | some v => some { w with pc := .decided i v }
  | .decided i v => api { w with pc := .answered i } (.verdict i v)
  | .answered i => api { w with pc := .listening } (.free i)
  | _ => some w

inductive Ev
  | create (conn : Nat) (action : String)
  | add (i : Nat) (key value : String) (m1 m2 m3 : Bool)
  | discard (i : Nat)
  | check (i : Nat)
  /-- the event queue gets to the verdict event of the request -/
  | run (i : Nat)
  /-- the state or the configuration of the IAM module changes -/
  | iam (x : Iam)
  /-- what there is to know about a connection changes -/
  | conn (ref : Nat) (x : ConnInfo)
  /-- `nm_iam_auth_handler_init`, `nm_iam_auth_handler.c:12-26`, when memory suffices -/
  | init
  /-- the thread of the handler makes its next call -/
  | work
  /-- `nm_iam_auth_handler_stop`, `nm_iam_auth_handler.c:28-31` -/
  | stop
  /-- `nm_iam_auth_handler_deinit`, `nm_iam_auth_handler.c:33-37` -/
  | deinit
  deriving DecidableEq, Repr

def step (E : Env) (w : W) : Ev → Option W
  | .create c a => create w c a
  | .add i k v m1 m2 m3 => add w i k v m1 m2 m3
  | .discard i => api w (.discard i)
  | .check i => api w (.check i)
  | .run i => api w (.run i)
  | .iam x => some { w with iam := x }
  | .conn ref x => some { w with conns := fun j => if j = ref then x else w.conns j }
  | .init => api { w with pc := .listening } .initListener
  | .work => work E w
  | .stop => api w .stopListener
  | .deinit => api { w with pc := .gone } .freeListener

def run (E : Env) (w : W) : List Ev → Option W
  | [] => some w
  | e :: es =>
    match step E w e with
    | none => none
    | some w' => run E w' es

end Verif.Iam.Handler
