import Verif.Api.Listener

/-!
# Password authentication requests

Model of `src/api/nabto_device_password_authentication.c`: a password request of the core goes through the listener
to the application, whose password goes to `nc_spake2_password_ready`. Using a request after it was freed is
undefined behaviour, `none`.
-/

namespace Verif.Api.Pwd

open Verif.Api

/-- `struct nabto_device_password_authentication_request`, `nabto_device_password_authentication.h`. `none` is a
request for which no such structure was allocated. -/
structure Req where
  handled : Bool := false
  freed : Bool := false
  deriving DecidableEq, Repr

/-- What the core and the application see. -/
inductive Obs
  /-- `nc_spake2_password_ready` is called: the client gets its answer -/
  | ready (id : Nat) (password : Option String)
  /-- the core answers the client itself, `nc_spake2_coap.c:95-96` -/
  | refused (id : Nat)
  /-- the application gets the request in the result of a future -/
  | handed (id : Nat) (fut : Nat)
  | resolved (fut : Nat) (ec : Listener.Ec)
  deriving DecidableEq, Repr

/-- Requests are numbered in the order in which clients send them. `handler` says that
`spake2.passwordRequestHandler` is set, to the listener `lst`. -/
structure World where
  handler : Bool := false
  lst : Listener.Lst := Listener.new
  next : Nat := 0
  reqs : Nat → Req := fun _ => {}
  log : List Obs := []

def init : World := {}

def set (f : Nat → Req) (i : Nat) (r : Req) : Nat → Req := fun j => if j = i then r else f j

/-- `nabto_device_password_authentication_request_free_internal`,
`nabto_device_password_authentication.c:190-196`. -/
def freeInternal (w : World) (i : Nat) : Option World :=
  if (w.reqs i).freed then none
  else
    let w := if (w.reqs i).handled then w else { w with log := w.log ++ [.ready i none] }
    some { w with reqs := set w.reqs i { w.reqs i with freed := true } }

/-- The effect of what the listener does, with the callback
`nabto_device_password_authentication_listener_resolve_event`,
`nabto_device_password_authentication.c:43-60`. -/
def act (w : World) : Listener.Act → Option World
  | .deliver i f => some { w with log := w.log ++ [.handed i f] }
  | .release i ec => if ec = .stopped then freeInternal w i else some w
  | .resolve f ec => some { w with log := w.log ++ [.resolved f ec] }
  | .ended => some { w with handler := false }

def acts (w : World) : List Listener.Act → Option World
  | [] => some w
  | a :: as => (act w a).bind (acts · as)

/-- A client asks for a password: `nc_spake2_coap.c:95-116` and `password_request_handler`,
`nabto_device_password_authentication.c:124-136`, whose result the core ignores. `mem` says that the allocation
succeeds. -/
def request (w : World) (mem : Bool) : Option World :=
  let i := w.next
  let w := { w with next := w.next + 1 }
  if !w.handler then some { w with log := w.log ++ [.refused i] }
  else if !mem then some w
  else acts { w with lst := (Listener.addEvent w.lst i).1 } (Listener.addEvent w.lst i).2.2

/-- `nabto_device_password_authentication_request_init_listener`,
`nabto_device_password_authentication.c:101-122`, on a new listener. -/
def initListener (w : World) : World × Listener.Ec :=
  if w.handler then (w, .inUse)
  else ({ w with lst := Listener.init Listener.new, handler := true }, .ok)

/-- `nabto_device_password_authentication_request_set_password`,
`nabto_device_password_authentication.c:158-174`. -/
def setPassword (w : World) (i : Nat) (p : String) : Option (World × Listener.Ec) :=
  if (w.reqs i).freed then none
  else if (w.reqs i).handled then some (w, .invalidState)
  else some ({ w with
    reqs := set w.reqs i { w.reqs i with handled := true }
    log := w.log ++ [.ready i (some p)] }, .ok)

inductive Ev
  | request (mem : Bool)
  | initListener
  | listen (fut : Nat)
  | stopListener
  | setPassword (id : Nat) (password : String)
  | free (id : Nat)
  deriving DecidableEq, Repr

/-- `nabto_device_listener_new_password_authentication_request` (`nabto_device_password_authentication.c:198-230`) is
the common `Listener.listen`; `listen` and `stopListener` are for the listener last initialised. -/
def step (w : World) : Ev → Option World
  | .request mem => request w mem
  | .initListener => some (initListener w).1
  | .listen f => acts { w with lst := (Listener.listen w.lst f).1 } (Listener.listen w.lst f).2
  | .stopListener => acts { w with lst := (Listener.stop w.lst).1 } (Listener.stop w.lst).2.2
  | .setPassword i p => (setPassword w i p).map (·.1)
  | .free i => freeInternal w i

def run (w : World) : List Ev → Option World
  | [] => some w
  | e :: es => (step w e).bind (run · es)

namespace Spec

/-- The answers the client gets. -/
def answers (i : Nat) : List Obs → List (Option String)
  | [] => []
  | .ready j p :: os => if j = i then p :: answers i os else answers i os
  | .refused j :: os => if j = i then none :: answers i os else answers i os
  | _ :: os => answers i os

/-- How often a request has been handed to the application. -/
def handed (i : Nat) : List Obs → Nat
  | [] => 0
  | .handed j _ :: os => (if j = i then 1 else 0) + handed i os
  | _ :: os => handed i os

/-- The application's first answer for a request: freeing it without a password is a refusal. -/
def given (i : Nat) : List Ev → Option (Option String)
  | [] => none
  | .setPassword j p :: es => if j = i then some (some p) else given i es
  | .free j :: es => if j = i then some none else given i es
  | _ :: es => given i es

/-- The application uses a request it has been handed until it frees it. -/
def Allowed (evs : List Ev) (log : List Obs) : Ev → Prop
  | .setPassword i _ => 0 < handed i log ∧ .free i ∉ evs
  | .free i => 0 < handed i log ∧ .free i ∉ evs
  | _ => True

/-- A history in which every event was allowed when it happened. -/
def Legal (evs : List Ev) : Prop :=
  ∀ p e rest, evs = p ++ e :: rest → ∀ w, run init p = some w → Allowed p w.log e

end Spec

end Verif.Api.Pwd
