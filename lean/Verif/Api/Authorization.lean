import Verif.Api.Listener

/-!
# Authorization requests

Model of `src/api/nabto_device_authorization.c` and `nabto_device_authorization_events.c`: a request goes from the
core through the authorization listener to the application, and the verdict goes back through the event queue.
Attributes are not modelled. Using a request or listener after it was freed is undefined behaviour, `none`.
-/

namespace Verif.Api.Auth

open Verif.Api

/-- `struct nabto_device_authorization_request`, `nabto_device_authorization.h:32-62`. `verdict` stands for
`verdict` and `verdictDone`; `posted` says that the verdict event is in the event queue; `callback` that the
verdict callback is set; `freed` that the memory has been given back. -/
structure Req where
  refs : Nat := 1
  verdict : Option Bool := none
  posted : Bool := false
  callback : Bool := false
  freed : Bool := false
  deriving DecidableEq, Repr

/-- The `listener` of `struct nabto_device_authorization_module`, `nabto_device_authorization.h:64-69`. -/
inductive Ptr
  | null | alive | dangling
  deriving DecidableEq, Repr

/-- What the core and the application see. -/
inductive Obs
  /-- the core's callback is called with the verdict -/
  | given (id : Nat) (verdict : Bool)
  /-- the application gets the request in the result of a future -/
  | handed (id : Nat) (fut : Nat)
  | resolved (fut : Nat) (ec : Listener.Ec)
  deriving DecidableEq, Repr

/-- Requests are numbered in the order of their creation. -/
structure World where
  listener : Ptr := .null
  lst : Listener.Lst := Listener.new
  next : Nat := 0
  reqs : Nat → Req := fun _ => {}
  log : List Obs := []

def init : World := {}

def set (f : Nat → Req) (i : Nat) (r : Req) : Nat → Req := fun j => if j = i then r else f j

/-- `nabto_device_authorization_request_ref_inc`, `nabto_device_authorization.c:298-301`. -/
def refInc (w : World) (i : Nat) : Option World :=
  if (w.reqs i).freed then none
  else some { w with reqs := set w.reqs i { w.reqs i with refs := (w.reqs i).refs + 1 } }

/-- `nabto_device_authorization_request_ref_dec`, `nabto_device_authorization.c:303-320`. Destroying the event
removes it from the event queue. -/
def refDec (w : World) (i : Nat) : Option World :=
  if (w.reqs i).freed then none
  else if (w.reqs i).refs = 1 then
    some { w with reqs := set w.reqs i { w.reqs i with refs := 0, posted := false, freed := true } }
  else some { w with reqs := set w.reqs i { w.reqs i with refs := (w.reqs i).refs - 1 } }

/-- `nabto_device_authorization_do_verdict`, `nabto_device_authorization.c:98-106`. -/
def doVerdict (w : World) (i : Nat) (v : Bool) : Option World :=
  if (w.reqs i).freed then none
  else if (w.reqs i).verdict = none then
    some { w with reqs := set w.reqs i { w.reqs i with verdict := some v, posted := true } }
  else some w

/-- The effect of what the listener does, with the callback `nabto_device_authorization_listener_callback`,
`nabto_device_authorization_events.c:37-53`. The place for the result is that of the listen call. -/
def act (w : World) : Listener.Act → Option World
  | .deliver i f => (refInc w i).map fun w => { w with log := w.log ++ [.handed i f] }
  | .release i _ => doVerdict w i false
  | .resolve f ec => some { w with log := w.log ++ [.resolved f ec] }
  | .ended => some w

def acts (w : World) : List Listener.Act → Option World
  | [] => some w
  | a :: as => (act w a).bind (acts · as)

/-- `create_request`, `nabto_device_authorization.c:31-53`, when memory suffices. -/
def create (w : World) : World := { w with next := w.next + 1, reqs := set w.reqs w.next {} }

/-- Setting the callback, `nabto_device_authorization.c:79-82`. -/
def setCallback (w : World) (i : Nat) : World :=
  { w with reqs := set w.reqs i { w.reqs i with callback := true } }

/-- The second part of `check_access`, `nabto_device_authorization.c:84-94`. -/
def submit (w : World) (i : Nat) : Option World :=
  match w.listener with
  | .null => doVerdict w i false
  | .dangling => none
  | .alive =>
    match Listener.addEvent w.lst i with
    | (l, .ok, as) => acts { w with lst := l } as
    | (l, _, as) => (acts { w with lst := l } as).bind (doVerdict · i false)

/-- `check_access`, `nabto_device_authorization.c:70-95`. -/
def check (w : World) (i : Nat) : Option World :=
  if (w.reqs i).freed then none else submit (setCallback w i) i

/-- `handle_verdict`, `nabto_device_authorization.c:63-68`, when the event queue runs the event. -/
def handleVerdict (w : World) (i : Nat) : Option World :=
  match (w.reqs i).callback, (w.reqs i).verdict with
  | true, some v => refDec { w with
      reqs := set w.reqs i { w.reqs i with posted := false }
      log := w.log ++ [.given i v] } i
  | _, _ => none

/-- `nabto_device_authorization_request_init_listener`, `nabto_device_authorization_events.c:55-74`, on a new
listener. The second component is the result. -/
def initListener (w : World) : World × Listener.Ec :=
  if w.listener ≠ .null then (w, .inUse)
  else ({ w with listener := .alive, lst := Listener.init w.lst }, .ok)

/-- `nabto_device_authorization_request_free`, `nabto_device_authorization.c:111-126`. -/
def free (w : World) (i : Nat) : Option World :=
  if (w.reqs i).freed then none
  else if (w.reqs i).verdict = none then (doVerdict w i false).bind (refDec · i)
  else refDec w i

/-- One call by the core or by the application. -/
inductive Ev
  /-- the core creates the next request -/
  | create
  /-- the core does not want to use the request it has created -/
  | discard (id : Nat)
  /-- the core asks for a verdict -/
  | check (id : Nat)
  /-- the event queue gets to the verdict event of the request -/
  | run (id : Nat)
  | initListener
  | listen (fut : Nat)
  | stopListener
  | freeListener
  /-- the application gives a verdict -/
  | verdict (id : Nat) (v : Bool)
  /-- the application frees the request -/
  | free (id : Nat)
  deriving DecidableEq, Repr

/-- `nabto_device_listener_new_authorization_request` (`nabto_device_authorization_events.c:79-111`) is the common
`Listener.listen`. -/
def step (w : World) : Ev → Option World
  | .create => some (create w)
  | .discard i => refDec w i
  | .check i => check w i
  | .run i => if (w.reqs i).posted then handleVerdict w i else some w
  | .initListener => some (initListener w).1
  | .listen f =>
    if w.listener = .dangling then none
    else acts { w with lst := (Listener.listen w.lst f).1 } (Listener.listen w.lst f).2
  | .stopListener =>
    if w.listener = .dangling then none
    else acts { w with lst := (Listener.stop w.lst).1 } (Listener.stop w.lst).2.2
  | .freeListener =>
    match w.listener with
    | .null => some w
    | .alive => some { w with listener := .dangling }
    | .dangling => none
  | .verdict i v => doVerdict w i v
  | .free i => free w i

def run (w : World) : List Ev → Option World
  | [] => some w
  | e :: es => (step w e).bind (run · es)

end Verif.Api.Auth
