/-!
# Listeners

Model of `src/api/nabto_device_listener.c`: the queue of events between the core and the application, and the
part common to all the `nabto_device_listener_new_*` functions. Events are numbers given by the core; the
listener's callback is represented by the sequence of its invocations (`Act`). All functions run with the
library's lock held.
-/

namespace Verif.Api.Listener

/-- The error codes that occur, `np_error_code.h`. -/
inductive Ec
  | ok | stopped | aborted | outOfMemory | operationInProgress | invalidState | invalidArgument | inUse | unknown
  deriving DecidableEq, Repr

/-- What a listener does to the outside. -/
inductive Act
  /-- the callback is called with `NABTO_EC_OK` and the event: it is handed to the application in the future's
  result -/
  | deliver (ev : Nat) (fut : Nat)
  /-- the callback is called with an error and the event: it is cleaned up -/
  | release (ev : Nat) (ec : Ec)
  /-- the future is resolved -/
  | resolve (fut : Nat) (ec : Ec)
  /-- the callback is called with `NABTO_EC_ABORTED`: the last callback -/
  | ended
  deriving DecidableEq, Repr

/-- `struct nabto_device_listener`, `nabto_device_listener.h:55-72`. The callback is set or not; the type is
that given at initialisation. -/
structure Lst where
  initialized : Bool := false
  ec : Ec := .ok
  fut : Option Nat := none
  events : List Nat := []
  cb : Bool := false
  deriving DecidableEq, Repr

/-- `nabto_device_listener_new`, `nabto_device_listener.c:16-36`. -/
def new : Lst := {}

/-- `nabto_device_listener_init`, `nabto_device_listener.c:38-53`. -/
def init (l : Lst) : Lst := { l with initialized := true, ec := .ok, events := [], cb := true }

/-- `nabto_device_listener_try_resolve`, `nabto_device_listener.c:172-191`. The callbacks of all listeners return
`NABTO_EC_OK` for an event if the application gave a place for the result, which is checked nowhere. -/
def tryResolve (l : Lst) : Lst × List Act :=
  match l.fut, l.events with
  | some f, ev :: evs =>
    ({ l with fut := none, events := evs },
      if l.cb then [.deliver ev f, .resolve f .ok] else [.resolve f .unknown])
  | _, _ => (l, [])

/-- `nabto_device_listener_add_event`, `nabto_device_listener.c:55-67`. -/
def addEvent (l : Lst) (ev : Nat) : Lst × Ec × List Act :=
  if !l.initialized then (l, .invalidState, [])
  else if l.ec ≠ .ok then (l, l.ec, [])
  else
    let r := tryResolve { l with events := l.events ++ [ev] }
    (r.1, .ok, r.2)

/-- `nabto_device_listener_init_future`, `nabto_device_listener.c:97-111`. -/
def initFuture (l : Lst) (f : Nat) : Lst × Ec :=
  if !l.initialized then (l, .invalidState)
  else if l.ec ≠ .ok then (l, l.ec)
  else if l.fut.isSome then (l, .operationInProgress)
  else ({ l with fut := some f }, .ok)

/-- The listen functions: `nabto_device_listener_new_stream` (`nabto_device_stream.c:75-106`),
`nabto_device_listener_device_event` (`nabto_device_events.c:103-138`) and the like. A listener that has not been
initialised has another type. -/
def listen (l : Lst) (f : Nat) : Lst × List Act :=
  if !l.initialized then (l, [.resolve f .invalidArgument])
  else if l.ec ≠ .ok then (l, [.resolve f l.ec])
  else
    match initFuture l f with
    | (l', .ok) => tryResolve l'
    | (l', e) => (l', [.resolve f e])

/-- `nabto_device_listener_resolve_error_state`, `nabto_device_listener.c:193-220`. -/
def resolveErrorState (l : Lst) : Lst × List Act :=
  let ec := if l.ec = .aborted then .stopped else l.ec
  ({ l with events := [], fut := none, cb := false },
    (if l.cb then l.events.map (.release · ec) else []) ++
    (match l.fut with | some f => [.resolve f l.ec] | none => []) ++
    (if l.cb then [.ended] else []))

/-- `nabto_device_listener_set_error_code`, `nabto_device_listener.c:125-133`. -/
def setErrorCode (l : Lst) (ec : Ec) : Lst × List Act :=
  if !l.initialized then (l, []) else resolveErrorState { l with ec := ec }

/-- `nabto_device_listener_stop`, `nabto_device_listener.c:113-122, 159-169`. -/
def stop (l : Lst) : Lst × Ec × List Act :=
  if !l.initialized then (l, .invalidState, [])
  else if l.ec = .ok then
    let r := setErrorCode l .stopped
    (r.1, .ok, r.2)
  else (l, .ok, [])

/-- One call on the listener. -/
inductive Ev
  /-- the listener is initialised for its purpose -/
  | init
  /-- the core adds an event -/
  | add (ev : Nat)
  /-- the application listens with a future -/
  | listen (fut : Nat)
  | stop
  /-- the core could not allocate an event, `nabto_device_events.c:69-72` -/
  | fail
  deriving DecidableEq, Repr

/-- What is visible of one call: the callback invocations and resolved futures, and an event that was not
accepted, which its owner cleans up. -/
inductive Obs
  | act (a : Act)
  | rejected (ev : Nat)
  deriving DecidableEq, Repr

def step (l : Lst) : Ev → Lst × List Obs
  | .init => (init l, [])
  | .add ev =>
    match addEvent l ev with
    | (l', .ok, as) => (l', as.map .act)
    | (l', _, as) => (l', as.map .act ++ [.rejected ev])
  | .listen f => let r := listen l f; (r.1, r.2.map .act)
  | .stop => let r := stop l; (r.1, r.2.2.map .act)
  | .fail => let r := setErrorCode l .outOfMemory; (r.1, r.2.map .act)

def run (l : Lst) : List Ev → Lst × List Obs
  | [] => (l, [])
  | e :: es =>
    let r := step l e
    let r' := run r.1 es
    (r'.1, r.2 ++ r'.2)

end Verif.Api.Listener
