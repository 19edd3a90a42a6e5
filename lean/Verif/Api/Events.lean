/-!
# Listeners for connection events and device events

Model of `src/api/nabto_device_connection_events.c`, `src/api/nabto_device_events.c`, of the functions of
`src/api/nabto_device_listener.c` they use, and of the lists of listeners in `src/core/nc_device.c:505-561`. There are
any number of listeners of both kinds; each initialised listener has a context, a block of memory which is
registered with the core. Listeners and contexts are named by numbers, given in the order in which they are made,
and the use of one which was freed is recorded in `bad`. Blocks with events are counted when they are made and
when they are freed. All functions run with the library's lock held. Resolving a future is an observation: what the
application has attached to the future runs later, see `Verif.Api.Future`.
-/

namespace Verif.Api.Events

/-- The two kinds of listeners modelled, `nabto_device_listener.h:45-53`. -/
inductive Kind
  | conn | dev
  deriving DecidableEq, Repr

/-- The error codes that occur, `np_error_code.h`. -/
inductive Ec
  | ok | stopped | aborted | outOfMemory | operationInProgress | invalidState | invalidArgument | unknown
  deriving DecidableEq, Repr

/-- An event: `struct nabto_device_listen_connection_event` (`nabto_device_connection_events.c:25-29`) and
`struct nabto_device_listen_device_event` (`nabto_device_events.c:27-30`). -/
inductive Val
  | conn (ref ev : Nat)
  | dev (ev : Nat)
  deriving DecidableEq, Repr

def Val.kind : Val → Kind
  | .conn .. => .conn
  | .dev _ => .dev

/-- `struct nabto_device_listen_connection_context` (`nabto_device_connection_events.c:31-37`) and
`struct nabto_device_listen_device_context` (`nabto_device_events.c:32-37`, without `userRef`). The variables of the
application are named by numbers; `none` is NULL. -/
structure Ctx where
  kind : Kind
  listener : Nat
  userRef : Option Nat := none
  userEvent : Option Nat := none
  deriving DecidableEq, Repr

/-- `struct nabto_device_listener`, `nabto_device_listener.h:55-73`. The callback is named by the kind of listener it
belongs to; `isInitialized` is kept apart from the type as in the code; the `genericFutureResolverData` of other
kinds is left out. -/
structure Lst where
  initialized : Bool := false
  type : Option Kind := none
  ec : Ec := .ok
  fut : Option Nat := none
  events : List Val := []
  cb : Option Kind := none
  data : Nat := 0
  deriving DecidableEq, Repr

/-- What the application observes. The label `l` of an observation says whose callback it comes from. -/
inductive Out
  /-- a listener was made or not -/
  | made (l : Option Nat)
  /-- a function returned -/
  | ret (l : Nat) (ec : Ec)
  /-- variables of the application are written, with these numbers -/
  | hand (l : Nat) (ws : List (Nat × Nat))
  /-- a future is resolved -/
  | resolve (l : Nat) (fut : Nat) (ec : Ec)
  deriving DecidableEq, Repr

/-- The listeners of a device. `all` is `dev->listeners`, `regs` are `dev->eventsListeners` and `dev->deviceEvents`
of the core. -/
structure W where
  nl : Nat := 0
  nc : Nat := 0
  lsts : Nat → Option Lst := fun _ => none
  ctxs : Nat → Option Ctx := fun _ => none
  all : List Nat := []
  regs : Kind → List Nat := fun _ => []
  made : Nat := 0
  freed : Nat := 0
  bad : Bool := false

def W.setL (w : W) (l : Nat) (L : Lst) : W := { w with lsts := fun i => if i = l then some L else w.lsts i }

def W.setC (w : W) (c : Nat) (x : Ctx) : W := { w with ctxs := fun i => if i = c then some x else w.ctxs i }

def W.fault (w : W) : W := { w with bad := true }

/-- `nabto_device_listener_new`, `nabto_device_listener.c:16-36`. -/
def new (w : W) (mem : Bool) : W × List Out :=
  if mem then
    ({ w.setL w.nl {} with nl := w.nl + 1, all := w.all ++ [w.nl] }, [.made (some w.nl)])
  else (w, [.made none])

/-- `nabto_device_connection_events_init_listener` (`nabto_device_connection_events.c:84-104`) and
`nabto_device_device_events_init_listener` (`nabto_device_events.c:81-101`), with `nabto_device_listener_init`
(`nabto_device_listener.c:38-53`), which does not fail and does not look at what the listener was before, and
`nc_device_add_connection_events_listener`, `nc_device_add_device_events_listener` (`nc_device.c:505-511, 533-539`). -/
def init (w : W) (k : Kind) (l : Nat) (mem : Bool) : W × List Out :=
  if mem then
    match w.lsts l with
    | none => (w.fault, [])
    | some L =>
      let w := w.setL l { L with cb := some k, data := w.nc, events := [], ec := .ok, type := some k, initialized := true }
      let w := w.setC w.nc { kind := k, listener := l }
      ({ w with nc := w.nc + 1, regs := fun j => if j = k then w.regs j ++ [w.nc] else w.regs j }, [.ret l .ok])
  else (w, [.ret l .outOfMemory])

/-- The callbacks with `NABTO_EC_OK`: `nabto_device_connection_events_listener_cb`
(`nabto_device_connection_events.c:44-56`) and `nabto_device_events_listener_cb` (`nabto_device_events.c:44-54`). -/
def cbOk (w : W) (k : Kind) (l : Nat) (v : Val) (data : Nat) : W × Ec × List Out :=
  match w.ctxs data with
  | none => (w.fault, .unknown, [])
  | some x =>
    match k, v with
    | .conn, .conn r e =>
      match x.userRef, x.userEvent with
      | some p, some q =>
        ({ w.setC data { x with userRef := none, userEvent := none } with freed := w.freed + 1 }, .ok,
          [.hand l [(p, r), (q, e)]])
      | some _, none => (w.fault, .ok, [])
      | none, _ => ({ w with freed := w.freed + 1 }, .unknown, [])
    | .dev, .dev e =>
      match x.userEvent with
      | some q =>
        ({ w.setC data { x with userEvent := none } with freed := w.freed + 1 }, .ok, [.hand l [(q, e)]])
      | none => ({ w with freed := w.freed + 1 }, .unknown, [])
    | _, _ => (w.fault, .unknown, [])

/-- The callbacks with `NABTO_EC_ABORTED`: `nabto_device_connection_events.c:57-60` and `nabto_device_events.c:55-58`,
with `nc_device_remove_connection_events_listener` and `nc_device_remove_device_events_listener`
(`nc_device.c:513-517, 541-545`). -/
def cbAborted (w : W) (k : Kind) (data : Nat) : W :=
  match w.ctxs data with
  | none => w.fault
  | some _ =>
    { w with
      ctxs := fun i => if i = data then none else w.ctxs i
      regs := fun j => if j = k then (w.regs j).filter (· ≠ data) else w.regs j }

/-- `nabto_device_listener_try_resolve`, `nabto_device_listener.c:172-191`. -/
def tryResolve (w : W) (l : Nat) : W × List Out :=
  match w.lsts l with
  | none => (w.fault, [])
  | some L =>
    match L.fut, L.events with
    | some f, v :: vs =>
      let w := w.setL l { L with events := vs, fut := none }
      match L.cb with
      | some k =>
        let r := cbOk w k l v L.data
        (r.1, r.2.2 ++ [.resolve l f r.2.1])
      | none => (w, [.resolve l f .unknown])
    | _, _ => (w, [])

/-- `nabto_device_listener_resolve_error_state`, `nabto_device_listener.c:193-220`. The callback frees the events it is
given with another code than `NABTO_EC_OK` and `NABTO_EC_ABORTED` (`nabto_device_connection_events.c:61-64`,
`nabto_device_events.c:59-62`). -/
def resolveErrorState (w : W) (l : Nat) : W × List Out :=
  match w.lsts l with
  | none => (w.fault, [])
  | some L =>
    let w := if L.cb.isSome then { w with freed := w.freed + L.events.length } else w
    let w := w.setL l { L with events := [], fut := none, cb := none }
    let outs := match L.fut with | some f => [Out.resolve l f L.ec] | none => []
    match L.cb with
    | some k => (cbAborted w k L.data, outs)
    | none => (w, outs)

/-- `nabto_device_listener_set_error_code`, `nabto_device_listener.c:125-133`. -/
def setErrorCode (w : W) (l : Nat) (ec : Ec) : W × List Out :=
  match w.lsts l with
  | none => (w.fault, [])
  | some L =>
    if !L.initialized then (w, [])
    else resolveErrorState (w.setL l { L with ec := ec }) l

/-- `nabto_device_listener_add_event`, `nabto_device_listener.c:55-67`, as the callers use it: an event which is not
accepted is freed (`nabto_device_connection_events.c:78-81`, `nabto_device_events.c:75-78`). -/
def addEvent (w : W) (l : Nat) (v : Val) : W × List Out :=
  match w.lsts l with
  | none => (w.fault, [])
  | some L =>
    if !L.initialized then ({ w with freed := w.freed + 1 }, [])
    else if L.ec ≠ .ok then ({ w with freed := w.freed + 1 }, [])
    else tryResolve (w.setL l { L with events := L.events ++ [v] }) l

/-- `nabto_device_connection_events_core_cb` (`nabto_device_connection_events.c:68-82`) and
`nabto_device_events_core_cb` (`nabto_device_events.c:66-79`). `mem` says whether the event can be allocated; it may
depend on the listener. -/
def coreCb (w : W) (c : Nat) (v : Val) (mem : Nat → Bool) : W × List Out :=
  match w.ctxs c with
  | none => (w.fault, [])
  | some x =>
    if mem x.listener then addEvent { w with made := w.made + 1 } x.listener v
    else setErrorCode w x.listener .outOfMemory

/-- The loops of `nc_device_connection_events_listener_notify` (`nc_device.c:519-531`) and
`nc_device_events_listener_notify` (`nc_device.c:547-561`). The iterator moves on before the callback runs, so that
the callback may take the listener out of the list; an element the iterator points to which was taken out is recorded
as a misuse. -/
def notifyGo (w : W) (v : Val) (mem : Nat → Bool) : List Nat → W × List Out
  | [] => (w, [])
  | c :: cs =>
    if c ∈ w.regs v.kind then
      let r := coreCb w c v mem
      let r' := notifyGo r.1 v mem cs
      (r'.1, r.2 ++ r'.2)
    else (w.fault, [])

def notify (w : W) (v : Val) (mem : Nat → Bool) : W × List Out := notifyGo w v mem (w.regs v.kind)

/-- Where the next event goes: `nabto_device_connection_events.c:130-131` and `nabto_device_events.c:129`. -/
def Ctx.aim (x : Ctx) (k : Kind) (ref ev : Option Nat) : Ctx :=
  match k with
  | .conn => { x with userRef := ref, userEvent := ev }
  | .dev => { x with userEvent := ev }

/-- `nabto_device_listener_connection_event` (`nabto_device_connection_events.c:106-135`) and
`nabto_device_listener_device_event` (`nabto_device_events.c:103-134`), with `nabto_device_listener_init_future`
(`nabto_device_listener.c:97-111`). -/
def listen (w : W) (k : Kind) (l : Nat) (f : Nat) (ref ev : Option Nat) : W × List Out :=
  match w.lsts l with
  | none => (w.fault, [])
  | some L =>
    if L.type ≠ some k then (w, [.resolve l f .invalidArgument])
    else if L.ec ≠ .ok then (w, [.resolve l f L.ec])
    else if !L.initialized then (w, [.resolve l f .invalidState])
    else if L.fut.isSome then (w, [.resolve l f .operationInProgress])
    else
      let w := w.setL l { L with fut := some f }
      match w.ctxs L.data with
      | none => (w.fault, [])
      | some x =>
        tryResolve (w.setC L.data (x.aim k ref ev)) l

/-- `nabto_device_listener_stop_internal`, `nabto_device_listener.c:159-169`. -/
def stopInternal (w : W) (l : Nat) : W × Ec × List Out :=
  match w.lsts l with
  | none => (w.fault, .ok, [])
  | some L =>
    if !L.initialized then (w, .invalidState, [])
    else if L.ec = .ok then
      let r := setErrorCode w l .stopped
      (r.1, .ok, r.2)
    else (w, .ok, [])

/-- `nabto_device_listener_stop`, `nabto_device_listener.c:113-122`. -/
def stop (w : W) (l : Nat) : W × List Out :=
  let r := stopInternal w l
  (r.1, r.2.2 ++ [.ret l r.2.1])

/-- The loop of `nabto_device_listener_stop_all`, `nabto_device_listener.c:140-151`, called when the device is stopped
(`nabto_device.c:197`). -/
def stopAllGo (w : W) : List Nat → W × List Out
  | [] => (w, [])
  | l :: ls =>
    let r := stopInternal w l
    let r' := stopAllGo r.1 ls
    (r'.1, r.2.2 ++ r'.2)

/-- `nabto_device_listener_free`, `nabto_device_listener.c:69-82`. -/
def free (w : W) (l : Nat) : W × List Out :=
  match w.lsts l with
  | none => (w.fault, [])
  | some _ =>
    ({ w with lsts := fun i => if i = l then none else w.lsts i, all := w.all.filter (· ≠ l) }, [])

/-- One call. The flags are the answers of the allocator. -/
inductive Call
  | new (mem : Bool)
  | init (k : Kind) (l : Nat) (mem : Bool)
  | listen (k : Kind) (l : Nat) (fut : Nat) (ref ev : Option Nat)
  | stop (l : Nat)
  | free (l : Nat)
  /-- the device is stopped -/
  | stopAll
  /-- something happens in the core -/
  | notify (v : Val) (mem : Nat → Bool)

def step (w : W) : Call → W × List Out
  | .new mem => new w mem
  | .init k l mem => init w k l mem
  | .listen k l f ref ev => listen w k l f ref ev
  | .stop l => stop w l
  | .free l => free w l
  | .stopAll => stopAllGo w w.all
  | .notify v mem => notify w v mem

def run (w : W) : List Call → W × List Out
  | [] => (w, [])
  | c :: cs =>
    let r := step w c
    let r' := run r.1 cs
    (r'.1, r.2 ++ r'.2)

end Verif.Api.Events
