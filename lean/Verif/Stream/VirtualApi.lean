import Verif.Stream.Virtual

/-!
# Virtual streams in the API (model, C143)

Model of the functions for virtual streams in `src/api/nabto_device_virtual_connection.c`: the application
starts an operation on a handle with a future; the operation is given to the core (`Verif.Stream.Virtual`)
with a completion event which is a part of the handle, one for each kind of operations; the core posts the
event when the operation is complete; the event queue calls the callback, and the callback resolves the
future. The mutex of the device makes every function and every callback one step. `nabto_device_virtual_
stream_read_all` does not unlock it when a read is in progress; from then on every step blocks (`hung`).

An event object is a number, since `np_completion_event_init` makes a new one each time. Using an event object
which does not exist, a handle which has been freed, a stream which was not made or a future which is not there
is undefined behaviour; it is recorded in `ub`.

Not modelled: the reference count of a stream in the core, which keeps it until both ends have left it
(`Verif.Stream.Manager`), the lengths written through `readLength` (they are in `Verif.Stream.Virtual`) and
that `new` may find no memory, in which case there is no handle.
-/

namespace Verif.Stream.VirtualApi

open Verif.Stream (Ec)

variable {F : Type}

/-- The kinds of operations; each has a future and a completion event in the handle. -/
inductive Kind where
  | opn | read | write | close
deriving DecidableEq, Repr

/-- Change a function at one place. -/
def upd {α : Type} (f : Kind → α) (k : Kind) (v : α) : Kind → α := fun k' => if k' = k then v else f k'

/-- `struct nabto_device_virtual_stream` (nabto_device_virtual_connection.c:21-38) with the streams in the core
which were made for it and the events which are in the queue. `cur` is the stream the handle points to; the
core keeps the others too. `made` counts the event objects which were made and `gone` those which were
destroyed. -/
structure St (F : Type) where
  cores : List (Virtual.St Kind)
  cur : Option Nat
  fut : Kind → Option F
  ev : Kind → Option Nat
  ec : Kind → Ec
  q : List (Kind × Nat)
  made : Nat
  gone : Nat
  hung : Bool
  freed : Bool
  ub : Bool

/-- `nabto_device_virtual_stream_new` (nabto_device_virtual_connection.c:389-402): the handle is allocated with
`np_calloc`. -/
def St.init : St F :=
  { cores := [], cur := none, fut := fun _ => none, ev := fun _ => none, ec := fun _ => .ok, q := [],
    made := 0, gone := 0, hung := false, freed := false, ub := false }

/-- What happens: a future is resolved at once because another operation of the same kind is in progress, the
future of an opening is resolved at once because there is no memory, a future is resolved by a callback, and
what the core does. -/
inductive Out (F : Type) where
  | refused (k : Kind) (f : F)
  | failed (f : F)
  | resolved (k : Kind) (f : F) (ec : Ec)
  | core (o : Virtual.Out Kind)
deriving DecidableEq, Repr

/-- `np_completion_event_resolve` (np_completion_event.c:44-48) with `post_event`
(thread_event_queue.c:123-130) and `nm_event_queue_post_event` (nm_event_queue.c:36-43): an event which is
in the queue already is not put there again. The completion event is a part of the handle. -/
def post (s : St F) (k : Kind) (ec : Ec) : St F :=
  if s.freed then { s with ub := true }
  else
    match s.ev k with
    | none => { s with ec := upd s.ec k ec, ub := true }
    | some i =>
      { s with ec := upd s.ec k ec, q := if (k, i) ∈ s.q then s.q else s.q ++ [(k, i)] }

/-- The operations of the client which the core completes are posted; the operations of the device's
application complete somewhere else (`Verif.Stream.Api`). -/
def postAll (s : St F) : List (Virtual.Out Kind) → St F
  | [] => s
  | .done .client k ec _ :: os => postAll (post s k ec) os
  | .done .server _ _ _ :: os => postAll s os

/-- A stream in the core makes a step. -/
def inCore (s : St F) (i : Nat) (op : Virtual.Op Kind) : St F × List (Out F) :=
  match s.cores[i]? with
  | none => (s, [])
  | some c =>
    let (c', os) := Virtual.step c op
    (postAll { s with cores := s.cores.set i c' } os, os.map .core)

/-- The stream of the handle makes a step; if there is none, a null pointer is used. -/
def inCur (s : St F) (op : Virtual.Op Kind) : St F × List (Out F) :=
  match s.cur with
  | none => ({ s with ub := true }, [])
  | some i => inCore s i op

/-- `np_completion_event_init` (np_completion_event.c:10-25); `oom` says that there is no memory for the event
object. The result is not looked at by the callers. -/
def initEv (s : St F) (k : Kind) (oom : Bool) : St F :=
  if oom then { s with ev := upd s.ev k none }
  else { s with ev := upd s.ev k (some s.made), made := s.made + 1 }

/-- `nabto_device_virtual_stream_open` (nabto_device_virtual_connection.c:418-434) with
`nc_stream_manager_accept_virtual_stream` (nc_stream_manager.c:233-247) and `nc_virtual_stream_init`
(nc_virtual_stream.c:12-31); `mem` says that there is memory for the stream in the core. -/
def opn (s : St F) (f : F) (oom mem : Bool) : St F × List (Out F) :=
  let s := initEv { s with fut := upd s.fut .opn (some f) } .opn oom
  if mem then ({ s with cores := s.cores ++ [Virtual.St.init .opn], cur := some s.cores.length }, [])
  else ({ s with cur := none }, [.failed f])

/-- `nabto_device_virtual_stream_read_some` (nabto_device_virtual_connection.c:462-485),
`nabto_device_virtual_stream_write` (488-510) and `nabto_device_virtual_stream_close` (512-530) have the same
form. -/
def start (s : St F) (k : Kind) (f : F) (oom : Bool) (op : Virtual.Op Kind) : St F × List (Out F) :=
  if (s.fut k).isSome then (s, [.refused k f])
  else inCur (initEv { s with fut := upd s.fut k (some f) } k oom) op

/-- `nabto_device_virtual_stream_read_all` (nabto_device_virtual_connection.c:437-459): it returns without
unlocking the mutex when a read is in progress (445-448). -/
def readAll (s : St F) (f : F) (oom : Bool) (n : Nat) : St F × List (Out F) :=
  if (s.fut .read).isSome then ({ s with hung := true }, [.refused .read f])
  else start s .read f oom (.cReadAll .read n)

/-- `np_completion_event_deinit` (np_completion_event.c:27-33) with `destroy_event`
(thread_event_queue.c:114-121): the event object is taken out of the queue and freed. -/
def deinitEv (s : St F) (k : Kind) : St F :=
  match s.ev k with
  | none => s
  | some i => { s with ev := upd s.ev k none, q := s.q.filter (· ≠ (k, i)), gone := s.gone + 1 }

/-- `stream_opened`, `write_completed`, `read_completed` and `close_completed`
(nabto_device_virtual_connection.c:545-576). -/
def callback (s : St F) (k : Kind) : St F × List (Out F) :=
  let s := deinitEv s k
  match s.fut k with
  | none => ({ s with ub := true }, [])
  | some f => ({ s with fut := upd s.fut k none }, [.resolved k f (s.ec k)])

/-- The event queue takes the first event and calls its callback; the completion event is a part of the
handle, so this is a use of memory which does not exist if the handle has been freed. -/
def deliver (s : St F) : St F × List (Out F) :=
  match s.q with
  | [] => (s, [])
  | (k, _) :: q =>
    if s.freed then ({ s with q := q, ub := true }, [])
    else callback { s with q := q } k

/-- What the device's application does with its end of a stream. `stop` is also the end of the connection. -/
inductive SOp where
  | accept | readAll (n : Nat) | readSome (n : Nat) | write (d : List UInt8) | close | stop
deriving DecidableEq, Repr

/-- The step in the core; the name of the event is of no use here. -/
def SOp.toCore : SOp → Virtual.Op Kind
  | .accept => .accept .opn
  | .readAll n => .readAll .read n
  | .readSome n => .readSome .read n
  | .write d => .write .write d
  | .close => .close .close
  | .stop => .stop

/-- The steps: the calls of the application on the handle, the device's end of the `i`th stream which was made,
and the event queue. -/
inductive Op (F : Type) where
  | opn (f : F) (oom mem : Bool)
  | readAll (f : F) (n : Nat) (oom : Bool)
  | readSome (f : F) (n : Nat) (oom : Bool)
  | write (f : F) (d : List UInt8) (oom : Bool)
  | close (f : F) (oom : Bool)
  | abort
  | free
  | server (i : Nat) (op : SOp)
  | deliver
deriving DecidableEq, Repr

/-- A call on a handle which has been freed. -/
def live (s : St F) (r : St F × List (Out F)) : St F × List (Out F) :=
  if s.freed then ({ s with ub := true }, []) else r

/-- `nabto_device_virtual_stream_free` (nabto_device_virtual_connection.c:406-415) with
`nc_virtual_stream_destroy` (nc_virtual_stream.c:91-95) and `nc_stream_ref_count_dec` (nc_stream.c:686-696),
which uses the stream without looking whether there is one. -/
def free (s : St F) : St F :=
  match s.cur with
  | none => { s with freed := true, ub := true }
  | some _ => { s with freed := true }

/-- One step when the mutex is free. `abort` is `nabto_device_virtual_stream_abort`
(nabto_device_virtual_connection.c:533-541). -/
def step' (s : St F) : Op F → St F × List (Out F)
  | .opn f oom mem => live s (opn s f oom mem)
  | .readAll f n oom => live s (readAll s f oom n)
  | .readSome f n oom => live s (start s .read f oom (.cReadSome .read n))
  | .write f d oom => live s (start s .write f oom (.cWrite .write d))
  | .close f oom => live s (start s .close f oom (.cClose .close))
  | .abort => live s (inCur s .cStop)
  | .free => live s (free s, [])
  | .server i op => inCore s i op.toCore
  | .deliver => deliver s

/-- One step. Every step waits for the mutex. -/
def step (s : St F) (op : Op F) : St F × List (Out F) := if s.hung then (s, []) else step' s op

/-- A history. -/
def run (s : St F) : List (Op F) → St F × List (Out F)
  | [] => (s, [])
  | op :: ops =>
    let (s1, o1) := step s op
    let (s2, o2) := run s1 ops
    (s2, o1 ++ o2)

end Verif.Stream.VirtualApi
