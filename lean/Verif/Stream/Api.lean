import Verif.Stream.OpsSpec

/-!
# Streams in the API (model, C45)

Model of `src/api/nabto_device_stream.c`: an application starts an operation on a stream with a future; the
operation is given to the core (`Verif.Stream.Ops`) with a completion event which is a part of the stream,
one for each kind of operations; the core posts the event when the operation is complete; the event queue
calls the callback, and the callback resolves the future. The mutex of the device makes every function and
every callback one step.

An event object is a number, since `np_completion_event_init` makes a new one each time. Using an event
object which does not exist, a stream which has been freed or a future which is not there is undefined
behaviour; it is recorded in `ub`.
-/

namespace Verif.Stream.Api

open Verif.Stream Verif.Stream.Spec

variable {F : Type}

/-- Change a function at one place. -/
def upd {α : Type} (f : Kind → α) (k : Kind) (v : α) : Kind → α := fun k' => if k' = k then v else f k'

/-- `struct nabto_device_stream` (nabto_device_stream.h:10-28) with its stream in the core and the events
which are in the queue. `ev k` is the event object of the completion event, `none` when it has been destroyed
or could not be made, and `ec k` the error code it keeps. -/
structure St (F : Type) where
  core : Stream.St Kind
  fut : Kind → Option F
  ev : Kind → Option Nat
  ec : Kind → Ec
  q : List (Kind × Nat)
  next : Nat
  freed : Bool
  ub : Bool

/-- `nabto_device_stream_core_callback` (nabto_device_stream.c:376-398): the stream is allocated with
`np_calloc`. -/
def St.init : St F :=
  { core := Stream.St.init, fut := fun _ => none, ev := fun _ => none, ec := fun _ => .ok, q := [],
    next := 0, freed := false, ub := false }

/-- What the application sees: a future is resolved at once because another operation of the same kind is in
progress, a future is resolved by a callback, and what the core does. -/
inductive Out (F : Type) where
  | refused (k : Kind) (f : F)
  | resolved (k : Kind) (f : F) (ec : Ec)
  | core (o : Stream.Out Kind)
deriving DecidableEq, Repr

/-- `np_completion_event_resolve` (np_completion_event.c:44-48) with `post_event`
(thread_event_queue.c:123-130) and `nm_event_queue_post_event` (nm_event_queue.c:36-43): an event which is
in the queue already is not put there again. -/
def post (s : St F) (k : Kind) (ec : Ec) : St F :=
  match s.ev k with
  | none => { s with ec := upd s.ec k ec, ub := true }
  | some i =>
    { s with ec := upd s.ec k ec, q := if (k, i) ∈ s.q then s.q else s.q ++ [(k, i)] }

/-- The operations the core completes are posted. -/
def postAll (s : St F) : List (Stream.Out Kind) → St F
  | [] => s
  | .done k ec _ :: os => postAll (post s k ec) os
  | _ :: os => postAll s os

/-- The core makes a step. -/
def inCore (s : St F) (op : Stream.Op Kind) : St F × List (Out F) :=
  let (c, os) := Stream.step s.core op
  (postAll { s with core := c } os, os.map .core)

/-- `np_completion_event_init` (np_completion_event.c:10-25); `oom` says that there is no memory for the event
object. The result is not looked at by the callers. -/
def initEv (s : St F) (k : Kind) (oom : Bool) : St F :=
  { s with ev := upd s.ev k (if oom then none else some s.next), next := s.next + 1 }

/-- `nabto_device_stream_accept` (nabto_device_stream.c:136-151), `nabto_device_stream_read_all` (240-259),
`nabto_device_stream_read_some` (261-280) and `nabto_device_stream_write` (292-310) have the same form;
`nabto_device_stream_close` (322-334) does not look whether there is a future. -/
def begin (s : St F) (k : Kind) (f : F) (oom : Bool) (op : Stream.Op Kind) : St F × List (Out F) :=
  if k ≠ .close ∧ (s.fut k).isSome then (s, [.refused k f])
  else inCore (initEv { s with fut := upd s.fut k (some f) } k oom) op

/-- `np_completion_event_deinit` (np_completion_event.c:27-33) with `destroy_event`
(thread_event_queue.c:114-121): the event object is taken out of the queue and freed. -/
def deinitEv (s : St F) (k : Kind) : St F :=
  match s.ev k with
  | none => s
  | some i => { s with ev := upd s.ev k none, q := s.q.filter (· ≠ (k, i)) }

/-- `nabto_device_stream_accept_callback` (nabto_device_stream.c:128-134),
`nabto_device_stream_read_callback` (230-238), `nabto_device_stream_write_callback` (282-290) and
`nabto_device_stream_close_callback` (312-320): the callbacks of reads and writes forget the future. -/
def callback (s : St F) (k : Kind) : St F × List (Out F) :=
  match s.fut k with
  | none => ({ s with ub := true }, [])
  | some f =>
    let s := deinitEv s k
    ({ s with fut := if k = .read ∨ k = .write then upd s.fut k none else s.fut },
     [.resolved k f (s.ec k)])

/-- The event queue takes the first event and calls its callback; the completion event is a part of the
stream, so this is a use of memory which does not exist if the stream has been freed. -/
def deliver (s : St F) : St F × List (Out F) :=
  match s.q with
  | [] => (s, [])
  | (k, _) :: q =>
    if s.freed then ({ s with q := q, ub := true }, [])
    else callback { s with q := q } k

/-- The steps: the calls of an application, an event of the stream module or the end of the connection
(`module`), and the event queue. `abort` is `nabto_device_stream_abort` (nabto_device_stream.c:118-125),
`free` is `nabto_device_stream_free` (nabto_device_stream.c:109-116, 336-339). -/
inductive Op (F : Type) where
  | accept (f : F) (oom : Bool)
  | readAll (f : F) (n : Nat) (r : Rd) (oom : Bool)
  | readSome (f : F) (n : Nat) (r : Rd) (oom : Bool)
  | write (f : F) (d : List UInt8) (w : Wr) (oom : Bool)
  | close (f : F) (st : Status) (oom : Bool)
  | opened
  | dataReady (r : Rd)
  | dataWrite (w : Wr)
  | readClosed (r : Rd)
  | writeClosed
  | streamClosed (w : Wr) (r : Rd) (st : Status)
  | connClosed
  | abort (rst : Bool)
  | free (rst : Bool)
  | deliver

/-- A call of the application on a stream which has been freed. -/
def live (s : St F) (r : St F × List (Out F)) : St F × List (Out F) :=
  if s.freed then ({ s with ub := true }, []) else r

/-- One step. -/
def step (s : St F) : Op F → St F × List (Out F)
  | .accept f oom => live s (begin s .accept f oom (.accept .accept))
  | .readAll f n r oom => live s (begin s .read f oom (.readAll .read n r))
  | .readSome f n r oom => live s (begin s .read f oom (.readSome .read n r))
  | .write f d w oom => live s (begin s .write f oom (.write .write d w))
  | .close f st oom => live s (begin s .close f oom (.close .close st))
  | .opened => inCore s .opened
  | .dataReady r => inCore s (.dataReady r)
  | .dataWrite w => inCore s (.dataWrite w)
  | .readClosed r => inCore s (.readClosed r)
  | .writeClosed => inCore s .writeClosed
  | .streamClosed w r st => inCore s (.streamClosed w r st)
  | .connClosed => inCore s .connClosed
  | .abort rst => live s (inCore s (.stop rst))
  | .free rst => live s (let (s', o) := inCore s (.stop rst); ({ s' with freed := true }, o))
  | .deliver => deliver s

/-- A history. -/
def run (s : St F) : List (Op F) → St F × List (Out F)
  | [] => (s, [])
  | op :: ops =>
    let (s1, o1) := step s op
    let (s2, o2) := run s1 ops
    (s2, o1 ++ o2)

end Verif.Stream.Api
