import Verif.Util.Timestamp

/-!
# The event queue

Model of `src/modules/event_queue/nm_event_queue.c`. Events are numbered. Each event has one list node, which is in
at most one of the two lists (`nn_llist`, part of nabto-common, which is not in the repository: appending, inserting
before an iterator, erasing and asking whether a node is in a list are taken to do what they say).
-/

namespace Verif.Event

open Util.Timestamp

/-- `struct nm_event_queue`, `nm_event_queue.h:7-10`. With an element of `timed` goes the event's `expireTimestamp`,
which is only read while the event is in that list. -/
structure Queue where
  events : List Nat := []
  timed : List (Nat × UInt32) := []
  deriving DecidableEq, Repr

namespace Queue

/-- `nn_llist_node_in_list` of the event's node. -/
def inList (q : Queue) (e : Nat) : Bool := q.events.contains e || q.timed.any (fun x => x.1 == e)

/-- `nn_llist_erase_node` of the event's node. -/
def erase (q : Queue) (e : Nat) : Queue :=
  ⟨q.events.filter (fun x => x != e), q.timed.filter (fun x => x.1 != e)⟩

/-- `nm_event_queue_post_event`, `nm_event_queue.c:37-44`, and `nm_event_queue_post_event_maybe_double`,
`nm_event_queue.c:46-53`, which also tells whether the event was added. -/
def post (q : Queue) (e : Nat) : Queue × Bool :=
  if q.inList e then (q, false) else ({ q with events := q.events ++ [e] }, true)

/-- `nm_event_queue_cancel_event`, `nm_event_queue.c:55-60`. -/
def cancel (q : Queue) (e : Nat) : Queue := if q.inList e then q.erase e else q

/-- The loop of `nm_event_queue_post_timed_event`, `nm_event_queue.c:69-79`. -/
def insert (e : Nat) (timestamp : UInt32) : List (Nat × UInt32) → List (Nat × UInt32)
  | [] => [(e, timestamp)]
  | x :: l => if lessOrEqual timestamp x.2 then (e, timestamp) :: x :: l else x :: insert e timestamp l

/-- `nm_event_queue_post_timed_event`, `nm_event_queue.c:62-80`. -/
def postTimed (q : Queue) (e : Nat) (timestamp : UInt32) : Queue :=
  let q := if q.inList e then q.erase e else q
  { q with timed := insert e timestamp q.timed }

/-- `nm_event_queue_take_event`, `nm_event_queue.c:87-97`. -/
def takeEvent (q : Queue) : Option (Nat × Queue) :=
  match q.events with
  | [] => none
  | e :: l => some (e, { q with events := l })

/-- `nm_event_queue_take_timed_event`, `nm_event_queue.c:104-120`. -/
def takeTimed (q : Queue) (now : UInt32) : Option (Nat × Queue) :=
  match q.timed with
  | [] => none
  | (e, t) :: l => if lessOrEqual t now then some (e, { q with timed := l }) else none

/-- `nm_event_queue_next_timed_event`, `nm_event_queue.c:128-139`. -/
def nextTimed (q : Queue) : Option UInt32 := q.timed.head?.map Prod.snd

/-- The two takes in a row, `thread_event_queue.c:173-174` and `thread_event_queue.c:195-196`. -/
def take (q : Queue) (now : UInt32) : Option (Nat × Queue) :=
  match q.takeEvent with
  | some r => some r
  | none => q.takeTimed now

end Queue

/-- A use of the queue. -/
inductive Op
  | post (e : Nat)
  | postMaybeDouble (e : Nat)
  | cancel (e : Nat)
  /-- with the number of milliseconds; the stamp is computed as in `thread_event_queue.c:155-156` -/
  | postTimed (e : Nat) (ms : Nat)
  | take
  deriving DecidableEq, Repr

/-- What it returns. -/
inductive Out
  | unit
  | bool (b : Bool)
  | took (e : Option Nat)
  deriving DecidableEq, Repr

/-- A use of the queue at the instant `now` (milliseconds, not wrapping; the code sees its stamp). -/
def Queue.step (q : Queue) (now : Nat) : Op → Queue × Out
  | .post e => ((q.post e).1, .unit)
  | .postMaybeDouble e => ((q.post e).1, .bool (q.post e).2)
  | .cancel e => (q.cancel e, .unit)
  | .postTimed e ms => (q.postTimed e (future (stamp now) (UInt32.ofNat ms)), .unit)
  | .take =>
    match q.take (stamp now) with
    | some (e, q') => (q', .took (some e))
    | none => (q, .took none)

/-- What a sequence of uses returns. -/
def Queue.run (q : Queue) : List (Nat × Op) → List Out
  | [] => []
  | (now, op) :: h => (q.step now op).2 :: Queue.run (q.step now op).1 h

end Verif.Event
