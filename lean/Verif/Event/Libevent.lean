/-!
# The event queue on libevent — model

`src/nabto_device_libevent/libevent_event_queue.c`: one event of the queue, the mutex of the device, the thread of libevent
and a thread which uses the queue while it holds the mutex. The callback of the event may use the queue too.

libevent is not part of the repository and is modelled after its documentation and version 2.1, with threads enabled
(nm_libevent.c:27-31): an active event is taken out of the queue with its timer when the loop gets to it; a timer
which expires makes its event active; setting the timer of an event which is active because of its timer takes it out of the queue;
`event_del` from another thread waits until the handler of the event has returned. `event_add` and `event_assign` succeed.
Times are in milliseconds. Events of other kinds share nothing with this one but the mutex.
-/

namespace Verif.Event.Libevent

/-- Where the thread of libevent is: elsewhere, at the beginning of `handle_event` where it waits for the mutex, or in the
callback, with the mutex. -/
inductive Loop | idle | waiting | running
  deriving DecidableEq, Repr

/-- The other thread: without the mutex, with it, or in `event_del` with it. -/
inductive App | away | holding | deleting
  deriving DecidableEq, Repr

/-- Who calls. -/
inductive Who | app | callback
  deriving DecidableEq, Repr

/-- What can be seen of the queue: calls which returned, with the time, and the starts of the callback. -/
inductive Out
  | post (now : Nat)
  | refused
  | timed (now ms : Nat)
  | cancelled
  | ran
  deriving DecidableEq, Repr

/-- `struct np_event`, libevent_event_queue.c:30-36, its place in libevent and the threads. -/
structure St where
  posted : Bool := false
  /-- In the queue of active events, and whether its timer is a reason. -/
  active : Option Bool := none
  timer : Option Nat := none
  now : Nat := 0
  loop : Loop := .idle
  app : App := .away
  /-- Newest first. -/
  log : List Out := []
  deriving DecidableEq, Repr

/-- An event made by `create`, libevent_event_queue.c:84-104. -/
def init : St := {}

inductive Act
  | lock | unlock
  | post (w : Who)
  | postMaybe (w : Who)
  | postTimed (w : Who) (ms : Nat)
  | cancel (w : Who)
  | deleted
  | tick (ms : Nat)
  | expire | take | enter | leave
  deriving DecidableEq, Repr

/-- The queue is used with the mutex. -/
def may (s : St) : Who → Bool
  | .app => s.app == .holding
  | .callback => s.loop == .running

/-- `event_active(&event->event, 0, 0)` -/
def eventActive (s : St) : Option Bool :=
  match s.active with
  | none => some false
  | some b => some b

/-- `post`, libevent_event_queue.c:112-119. -/
def post (s : St) : St := { s with posted := true, active := eventActive s, log := .post s.now :: s.log }

/-- `post_maybe_double`, libevent_event_queue.c:121-129. -/
def postMaybe (s : St) : St :=
  if s.posted then { s with log := .refused :: s.log }
  else { s with posted := true, active := eventActive s, log := .post s.now :: s.log }

/-- The `struct timeval` of `post_timed`, libevent_event_queue.c:135-138, in microseconds. -/
def timeval (ms : Nat) : Nat := ms / 1000 * 1000000 + ms % 1000 * 1000

/-- `post_timed`, libevent_event_queue.c:131-143. -/
def postTimed (s : St) (ms : Nat) : St :=
  { s with timer := some (s.now + timeval ms / 1000), active := if s.active = some true then none else s.active,
           log := .timed s.now ms :: s.log }

/-- `cancel`, libevent_event_queue.c:145-148. -/
def cancel (s : St) (w : Who) : St :=
  if w = .app ∧ s.loop = .waiting then { s with active := none, timer := none, app := .deleting }
  else { s with active := none, timer := none, log := .cancelled :: s.log }

/-- One step of a thread or of the clock. `enter` and `leave` are `handle_event`, libevent_event_queue.c:71-82. -/
def step (s : St) : Act → Option St
  | .lock => if s.app = .away ∧ s.loop ≠ .running then some { s with app := .holding } else none
  | .unlock => if s.app = .holding then some { s with app := .away } else none
  | .post w => if may s w then some (post s) else none
  | .postMaybe w => if may s w then some (postMaybe s) else none
  | .postTimed w ms => if may s w then some (postTimed s ms) else none
  | .cancel w => if may s w then some (cancel s w) else none
  | .deleted => if s.app = .deleting ∧ s.loop = .idle then some { s with app := .holding, log := .cancelled :: s.log } else none
  | .tick ms => some { s with now := s.now + ms }
  | .expire =>
    match s.timer with
    | none => none
    | some d => if d ≤ s.now then some { s with timer := none, active := some true } else none
  | .take => if s.loop = .idle ∧ s.active ≠ none then some { s with active := none, timer := none, loop := .waiting } else none
  | .enter =>
    if s.loop = .waiting ∧ s.app = .away then some { s with loop := .running, posted := false, log := .ran :: s.log } else none
  | .leave => if s.loop = .running then some { s with loop := .idle } else none

def run (s : St) : List Act → Option St
  | [] => some s
  | a :: as =>
    match step s a with
    | none => none
    | some t => run t as

end Verif.Event.Libevent
