import Verif.Event.Queue

/-!
# The event thread

Model of `src/modules/event_queue/thread_event_queue.c`. Every step is what one thread does while it holds the queue's
lock, or the start or end of a callback, which holds the core's lock.
-/

namespace Verif.Event

open Util.Timestamp

/-- Where the event thread is in the loop of `queue_thread`, `thread_event_queue.c:189-221`. -/
inductive Phase
  /-- about to take the queue's lock, line 194 -/
  | idle
  /-- it took an event off the queue and wants the core's lock, line 217 -/
  | taken (e : Nat)
  /-- in the callback, line 218 -/
  | running (e : Nat)
  /-- it waits for the condition, at most until the stamp if there is one, lines 209 and 211 -/
  | waiting (wakeup : Option UInt32)
  /-- it has returned, line 205 -/
  | exited
  deriving DecidableEq, Repr

/-- Who uses the queue: a callback on the event thread, or another thread. -/
inductive Actor
  | loop
  | other (n : Nat)
  deriving DecidableEq, Repr

/-- `struct thread_event_queue`, with the thread's place in its loop, the holder of the core's lock and the events that
were destroyed. -/
structure Sys where
  q : Queue := {}
  phase : Phase := .idle
  core : Option Actor := none
  stopped : Bool := false
  destroyed : List Nat := []
  deriving DecidableEq, Repr

/-- A step of some thread. -/
inductive Act
  | post (a : Actor) (e : Nat)
  | postMaybeDouble (a : Actor) (e : Nat)
  | postTimed (a : Actor) (e : Nat) (ms : Nat)
  | cancel (a : Actor) (e : Nat)
  | destroy (a : Actor) (e : Nat)
  | lockCore (n : Nat)
  | unlockCore (n : Nat)
  /-- the event thread takes the queue's lock and then an event, or waits, or returns -/
  | take
  /-- the event thread gets the core's lock and calls the callback -/
  | begin
  /-- the callback returns -/
  | finish
  /-- the event thread stops waiting, because the time is up or for no reason -/
  | wake
  | stop
  deriving DecidableEq, Repr

/-- What happened: a callback was called, or the callback of an event whose memory is freed was called, which is
undefined. -/
inductive Obs
  | ran (e : Nat)
  | crash (e : Nat)
  deriving DecidableEq, Repr

namespace Sys

/-- `nabto_device_threads_cond_signal`: a waiting event thread goes on. -/
def signal (s : Sys) : Sys :=
  match s.phase with
  | .waiting _ => { s with phase := .idle }
  | _ => s

/-- Whether this thread can do something: the event thread uses the queue only in a callback. -/
def active (s : Sys) : Actor → Bool
  | .loop => match s.phase with | .running _ => true | _ => false
  | .other _ => true

/-- What the event thread does with the queue's lock, `thread_event_queue.c:190-214`. -/
def loop (s : Sys) (now : Nat) : Sys :=
  match s.q.take (stamp now) with
  | some (e, q) => { s with q := q, phase := .taken e }
  | none => if s.stopped then { s with phase := .exited } else { s with phase := .waiting s.q.nextTimed }

/-- One step at the instant `now`; `none` if the thread in question cannot do that. -/
def step (s : Sys) (now : Nat) : Act → Option (Sys × List Obs)
  -- `post_event`, thread_event_queue.c:123-130
  | .post a e => if s.active a then some ({ s with q := (s.q.step now (.post e)).1 }.signal, []) else none
  -- `post_event_maybe_double`, thread_event_queue.c:132-141
  | .postMaybeDouble a e =>
    if s.active a then some ({ s with q := (s.q.step now (.postMaybeDouble e)).1 }.signal, []) else none
  -- `post_timed_event`, thread_event_queue.c:151-161
  | .postTimed a e ms =>
    if s.active a then some ({ s with q := (s.q.step now (.postTimed e ms)).1 }.signal, []) else none
  -- `cancel_event`, thread_event_queue.c:143-149
  | .cancel a e => if s.active a then some ({ s with q := (s.q.step now (.cancel e)).1 }, []) else none
  -- `destroy_event`, thread_event_queue.c:114-121
  | .destroy a e =>
    if s.active a then some ({ s with q := (s.q.step now (.cancel e)).1, destroyed := e :: s.destroyed }, []) else none
  | .lockCore n => if s.core = none then some ({ s with core := some (.other n) }, []) else none
  | .unlockCore n => if s.core = some (.other n) then some ({ s with core := none }, []) else none
  | .take => if s.phase = .idle then some (s.loop now, []) else none
  | .begin =>
    match s.phase with
    | .taken e =>
      if s.core = none then
        some ({ s with phase := .running e, core := some .loop }, [if e ∈ s.destroyed then .crash e else .ran e])
      else none
    | _ => none
  | .finish =>
    match s.phase with
    | .running _ => some ({ s with phase := .idle, core := none }, [])
    | _ => none
  | .wake =>
    match s.phase with
    | .waiting _ => some ({ s with phase := .idle }, [])
    | _ => none
  -- `thread_event_queue_stop_blocking`, thread_event_queue.c:87-95, without waiting for the thread
  | .stop => if s.stopped then none else some ({ s with stopped := true }.signal, [])

/-- Some steps in a row. -/
def run (s : Sys) : List (Nat × Act) → Option (Sys × List Obs)
  | [] => some (s, [])
  | (now, a) :: h =>
    match s.step now a with
    | none => none
    | some (s', o) =>
      match run s' h with
      | none => none
      | some (s'', os) => some (s'', o ++ os)

end Sys

/-- The use of the queue in a step. -/
def Act.op : Act → Option Op
  | .post _ e => some (.post e)
  | .postMaybeDouble _ e => some (.postMaybeDouble e)
  | .postTimed _ e ms => some (.postTimed e ms)
  | .cancel _ e | .destroy _ e => some (.cancel e)
  | .take => some .take
  | _ => none

/-- The uses of the queue in some steps. -/
def ops (h : List (Nat × Act)) : List (Nat × Op) := h.filterMap (fun x => x.2.op.map (fun o => (x.1, o)))

end Verif.Event
