/-!
# Futures and the callback thread

Model of `src/api/nabto_device_future.c` and `src/api/nabto_device_future_queue.c`. Every step is one
critical section of the future's mutex or of the queue's mutex. Any number of application threads, the core
thread and the callback thread interleave.
-/

namespace Verif.Api.Future

/-- `NabtoDeviceError`. -/
abbrev Err := Nat

/-- `NABTO_DEVICE_EC_OK`. -/
def ecOk : Err := 0

/-- `NABTO_DEVICE_EC_FUTURE_NOT_RESOLVED`; a position in the list of `np_error_code.h`, only its being
different from the results matters. -/
def ecNotResolved : Err := 1

/-- `struct nabto_device_future`, `nabto_device_future.h:15-33`. A callback is known by a number. The state of
the mutex and the condition is in `World`. -/
structure Fut where
  cb : Option Nat := none
  cbData : Nat := 0
  ec : Err := 0
  ready : Bool := false
  deriving DecidableEq, Repr

/-- A thread inside `nabto_device_future_wait` (`timed = false`) or `nabto_device_future_timed_wait`. -/
structure Waiter where
  thread : Nat
  fut : Nat
  timed : Bool
  deriving DecidableEq, Repr

/-- Where the callback thread is, `execution_thread`, `nabto_device_future_queue.c:69-89`. -/
inductive Worker
  /-- at the top of the loop -/
  | idle
  /-- a future has been taken from the list, `:76-78` -/
  | took (f : Nat)
  /-- in `nabto_device_future_popped` after the unlock, `nabto_device_future.c:161` -/
  | calling (f : Nat) (cb : Option Nat)
  deriving DecidableEq, Repr

/-- What the application sees. -/
inductive Obs
  /-- callback `cb` is called with the code and the data -/
  | called (f : Nat) (cb : Nat) (ec : Err) (data : Nat)
  /-- a wait returns -/
  | returned (a : Waiter) (ec : Err)
  deriving DecidableEq, Repr

/-- All futures of a device with the future queue. -/
structure World where
  fut : Nat → Fut := fun _ => {}
  queue : List Nat := []
  worker : Worker := .idle
  /-- threads sleeping on the condition of their future -/
  blocked : List Waiter := []
  /-- threads woken that have not yet got the mutex -/
  woken : List Waiter := []
  log : List Obs := []

def init : World := {}

/-- Replaces one future. -/
def World.set (w : World) (f : Nat) (x : Fut) : World :=
  { w with fut := fun g => if g = f then x else w.fut g }

/-- `nabto_device_future_queue_post`, `nabto_device_future_queue.c:61-67`. A node that is already a member of
the list must not be appended again: undefined behaviour (`none`). -/
def post (w : World) (f : Nat) : Option World :=
  if f ∈ w.queue then none else some { w with queue := w.queue ++ [f] }

/-- `nabto_device_threads_cond_signal` on the condition of the future: wakes one of the threads sleeping on
it, which one is not determined (`pick`). -/
def signal (w : World) (f pick : Nat) : World :=
  let ws := w.blocked.filter (fun a => a.fut = f)
  match ws[pick % ws.length]? with
  | none => w
  | some a => { w with blocked := w.blocked.erase a, woken := w.woken ++ [a] }

/-- `nabto_device_future_reset`, `nabto_device_future.c:145-153`: the start of every asynchronous function. -/
def reset (w : World) (f : Nat) : World := w.set f {}

/-- `nabto_device_future_set_callback`, `nabto_device_future.c:71-90`. -/
def setCallback (w : World) (f cb data : Nat) : Option World :=
  let w := w.set f { w.fut f with cb := some cb, cbData := data }
  if (w.fut f).ready then post w f else some w

/-- `nabto_device_future_resolve`, `nabto_device_future.c:167-183`. -/
def resolve (w : World) (f : Nat) (ec : Err) (pick : Nat) : Option World :=
  let w := w.set f { w.fut f with ec := ec, ready := true }
  if (w.fut f).cb.isSome then post w f else some (signal w f pick)

/-- `nabto_device_future_error_code`, `nabto_device_future.c:129-143`. -/
def errorCode (w : World) (f : Nat) : Err :=
  if !(w.fut f).ready then ecNotResolved else (w.fut f).ec

/-- The callback thread takes the first future of the list, `nabto_device_future_queue.c:73-78`. -/
def take (w : World) : World :=
  match w.worker, w.queue with
  | .idle, f :: fs => { w with worker := .took f, queue := fs }
  | _, _ => w

/-- The critical section of `nabto_device_future_popped`, `nabto_device_future.c:158-161`. -/
def popped (w : World) : World :=
  match w.worker with
  | .took f => { w.set f { w.fut f with cb := none } with worker := .calling f (w.fut f).cb }
  | _ => w

/-- The call of the callback, `nabto_device_future.c:162-164`; the code and the data are read here, after the
mutex has been released. -/
def call (w : World) : World :=
  match w.worker with
  | .calling f (some cb) =>
    { w with worker := .idle, log := w.log ++ [.called f cb (w.fut f).ec (w.fut f).cbData] }
  | .calling _ none => { w with worker := .idle }
  | _ => w

/-- The first critical section of `nabto_device_future_wait` and `nabto_device_future_timed_wait`,
`nabto_device_future.c:98-102, 112-116`: returns if the future is ready, otherwise sleeps. -/
def wait (w : World) (a : Waiter) : World :=
  if (w.fut a.fut).ready then { w with log := w.log ++ [.returned a (w.fut a.fut).ec] }
  else { w with blocked := w.blocked ++ [a] }

/-- A sleeping thread wakes up without a signal: a spurious wake-up or, for a timed wait, the timeout. -/
def wake (w : World) (a : Waiter) : World :=
  if a ∈ w.blocked then { w with blocked := w.blocked.erase a, woken := w.woken ++ [a] } else w

/-- A woken thread gets the mutex and returns, `nabto_device_future.c:102-104, 117-125`. -/
def resume (w : World) (a : Waiter) : World :=
  if a ∈ w.woken then
    let w := { w with woken := w.woken.erase a }
    if a.timed then { w with log := w.log ++ [.returned a (errorCode w a.fut)] }
    else { w with log := w.log ++ [.returned a (w.fut a.fut).ec] }
  else w

/-- One step of some thread. -/
inductive Ev
  | reset (f : Nat)
  | setCallback (f cb data : Nat)
  | resolve (f : Nat) (ec : Err) (pick : Nat)
  | take
  | popped
  | call
  | wait (a : Waiter)
  | wake (a : Waiter)
  | resume (a : Waiter)
  deriving DecidableEq, Repr

/-- One step; `none` is undefined behaviour. -/
def step (w : World) : Ev → Option World
  | .reset f => some (reset w f)
  | .setCallback f cb d => setCallback w f cb d
  | .resolve f e p => resolve w f e p
  | .take => some (take w)
  | .popped => some (popped w)
  | .call => some (call w)
  | .wait a => some (wait w a)
  | .wake a => some (wake w a)
  | .resume a => some (resume w a)

/-- A history. -/
def run (w : World) : List Ev → Option World
  | [] => some w
  | e :: es => (step w e).bind (run · es)

end Verif.Api.Future
