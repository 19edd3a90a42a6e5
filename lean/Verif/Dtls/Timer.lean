import Verif.Event.Thread

/-!
# The timer of an mbed TLS session

Model of `src/modules/mbedtls/nm_mbedtls_timer.c` on top of the event queue and its thread (`Event/Queue`,
`Event/Thread`). mbed TLS calls `nm_mbedtls_timer_set_delay` and `nm_mbedtls_timer_get_delay` through
`mbedtls_ssl_set_timer_cb` (`nm_mbedtls_cli.c:301-303`, `nm_mbedtls_srv.c:259-260`).

The event of the timer has the number 0. All other events of the device have other numbers, they are posted, cancelled
and destroyed by anyone at any time.

Simplifications: creating the event succeeds (for the failure see `Dtls/Attach` and `Dtls/Accept`), and what the
callback of the timer does (`nm_dtls_timed_event_do_one`, `nm_mbedtls_srv_timed_event_do_one`) is in the further steps
of the history, done by the event thread while it is in the callback.
-/

namespace Verif.Dtls.Timer

open Util.Timestamp Event

/-- The event `tEv`. -/
def tEv : Nat := 0

/-- What can be seen from outside, with the instant: the timer was set, cancelled, or called back. -/
inductive Ev
  | set (at_ inter final : Nat)
  | cancel
  | ran (at_ : Nat)
  deriving DecidableEq, Repr

/-- `struct nm_mbedtls_timer`, `nm_mbedtls_timer.h:11-19`, the event queue it uses, the time in milliseconds, and what
happened so far. `init` is `nm_mbedtls_timer_init`, `nm_mbedtls_timer.c:10-20`. -/
structure World where
  sys : Sys := {}
  now : Nat := 0
  armed : Bool := false
  expired : Bool := true
  intermediateTp : UInt32 := 0
  trace : List Ev := []
  deriving DecidableEq, Repr

/-- What can happen. -/
inductive Op
  /-- time passes -/
  | tick (ms : Nat)
  /-- a step of some thread which has nothing to do with the timer, or of the event thread -/
  | act (a : Act)
  /-- `nm_mbedtls_timer_set_delay`, called by this thread -/
  | set (a : Actor) (inter final : UInt32)
  /-- `nm_mbedtls_timer_cancel`, called by this thread -/
  | cancel (a : Actor)
  deriving DecidableEq, Repr

/-- Whether the step is a use of this event by its owner. -/
def owns (e : Nat) : Act → Bool
  | .post _ f | .postMaybeDouble _ f | .postTimed _ f _ | .cancel _ f | .destroy _ f => f == e
  | _ => false

/-- `timer_cb`, `nm_mbedtls_timer.c:68-73`, which runs if that is the callback the event thread called. -/
def timerCb (w : World) (os : List Obs) : World :=
  if .ran tEv ∈ os then { w with expired := true, trace := w.trace ++ [.ran w.now] } else w

/-- `np_event_queue_cancel_event`. -/
def cancelEvent (w : World) (a : Actor) : Option World :=
  (w.sys.step w.now (.cancel a tEv)).map (fun r => { w with sys := r.1 })

/-- `np_event_queue_post_timed_event`. -/
def postTimedEvent (w : World) (a : Actor) (ms : UInt32) : Option World :=
  (w.sys.step w.now (.postTimed a tEv ms.toNat)).map (fun r => { w with sys := r.1 })

/-- `nm_mbedtls_timer_set_delay`, `nm_mbedtls_timer.c:32-49`. -/
def setDelay (w : World) (a : Actor) (inter final : UInt32) : Option World :=
  let w := { w with trace := w.trace ++ [.set w.now inter.toNat final.toNat], expired := false }
  if final = 0 then (cancelEvent w a).map (fun w => { w with armed := false })
  else
    let w := { w with armed := true, expired := false, intermediateTp := future (stamp w.now) inter }
    (cancelEvent w a).bind (fun w => postTimedEvent w a final)

/-- `nm_mbedtls_timer_get_delay`, `nm_mbedtls_timer.c:51-66`. -/
def getDelay (w : World) : Int :=
  if w.armed then
    if w.expired then 2
    else if passedOrNow (stamp w.now) w.intermediateTp then 1
    else 0
  else -1

/-- One step; `none` if the thread in question cannot do that. Whoever uses the timer holds the core's lock. -/
def step (w : World) : Op → Option World
  | .tick ms => some { w with now := w.now + ms }
  | .act a =>
    if owns tEv a then none
    else (w.sys.step w.now a).map (fun r => timerCb { w with sys := r.1 } r.2)
  | .set a i f => if w.sys.core = some a then setDelay w a i f else none
  -- nm_mbedtls_timer.c:27-30
  | .cancel a =>
    if w.sys.core = some a then cancelEvent { w with trace := w.trace ++ [.cancel] } a else none

def run : World → List Op → Option World
  | w, [] => some w
  | w, o :: os => (step w o).bind (fun w => run w os)

end Verif.Dtls.Timer
