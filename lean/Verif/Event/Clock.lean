import Verif.Util.Timestamp

/-!
# Clocks and timed waits

Model of `nabto_device_threads_cond_timed_wait` (src/modules/threads/unix/nabto_device_threads_unix.c:146-166), which
`nabto_device_future_timed_wait` (src/api/nabto_device_future.c:107-126) and the thread of the event queue
(src/modules/event_queue/thread_event_queue.c:209) wait with, and of the two time stamps
(src/modules/timestamp/unix/nm_unix_timestamp.c:25-35, src/modules/libevent/nm_libevent_timestamp.c).

Arithmetic is that of C: `none` is an overflow of a signed type, which is undefined. Failures of `gettimeofday` and `clock_gettime`
are left out (POSIX defines none for these arguments). Signals of the condition are left out: the question is how long a wait lasts
which nobody ends.
-/

namespace Verif.Event.Clock

/-- The widths of `long` and of `time_t` in bits. -/
structure Arch where
  long : Nat
  time : Nat
deriving DecidableEq, Repr

/-- A value in a signed type of `w` bits; `none` if it does not fit. -/
def signed (w : Nat) (x : Int) : Option Int := if -2 ^ (w - 1) ≤ x ∧ x < 2 ^ (w - 1) then some x else none

/-- The conversion of an unsigned number to a signed type of `w` bits, as compilers define it. -/
def cast (w : Nat) (x : Nat) : Int := if x % 2 ^ w < 2 ^ (w - 1) then (x % 2 ^ w : Nat) else (x % 2 ^ w : Nat) - 2 ^ w

/-- `tp.tv_usec / 1000 + tp.tv_sec * 1000 + ms` as `uint64_t`, nabto_device_threads_unix.c:158. With a `time_t` of 64 bits the whole
sum is signed; with one of 32 bits the last sum is unsigned, of 32 bits, since `ms` is. -/
def futureMs (a : Arch) (sec usec : Nat) (ms : UInt32) : Option Nat :=
  (signed a.time (sec * 1000)).bind fun p =>
    (signed a.time (usec / 1000 + p)).bind fun q =>
      if 32 < a.time then (signed a.time (q + ms.toNat)).map fun r => (r % 2 ^ 64).toNat
      else some ((q + ms.toNat) % 2 ^ 32).toNat

/-- `ts.tv_nsec` and `ts.tv_sec`, nabto_device_threads_unix.c:159-160: `(long)future_ms / 1000` converts first and divides then. -/
def timespec (a : Arch) (future : Nat) : Int × Int := ((cast a.long future).tdiv 1000, cast a.long (future % 1000) * 1000000)

/-- A wall clock: microseconds since 1970 at each instant, instants being real microseconds. -/
abbrev Wall := Nat → Nat

/-- The time until which `nabto_device_threads_cond_timed_wait` waits, called at the instant `t`, in nanoseconds of the wall clock. -/
def deadline (a : Arch) (wall : Wall) (t : Nat) (ms : UInt32) : Option Int :=
  (futureMs a (wall t / 1000000) (wall t % 1000000) ms).map fun f =>
    (timespec a f).1 * 1000000000 + (timespec a f).2

/-- `pthread_cond_timedwait` on a condition with the default clock, which is the wall clock: it still waits at `t'` if the clock has not
shown the deadline since `t`. -/
def Waits (wall : Wall) (deadline : Int) (t t' : Nat) : Prop := ∀ u, t ≤ u → u ≤ t' → (wall u : Int) * 1000 < deadline

/-- The module for time stamps. -/
inductive Impl where
  | unix
  | libevent
deriving DecidableEq, Repr

/-- `ts_now_ms`, nm_unix_timestamp.c:25-35, nm_libevent_timestamp.c:34-42. `event_base_gettimeofday_cached` is taken to give the wall
clock of the instant (it is that of the beginning of the callback). -/
def nowMs (impl : Impl) (a : Arch) (wall : Wall) (t : Nat) : Option UInt32 :=
  match impl with
  | .libevent => some (UInt32.ofNat ((wall t / 1000000 * 1000 + wall t % 1000000 / 1000) % 2 ^ 64))
  | .unix =>
    (signed a.time ((wall t / 1000000 : Nat) * 1000)).bind fun p =>
      (signed a.time (p + (wall t % 1000000 * 1000 / 1000000 : Nat))).map fun q => UInt32.ofNat (q % 2 ^ 32).toNat

end Verif.Event.Clock
