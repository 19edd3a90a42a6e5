import Verif.Event.Clock

/-!
# Clocks: specification
-/

namespace Verif.Event.Clock.Spec

open Verif.Event.Clock

/-- A machine on which `long` and `time_t` have 64 bits. -/
def lp64 : Arch := { long := 64, time := 64 }

/-- 32 bits, with the `time_t` of 32 bits which is the default there, and with the one of 64 bits. -/
def ilp32 : Arch := { long := 32, time := 32 }
def ilp32Time64 : Arch := { long := 32, time := 64 }

/-- From the instant `t` on the wall clock runs with real time. -/
def Steady (wall : Wall) (t : Nat) : Prop := ∀ u, t ≤ u → wall u = wall t + (u - t)

/-- The wall clock is set back by `d` right after the instant `t` and runs with real time from then on. -/
def SetBack (wall : Wall) (t d : Nat) : Prop := ∀ u, t < u → wall u + d = wall t + (u - t)

/-- The wall clock is set forward by `d` right after the instant `t`. -/
def SetForward (wall : Wall) (t d : Nat) : Prop := ∀ u, t < u → wall u = wall t + (u - t) + d

/-- The wall clock shows a time between 26 January 1970 and the year 36000. -/
def Sane (wall : Wall) (t : Nat) : Prop := 2147484 * 1000000 ≤ wall t ∧ wall t < 2 ^ 60

end Verif.Event.Clock.Spec
