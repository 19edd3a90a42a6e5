import Verif.Core.Expiry

/-! # When the certificate of the basestation expires: specification -/

namespace Verif.Core.Expiry.Spec
open Verif.Core.Expiry

def leap (y : Nat) : Bool := y % 4 == 0 && (y % 100 != 0 || y % 400 == 0)

def yearDays (y : Nat) : Nat := if leap y then 366 else 365

/-- The lengths of the months. -/
def monthDays (y m : Nat) : Nat :=
  if m = 2 then (if leap y then 29 else 28) else if m = 4 ∨ m = 6 ∨ m = 9 ∨ m = 11 then 30 else 31

/-- The days of `n` years from 1970 on. -/
def years : Nat → Nat
  | 0 => 0
  | n + 1 => years n + yearDays (1970 + n)

/-- The days of the first `m` months of a year. -/
def months (y : Nat) : Nat → Nat
  | 0 => 0
  | m + 1 => months y m + monthDays y (m + 1)

/-- The seconds from the beginning of 1970 to a time, counted year by year and month by month. -/
def unix (v : X509Time) : Nat :=
  (years (v.year - 1970) + months v.year (v.mon - 1) + (v.day - 1)) * 86400 + v.hour * 3600 + v.min * 60 + v.sec

/-- A time in the calendar, since 1970. -/
structure Valid (v : X509Time) : Prop where
  year : 1970 ≤ v.year
  mon : 1 ≤ v.mon ∧ v.mon ≤ 12
  day : 1 ≤ v.day

end Verif.Core.Expiry.Spec
