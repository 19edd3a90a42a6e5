import Verif.Core.ExpirySpec
import Verif.Core.AttacherProps

/-! # When the certificate of the basestation expires: lemmas -/

namespace Verif.Core.Expiry
open Spec

theorem years_formula (n : Nat) :
    (years n : Int) = 365 * n + ((n : Int) + 1) / 4 - ((n : Int) + 69) / 100 + ((n : Int) + 369) / 400 := by
  induction n with
  | zero => rfl
  | succ n ih =>
    have hl : (yearDays (1970 + n) : Int) = 365 +
        (if (1970 + n) % 4 = 0 ∧ ((1970 + n) % 100 ≠ 0 ∨ (1970 + n) % 400 = 0) then 1 else 0) := by
      unfold yearDays leap
      by_cases h4 : (1970 + n) % 4 = 0 <;> by_cases h100 : (1970 + n) % 100 = 0 <;> by_cases h400 : (1970 + n) % 400 = 0 <;>
        simp [h4, h100, h400]
    rw [years, Int.natCast_add, ih, hl]
    split <;> omega

theorem tmLeap_eq (y : Nat) : tmLeap ((y : Int) - 1900) = leap y := by
  unfold tmLeap leap
  rw [Int.sub_add_cancel, Bool.eq_iff_iff]
  simp only [decide_eq_true_eq, Bool.and_eq_true, Bool.or_eq_true, beq_iff_eq, bne_iff_ne, ne_eq]
  omega

theorem months_formula (y m : Nat) (h1 : 1 ≤ m) (h2 : m ≤ 12) :
    (months y (m - 1) : Int) = cumulative ((m : Int) - 1) + (if leap y && decide ((2 : Int) ≤ (m : Int) - 1) then 1 else 0) := by
  have : m = 1 ∨ m = 2 ∨ m = 3 ∨ m = 4 ∨ m = 5 ∨ m = 6 ∨ m = 7 ∨ m = 8 ∨ m = 9 ∨ m = 10 ∨ m = 11 ∨ m = 12 := by omega
  rcases this with rfl | rfl | rfl | rfl | rfl | rfl | rfl | rfl | rfl | rfl | rfl | rfl <;>
    cases hl : leap y <;> simp [months, monthDays, cumulative, hl]

theorem timegm_unix {v : X509Time} (h : Valid v) : timegm (toTm v) = unix v := by
  have hy := years_formula (v.year - 1970)
  have hm := months_formula v.year v.mon h.mon.1 h.mon.2
  have h1 := h.year
  have h2 := h.day
  unfold timegm toTm unix
  simp only
  rw [if_neg (by omega), tmLeap_eq]
  simp only [Int.natCast_add, Int.natCast_mul, hm]
  have e : ((v.year - 1970 : Nat) : Int) = (v.year : Int) - 1970 := by omega
  rw [e] at hy
  rw [hy]
  have e2 : ((v.day - 1 : Nat) : Int) = (v.day : Int) - 1 := by omega
  rw [e2]
  have a1 : (v.year : Int) - 1900 - 69 = (v.year : Int) - 1970 + 1 := by omega
  have a2 : (v.year : Int) - 1900 - 1 = (v.year : Int) - 1970 + 69 := by omega
  have a3 : (v.year : Int) - 1900 + 299 = (v.year : Int) - 1970 + 369 := by omega
  rw [a1, a2, a3]
  generalize ((v.year : Int) - 1970 + 1) / 4 = q1
  generalize ((v.year : Int) - 1970 + 69) / 100 = q2
  generalize ((v.year : Int) - 1970 + 369) / 400 = q3
  generalize (if (leap v.year && decide ((2 : Int) ≤ (v.mon : Int) - 1)) = true then (1 : Int) else 0) = b
  generalize cumulative ((v.mon : Int) - 1) = c
  omega

end Verif.Core.Expiry
