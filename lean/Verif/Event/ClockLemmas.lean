import Verif.Event.ClockSpec

namespace Verif.Event.Clock

open Spec

theorem signed_eq {w : Nat} {x : Int} (h1 : -2 ^ (w - 1) ≤ x) (h2 : x < 2 ^ (w - 1)) : signed w x = some x := if_pos ⟨h1, h2⟩

theorem signed_none {w : Nat} {x : Int} (h : 2 ^ (w - 1) ≤ x) : signed w x = none := if_neg (by omega)

/-- With a `time_t` of 64 bits the sum is right. -/
theorem futureMs_64 {a : Arch} (ha : a.time = 64) (w : Nat) (hw : w < 2 ^ 60) (ms : UInt32) :
    futureMs a (w / 1000000) (w % 1000000) ms = some (w / 1000 + ms.toNat) := by
  have hm := ms.toNat_lt
  unfold futureMs
  rw [ha]
  have h1 : signed 64 (((w / 1000000 : Nat) : Int) * 1000) = some (((w / 1000000 : Nat) : Int) * 1000) :=
    signed_eq (by omega) (by omega)
  rw [h1, Option.bind_some]
  have h2 : signed 64 (((w % 1000000 : Nat) : Int) / 1000 + ((w / 1000000 : Nat) : Int) * 1000) =
      some (((w % 1000000 : Nat) : Int) / 1000 + ((w / 1000000 : Nat) : Int) * 1000) := signed_eq (by omega) (by omega)
  rw [h2, Option.bind_some, if_pos (by decide)]
  have h3 : signed 64 (((w % 1000000 : Nat) : Int) / 1000 + ((w / 1000000 : Nat) : Int) * 1000 + (ms.toNat : Int)) =
      some (((w % 1000000 : Nat) : Int) / 1000 + ((w / 1000000 : Nat) : Int) * 1000 + (ms.toNat : Int)) :=
    signed_eq (by omega) (by omega)
  rw [h3, Option.map_some]
  refine congrArg some ?_
  omega

theorem deadline_lp64 (wall : Wall) (t : Nat) (hw : wall t < 2 ^ 60) (ms : UInt32) :
    deadline lp64 wall t ms = some (((wall t / 1000 + ms.toNat : Nat) : Int) * 1000000) := by
  have hm := ms.toNat_lt
  unfold deadline
  rw [futureMs_64 rfl _ hw, Option.map_some]
  congr 1
  generalize hf : wall t / 1000 + ms.toNat = f
  have hlt : f < 2 ^ 62 := by omega
  have c1 : cast 64 f = f := by
    unfold cast
    rw [Nat.mod_eq_of_lt (by omega), if_pos (by omega)]
  have c2 : cast 64 (f % 1000) = (f % 1000 : Nat) := by
    unfold cast
    rw [Nat.mod_eq_of_lt (a := f % 1000) (by omega), if_pos (by omega)]
  show (cast 64 f).tdiv 1000 * 1000000000 + cast 64 (f % 1000) * 1000000 = (f : Int) * 1000000
  rw [c1, c2, Int.tdiv_eq_ediv_of_nonneg (by omega)]
  omega

theorem futureMs_32 (w : Nat) (hw : 2147484 * 1000000 ≤ w) (ms : UInt32) :
    futureMs ilp32 (w / 1000000) (w % 1000000) ms = none := by
  unfold futureMs
  have : signed ilp32.time (((w / 1000000 : Nat) : Int) * 1000) = none := signed_none (by
    show (2 : Int) ^ 31 ≤ _
    omega)
  rw [this]
  rfl

theorem cast_le (x : Nat) : cast 32 x < 2 ^ 31 := by
  unfold cast
  split <;> omega

theorem deadline_ilp32Time64 (wall : Wall) (t : Nat) (hw : wall t < 2 ^ 60) (ms : UInt32) :
    ∃ d, deadline ilp32Time64 wall t ms = some d ∧ d < 2147484 * 1000000000 := by
  unfold deadline
  rw [futureMs_64 rfl _ hw, Option.map_some]
  refine ⟨_, rfl, ?_⟩
  generalize wall t / 1000 + ms.toNat = f
  have h1 := cast_le f
  have c2 : cast 32 (f % 1000) = (f % 1000 : Nat) := by
    unfold cast
    rw [Nat.mod_eq_of_lt (a := f % 1000) (by omega), if_pos (by omega)]
  show (cast 32 f).tdiv 1000 * 1000000000 + cast 32 (f % 1000) * 1000000 < _
  rw [c2]
  have h2 : (cast 32 f).tdiv 1000 ≤ 2147483 := by
    by_cases h0 : 0 ≤ cast 32 f
    · rw [Int.tdiv_eq_ediv_of_nonneg h0]; omega
    · have h3 : (cast 32 f).tdiv 1000 = -((-(cast 32 f)).tdiv 1000) := by rw [Int.neg_tdiv, Int.neg_neg]
      rw [h3, Int.tdiv_eq_ediv_of_nonneg (by omega)]
      omega
  omega

theorem nowMs_eq (impl : Impl) {a : Arch} (ha : a.time = 64) (wall : Wall) (t : Nat) (hw : wall t < 2 ^ 60) :
    nowMs impl a wall t = some (Verif.Util.Timestamp.stamp (wall t / 1000)) := by
  cases impl with
  | libevent =>
    show some (UInt32.ofNat _) = some (UInt32.ofNat _)
    congr 2
    omega
  | unix =>
    show ((signed a.time _).bind _) = _
    rw [ha]
    rw [signed_eq (by omega) (by omega), Option.bind_some, signed_eq (by omega) (by omega), Option.map_some]
    congr 1
    apply UInt32.toNat_inj.mp
    simp only [Verif.Util.Timestamp.stamp, UInt32.toNat_ofNat']
    omega

end Verif.Event.Clock
