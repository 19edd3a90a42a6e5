/-!
# Time stamps

Model of `src/platform/np_timestamp_wrapper.c`: a 32 bit millisecond counter that wraps.
-/

namespace Verif.Util.Timestamp

/-- The conversion `(int32_t)x` of a `uint32_t` on a two's complement machine. -/
def toInt32 (x : UInt32) : Int := if x.toNat < 2 ^ 31 then x.toNat else (x.toNat : Int) - 2 ^ 32

/-- `np_timestamp_less_or_equal`, `np_timestamp_wrapper.c:16-19`. -/
def lessOrEqual (t1 t2 : UInt32) : Bool := toInt32 (t1 - t2) ≤ 0

/-- `np_timestamp_passed_or_now`, `np_timestamp_wrapper.c:8-11`; `now` is `np_timestamp_now_ms`. -/
def passedOrNow (now stamp : UInt32) : Bool := lessOrEqual stamp now

/-- `np_timestamp_future`, `np_timestamp_wrapper.c:21-24`. -/
def future (now ms : UInt32) : UInt32 := now + ms

/-- `np_timestamp_difference`, `np_timestamp_wrapper.c:27-30`. -/
def difference (t1 t2 : UInt32) : Int := toInt32 (t1 - t2)

/-- Specification: the stamp of an instant (milliseconds since some start, never wrapping). -/
def stamp (t : Nat) : UInt32 := UInt32.ofNat t

/-! ## Helpers -/

theorem stamp_sub (a b : Nat) : (stamp a - stamp b).toNat = (2 ^ 32 - b % 2 ^ 32 + a) % 2 ^ 32 := by
  simp only [stamp, UInt32.toNat_sub, UInt32.toNat_ofNat']
  omega

/-! ## C35 -/

/-- C35: the difference of two stamps is the difference of the instants if they are less than 2^31 ms
apart. -/
theorem C35_difference (a b : Nat) (h1 : a < b + 2 ^ 31) (h2 : b < a + 2 ^ 31) :
    difference (stamp a) (stamp b) = (a : Int) - b := by
  unfold difference toInt32
  rw [stamp_sub]
  split <;> omega

/-- C35: and so comparing stamps is comparing instants. -/
theorem C35_compare (a b : Nat) (h1 : a < b + 2 ^ 31) (h2 : b < a + 2 ^ 31) :
    lessOrEqual (stamp a) (stamp b) = decide (a ≤ b) := by
  have h := C35_difference a b h1 h2
  unfold difference at h
  unfold lessOrEqual
  rw [h]
  simp only [decide_eq_decide]
  omega

/-- C35: a deadline set `ms` ahead has passed after `e` milliseconds exactly if `ms ≤ e`, across any number
of wraps before the deadline is set, for all timers and waiting times below 2^31 ms. -/
theorem C35_deadline (now ms e : Nat) (hm : ms < 2 ^ 31) (he : e < 2 ^ 31) :
    passedOrNow (stamp (now + e)) (future (stamp now) (UInt32.ofNat ms)) = decide (ms ≤ e) := by
  have : future (stamp now) (UInt32.ofNat ms) = stamp (now + ms) := by
    simp [future, stamp]
  unfold passedOrNow
  rw [this, C35_compare _ _ (by omega) (by omega), decide_eq_decide]
  omega

/-- C35: the bound is sharp. Stamps 2^31 ms apart each count as not later than the other, and later ones are
ordered backwards. -/
theorem C35_bound_sharp (a : Nat) :
    lessOrEqual (stamp (a + 2 ^ 31)) (stamp a) = true ∧ lessOrEqual (stamp a) (stamp (a + 2 ^ 31)) = true ∧
    lessOrEqual (stamp (a + 2 ^ 31 + 1)) (stamp a) = true ∧
    lessOrEqual (stamp a) (stamp (a + 2 ^ 31 + 1)) = false := by
  refine ⟨?_, ?_, ?_, ?_⟩
  all_goals
    unfold lessOrEqual toInt32
    rw [stamp_sub]
    simp only [decide_eq_true_eq, decide_eq_false_iff_not]
    split <;> omega

example : lessOrEqual (stamp (2 ^ 32 - 1)) (stamp (2 ^ 32 + 5)) = true ∧
    lessOrEqual (stamp (2 ^ 32 + 5)) (stamp (2 ^ 32 - 1)) = false ∧ stamp (2 ^ 32 + 5) = 5 := by decide +kernel

end Verif.Util.Timestamp
