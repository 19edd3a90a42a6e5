import Verif.Api.StampSpec

/-! # C157: the time and the place in the lines of the loggers -/

namespace Verif.Api.Stamp.Props
open Verif.Api.Stamp Spec

/-- **C157**: the logger for Unix prints the time at which the line was written, to the millisecond. -/
theorem C157_unix (r : Reading) : shown (unixLog r) = r.first / 1000 ∧ (unixLog r).ms < 1000 := by
  simp only [shown, unixLog, tvSec, tvUsec]
  omega

/-- **C157**: its lines are stamped in the order in which they were written. -/
theorem C157_unix_order (l : List Reading) (h : Forward l) : Ordered (l.map fun r => shown (unixLog r)) := by
  induction l with
  | nil => trivial
  | cons r l ih =>
    cases l with
    | nil => trivial
    | cons q l =>
      refine ⟨?_, ih h.2.2⟩
      show shown (unixLog r) ≤ shown (unixLog q)
      rw [(C157_unix r).1, (C157_unix q).1]
      have h1 := h.1
      have h2 := h.2.1
      exact Nat.div_le_div_right (Nat.le_trans h1 h2)

/-- **C157**, if no second ends while the line reads the clock: the standard logger prints the time at which the line was
written, to the millisecond. -/
theorem C157_std_partial (r : Reading) (h : SameSecond r) : shown (stdOut r) = r.first / 1000 ∧ (stdOut r).ms < 1000 := by
  unfold SameSecond at h
  simp only [shown, stdOut, tvSec, tvUsec, ← h]
  omega

/-- **C157**, under the same condition: its lines are stamped in the order in which they were written. -/
theorem C157_std_order_partial (l : List Reading) (h : Forward l) (hs : ∀ r ∈ l, SameSecond r) :
    Ordered (l.map fun r => shown (stdOut r)) := by
  induction l with
  | nil => trivial
  | cons r l ih =>
    cases l with
    | nil => trivial
    | cons q l =>
      refine ⟨?_, ih h.2.2 (fun r hr => hs r (List.mem_cons_of_mem _ hr))⟩
      show shown (stdOut r) ≤ shown (stdOut q)
      rw [(C157_std_partial r (hs r List.mem_cons_self)).1, (C157_std_partial q (hs q (List.mem_cons_of_mem _ List.mem_cons_self))).1]
      have h1 := h.1
      have h2 := h.2.1
      exact Nat.div_le_div_right (Nat.le_trans h1 h2)

/-- **C157**: the time of the standard logger is never too early, and less than a second too late. -/
theorem C157_std_bound (r : Reading) (h : r.first ≤ r.second) :
    r.first / 1000 ≤ shown (stdOut r) ∧ shown (stdOut r) < r.second / 1000 + 1000 := by
  simp only [shown, stdOut, tvSec, tvUsec]
  omega

/-- Three lines within a second and a half. -/
def lines : List Reading := [⟨5000999, 5001000⟩, ⟨5700000, 5700001⟩, ⟨6500000, 6500009⟩]

example : Forward lines ∧ (∀ r ∈ lines, SameSecond r) ∧ lines.map (fun r => shown (stdOut r)) = [5000, 5700, 6500] := by
  refine ⟨by simp [lines, Forward], ?_, by decide⟩
  intro r hr
  simp only [lines, List.mem_cons, List.not_mem_nil, or_false] at hr
  rcases hr with rfl | rfl | rfl <;> rfl

/-- **C157** is violated by the code: whenever the second ends between the two readings of the clock, the standard logger prints a time
which lies in the future by all the milliseconds of the second which has ended. -/
theorem C157_future_violated (n a b : Nat) (ha : 1000 ≤ a) (ha' : a < 1000000) (hb : b < 1000) :
    shown (stdOut ⟨n * 1000000 + a, (n + 1) * 1000000 + b⟩) = ((n + 1) * 1000000 + b) / 1000 + a / 1000 := by
  simp only [shown, stdOut, tvSec, tvUsec]
  omega

/-- **C157** is violated by the code: the next line has an earlier time. -/
theorem C157_order_violated : ∃ l, Forward l ∧ ¬ Ordered (l.map fun r => shown (stdOut r)) :=
  ⟨[⟨5999999, 6000000⟩, ⟨6000010, 6000011⟩], by simp [Forward], by simp [Ordered, shown, stdOut, tvSec, tvUsec]⟩

/-- **C157**: the place is the name of the file if it is short, and otherwise its last 24 characters. -/
theorem C157_place (file : List Char) :
    fileTmp file <:+ file ∧ (fileTmp file).length = min file.length 24 := by
  unfold fileTmp
  split
  · exact ⟨List.drop_suffix _ _, by rw [List.length_drop]; omega⟩
  · exact ⟨List.suffix_refl _, by omega⟩

example : fileTmp "/home/build/src/core/nc_attacher.c".toList = "d/src/core/nc_attacher.c".toList := by decide +kernel

/-- **C157**: the text of the level tells the levels apart. -/
theorem C157_level (a b : Level) (h : levelText a = levelText b) : a = b := by
  cases a <;> cases b <;> first | rfl | (simp [levelText] at h)

example : levelText .warn ≠ levelText .info := by decide

end Verif.Api.Stamp.Props
