import Verif.Api.Stamp

/-! # The time and the place in the lines of the loggers: specification -/

namespace Verif.Api.Stamp.Spec

/-- The time a stamp shows, in milliseconds. -/
def shown (s : Stamp) : Nat := s.sec * 1000 + s.ms

/-- The clock does not go back: not within a line, and not from line to line. -/
def Forward : List Reading → Prop
  | [] => True
  | [r] => r.first ≤ r.second
  | r :: q :: l => r.first ≤ r.second ∧ r.second ≤ q.first ∧ Forward (q :: l)

/-- No second ends while a line reads the clock. -/
def SameSecond (r : Reading) : Prop := r.first / 1000000 = r.second / 1000000

/-- Times in order. -/
def Ordered : List Nat → Prop
  | [] => True
  | [_] => True
  | a :: b :: l => a ≤ b ∧ Ordered (b :: l)

end Verif.Api.Stamp.Spec
