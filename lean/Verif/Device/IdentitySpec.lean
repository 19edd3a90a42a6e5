import Verif.Device.Identity

/-!
# The settings of a device — specification
-/

namespace Verif.Device.Identity.Spec

variable {K : Type}

/-- What a call returns after a history. -/
def returns (ops : List (Op K)) (op : Op K) : Ec := (step (run ops) op).2

/-- The value which a call gives a field, if it succeeds. -/
def gives (f : Field) : Op K → Ec → Option Text
  | .set g t _, .ok => if g = f then some t else none
  | _, _ => none

/-- The last value which a field was given by a call which succeeded, in a list of calls with what they returned. -/
def lastOk (f : Field) : List (Op K × Ec) → Option Text
  | [] => none
  | x :: r => (lastOk f r).or (gives f x.1 x.2)

/-- The calls which are made in a state, with what they return. -/
def traceFrom (s : St K) : List (Op K) → List (Op K × Ec)
  | [] => []
  | op :: r => (op, (step s op).2) :: traceFrom (step s op).1 r

/-- The calls of a history with what they returned. -/
def trace (ops : List (Op K)) : List (Op K × Ec) := traceFrom St.init ops

def isStart : Op K → Bool
  | .start .. => true
  | _ => false

def isSetKey : Op K → Bool
  | .setKey .. => true
  | _ => false

def setsField (f : Field) : Op K → Bool
  | .set g _ _ => g = f
  | _ => false

/-- Reading a string of hexadecimal digits. -/
def value (c : Char) : Option Nat :=
  if '0' ≤ c ∧ c ≤ '9' then some (c.toNat - 48)
  else if 'a' ≤ c ∧ c ≤ 'f' then some (c.toNat - 87)
  else none

def parse : List Char → Option (List UInt8)
  | [] => some []
  | [_] => none
  | a :: b :: r =>
    match value a, value b, parse r with
    | some x, some y, some l => some (UInt8.ofNat (16 * x + y) :: l)
    | _, _, _ => none

end Verif.Device.Identity.Spec
