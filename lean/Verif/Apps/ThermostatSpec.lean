import Verif.Apps.Thermostat

/-!
# The thermostat example — specification
-/

namespace Verif.Apps.Thermostat.Spec

/-- A half precision number, IEEE 754: a sign, 5 bits of exponent with bias 15, 10 bits of fraction. -/
def half (sign : Bool) (exp : Fin 31) (frac : Fin 1024) : Rat :=
  (if sign then -1 else 1) *
    if exp.val = 0 then 2 ^ (-14 : Int) * (frac.val / 1024 : Rat) else 2 ^ ((exp.val : Int) - 15) * (1 + frac.val / 1024 : Rat)

/-- What a client set last. -/
structure Want where
  mode : Mode
  power : Bool
  target : Num

/-- The value of a request which must be accepted: the client has access and sent CBOR. -/
def body (r : Request) : Option Value := if r.access ∧ r.cbor then r.payload else none

def modeOf : Option Value → Option Mode
  | some (.text t) => [Mode.cool, .heat, .fan, .dry].find? fun m => m.text == t
  | _ => none

def powerOf : Option Value → Option Bool
  | some (.bool b) => some b
  | _ => none

def targetOf : Option Value → Option Num
  | some (.half b) => some (decodeHalf b)
  | some (.float x) => some x
  | some (.double x) => some x
  | _ => none

def Want.step (w : Want) : Op → Want
  | .setMode r _ => { w with mode := (modeOf (body r)).getD w.mode }
  | .setPower r _ => { w with power := (powerOf (body r)).getD w.power }
  | .setTarget r _ => { w with target := (targetOf (body r)).getD w.target }
  | .reset .. => ⟨.heat, false, .fin (223 / 10)⟩
  | _ => w

def Want.run (w : Want) (ops : List Op) : Want := ops.foldl Want.step w

/-- The request is accepted. -/
def accepted : Op → Bool
  | .setMode r _ => (modeOf (body r)).isSome
  | .setPower r _ => (powerOf (body r)).isSome
  | .setTarget r _ => (targetOf (body r)).isSome
  | _ => false

def isRequest : Op → Bool
  | .setMode .. | .setPower .. | .setTarget .. => true
  | _ => false

def isBoot : Op → Bool
  | .boot _ | .reset .. => true
  | _ => false

/-- The request is denied, or carries a CBOR value of whatever type. -/
def wellFormed : Op → Prop
  | .setMode r _ | .setPower r _ | .setTarget r _ => r.access = false ∨ (r.cbor = true ∧ r.payload.isSome = true)
  | _ => True

def finite : Num → Bool
  | .fin _ => true
  | _ => false

/-- Files are written, and targets are finite. -/
def durable : Op → Bool
  | .setMode _ w | .setPower _ w | .boot w => w == .ok
  | .setTarget r w => w == .ok && match targetOf (body r) with | some x => finite x | none => true
  | .reset w w' => w == .ok && w' == .ok
  | .tick => true

/-- The distance of the temperature to the target. -/
def dist (t e : Rat) : Rat := if t ≤ e then e - t else t - e

end Verif.Apps.Thermostat.Spec
