/-!
# Hex encoding

Model of `src/platform/np_util.c`. Characters are bytes, as in C. A write outside the output buffer is
the outcome `ub`.
-/

namespace Verif.Util.Hex

/-- Outcome of `np_hex_to_data_length`: undefined behaviour, `false`, or `true` with the buffer. -/
inductive Res
  | ub
  | reject
  | ok (data : List UInt8)
  deriving DecidableEq, Repr

/-- The digit case distinction, `np_util.c:34-43`. -/
def digit (c : UInt8) : Option UInt8 :=
  if 48 ≤ c ∧ c ≤ 57 then some (c - 48)
  else if 65 ≤ c ∧ c ≤ 70 then some (10 + (c - 65))
  else if 97 ≤ c ∧ c ≤ 102 then some (10 + (c - 97))
  else none

/-- `data[i] += v` on a `uint8_t` array. -/
def addAt (data : List UInt8) (i : Nat) (v : UInt8) : Option (List UInt8) :=
  match data[i]? with
  | none => none
  | some b => some (data.set i (b + v))

/-- The loop, `np_util.c:31-50`. `value << 4` is computed in `int` and added to a `uint8_t`; the value is
at most 15, so the shift does not lose bits. -/
def loop : List UInt8 → Nat → List UInt8 → Res
  | [], _, data => .ok data
  | c :: cs, index, data =>
    match digit c with
    | none => .reject
    | some v =>
      match addAt data (index / 2) (v * (if (index + 1) % 2 = 1 then 16 else 1)) with
      | none => .ub
      | some data' => loop cs (index + 1) data'

/-- `np_hex_to_data_length`, `np_util.c:9-53`. The output buffer has the announced length, below 2^63, so
`dataLength * 2` does not overflow; `dataLength * 2 - 1` wraps for 0. -/
def hexToData (hex : List UInt8) (dataLength : Nat) : Res :=
  if hex.length = dataLength * 2 ∨ hex.length = (dataLength * 2 + (2 ^ 64 - 1)) % 2 ^ 64 then
    loop hex (if hex.length % 2 = 1 then 1 else 0) (List.replicate dataLength 0)
  else .reject

/-- `encodeChar`, `np_util.c:54-64`. -/
def encodeChar (v : UInt8) : UInt8 :=
  if v ≤ 9 then 48 + v
  else if v ≤ 15 then 97 + (v - 10)
  else 48

/-- `np_data_to_hex`, `np_util.c:66-78`; the output array has room for two characters per byte. -/
def dataToHex : List UInt8 → List UInt8
  | [] => []
  | b :: bs => encodeChar ((b >>> 4) &&& 0xF) :: encodeChar (b &&& 0xF) :: dataToHex bs

/-! ## Specification -/

namespace Spec

/-- Hex digits as text: digit `i` of the alphabet has value `i`; upper and lower case. -/
def lower : List Char := "0123456789abcdef".toList
def upper : List Char := "0123456789ABCDEF".toList

/-- The character is a hex digit of this value. -/
def IsDigit (c : UInt8) (v : Nat) : Prop :=
  (∃ ch, lower[v]? = some ch ∧ ch.toNat = c.toNat) ∨ (∃ ch, upper[v]? = some ch ∧ ch.toNat = c.toNat)

/-- Value of a list of digits, most significant first. -/
def value (base : Nat) : List Nat → Nat
  | [] => 0
  | d :: ds => d * base ^ ds.length + value base ds

/-- The text spells these digits. -/
inductive Spells : List UInt8 → List Nat → Prop
  | nil : Spells [] []
  | cons {c v cs vs} : IsDigit c v → Spells cs vs → Spells (c :: cs) (v :: vs)

end Spec

end Verif.Util.Hex
