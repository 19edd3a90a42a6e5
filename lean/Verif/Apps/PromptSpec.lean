import Verif.Apps.Prompt

/-!
# Questions to the user — specification
-/

namespace Verif.Apps.Spec

open Verif.Apps

/-- A line of printable characters. -/
def Printable (line : List Nat) : Prop := ∀ c ∈ line, 0x20 ≤ c ∧ c ≤ 0x7e

/-- The keys which type a line. -/
def typed (line : List Nat) : List In := line.map (fun c => In.byte (Fin.ofNat 256 c)) ++ [.byte 10]

/-- The keys which type several lines. -/
def typedAll (lines : List (List Nat)) : List In := lines.flatMap typed

/-- ASCII codes of a text. -/
def codes (s : String) : List Nat := s.toList.map Char.toNat

/-- The same text but for the case of letters. -/
def SameText (line : List Nat) (s : String) : Prop :=
  line.length = s.toList.length ∧ ∀ p ∈ line.zip (codes s), p.1 = p.2 ∨ (97 ≤ p.2 ∧ p.2 ≤ 122 ∧ p.1 + 32 = p.2)

/-- A line which means yes, or no. -/
def Means (line : List Nat) : Bool → Prop
  | true => SameText line "y" ∨ SameText line "yes"
  | false => SameText line "n" ∨ SameText line "no"

/-- A line which is the decimal number `n`. -/
def Number (line : List Nat) (n : Nat) : Prop :=
  line ≠ [] ∧ (∀ c ∈ line, 48 ≤ c ∧ c ≤ 57) ∧ n = line.foldl (fun a c => 10 * a + (c - 48)) 0

end Verif.Apps.Spec
