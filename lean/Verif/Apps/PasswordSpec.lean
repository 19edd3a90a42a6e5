import Verif.Apps.Password

/-!
# Generated passwords — specification
-/

namespace Verif.Apps.Spec

/-- A letter or digit which is not mistaken for another one. -/
def Readable (c : Char) : Prop := c.isAlphanum = true ∧ c ∉ "B8G6I1l0OQDS5Z2".toList

instance (c : Char) : Decidable (Readable c) := inferInstanceAs (Decidable (_ ∧ _))

/-- All sequences of `k` bytes. -/
def byteSeqs : Nat → List (List (Fin 256))
  | 0 => [[]]
  | k + 1 => (List.finRange 256).flatMap (fun b => (byteSeqs k).map (b :: ·))

/-- With these bytes the password is `p`. -/
def Yields (n : Nat) (p : List Char) (bs : List (Fin 256)) : Prop :=
  ∃ buffer, Verif.Apps.randomPassword true true n (bs.map .byte) = .done buffer ∧ Verif.Apps.bufferString buffer = p

instance (n : Nat) (p : List Char) (bs : List (Fin 256)) : Decidable (Yields n p bs) :=
  match h : Verif.Apps.randomPassword true true n (bs.map .byte) with
  | .done b => if hb : Verif.Apps.bufferString b = p then .isTrue ⟨b, h, hb⟩
      else .isFalse (by rintro ⟨b', h1, h2⟩; rw [h] at h1; cases h1; exact hb h2)
  | .asking => .isFalse (by rintro ⟨b', h1, _⟩; rw [h] at h1; cases h1)
  | .null => .isFalse (by rintro ⟨b', h1, _⟩; rw [h] at h1; cases h1)
  | .ub => .isFalse (by rintro ⟨b', h1, _⟩; rw [h] at h1; cases h1)

/-- The number of sequences of `k` bytes with which the password is `p`. -/
def ways (n k : Nat) (p : List Char) : Nat := (byteSeqs k).countP (fun bs => decide (Yields n p bs))

end Verif.Apps.Spec
