import Verif.Cbor.Safe

/-!
# tinycbor parser on well formed input: heads, lemmas
-/

namespace Verif.Cbor

theorem be_length (k n : Nat) : (be k n).length = k := by
  induction k generalizing n with
  | zero => rfl
  | succ k ih => simp [be, ih]

theorem beNat_append (l : Bytes) (b : UInt8) : beNat (l ++ [b]) = beNat l * 256 + b.toNat := by
  simp [beNat]

theorem beNat_be (k n : Nat) : beNat (be k n) = n % 256 ^ k := by
  induction k generalizing n with
  | zero => simp [be, beNat, Nat.mod_one]
  | succ k ih =>
    rw [be, beNat_append, ih, UInt8.toNat_ofNat', show (256 : Nat) ^ (k + 1) = 256 * 256 ^ k from Nat.pow_succ',
      Nat.mod_mul]
    have : (2 : Nat) ^ 8 = 256 := rfl
    rw [this]
    generalize n / 256 % 256 ^ k = x
    omega

/-- The additional information of a head. -/
def addl (n : Nat) : Nat :=
  if n < 24 then n else if n < 2 ^ 8 then 24 else if n < 2 ^ 16 then 25 else if n < 2 ^ 32 then 26 else 27

/-- The bytes of a head after the first. -/
def argBytes (n : Nat) : Bytes :=
  if n < 24 then [] else if n < 2 ^ 8 then be 1 n else if n < 2 ^ 16 then be 2 n else if n < 2 ^ 32 then be 4 n else be 8 n

theorem head_eq (m n : Nat) : head m n = UInt8.ofNat (m * 32 + addl n) :: argBytes n := by
  unfold head addl argBytes
  grind

theorem argBytes_length (n : Nat) : (argBytes n).length = numBytes (addl n) := by
  unfold argBytes addl numBytes
  grind [be_length]

theorem argBytes_nat {n : Nat} (h : 24 ≤ n) (h64 : n < 2 ^ 64) : beNat (argBytes n) = n := by
  unfold argBytes
  rw [if_neg (by omega)]
  (repeat' split) <;> rw [beNat_be] <;> exact Nat.mod_eq_of_lt (by omega)

theorem addl_le (n : Nat) : addl n ≤ 27 := by
  unfold addl; grind

theorem small_ofNat {m k : Nat} (hk : k < 32) : small (UInt8.ofNat (m * 32 + k)) = k := by
  unfold small
  rw [UInt8.toNat_ofNat', show (2 : Nat) ^ 8 = 256 from rfl]
  omega

/-- The type of a major type. -/
def majorTy : Nat → Ty
  | 0 | 1 => .int
  | 2 => .bytes
  | 3 => .text
  | 4 => .arr
  | 5 => .map
  | 6 => .tag
  | _ => .simple

theorem tyOf_ofNat : ∀ m < 8, ∀ k < 32, tyOf (UInt8.ofNat (m * 32 + k)) = majorTy m := by decide +kernel

theorem neg_ofNat : ∀ m < 8, ∀ k < 32, (0x20 ≤ UInt8.ofNat (m * 32 + k) ∧ UInt8.ofNat (m * 32 + k) < 0x40 ↔ m = 1) := by
  decide +kernel

/-- A value whose head has been read. -/
def Value.setHead (u : Value) (ty : Ty) (n : Nat) (neg : Bool) : Value :=
  { u with type := ty, extra := if n < 2 ^ 16 then n else 0, is64 := decide (2 ^ 32 ≤ n), large := decide (2 ^ 16 ≤ n)
           bit4 := neg, unknown := false }

theorem readExtra_head {u : Value} {b : UInt8} {n : Nat} {t : Bytes} (h64 : n < 2 ^ 64) (hs : small b = addl n)
    (hr : u.rest = b :: argBytes n ++ t) :
    readExtra (fresh u b) (small b) = .ok ((fresh u b).setHead (tyOf b) n false) := by
  have hl := argBytes_length n
  have hx : (fresh u b).rest = b :: argBytes n ++ t := hr
  unfold readExtra
  rw [hs]
  by_cases h1 : n < 24
  · have ha : addl n = n := by simp [addl, h1]
    rw [if_pos (by simp [ha, numBytes, h1])]
    have : ¬ 2 ^ 16 ≤ n := by omega
    have : ¬ 2 ^ 32 ≤ n := by omega
    simp [Value.setHead, fresh, *]
  · by_cases h2 : n < 2 ^ 16
    · have hn : numBytes (addl n) = 1 ∨ numBytes (addl n) = 2 := by
        unfold numBytes addl; grind
      rw [if_neg (by omega), if_pos hn]
      unfold Value.read
      rw [hx, if_pos (by simp only [List.length_append, List.length_cons]; omega)]
      have : List.take (numBytes (addl n)) (List.drop 1 (b :: argBytes n ++ t)) = argBytes n := by
        rw [← hl]; simp
      rw [this]
      have h3 : ¬ 2 ^ 16 ≤ n := by omega
      have h4 : ¬ 2 ^ 32 ≤ n := by omega
      simp only [R.bind_eq, R.bind, R.pure_eq, Value.setHead, fresh, argBytes_nat (by omega : 24 ≤ n) h64, h2, h3, h4,
        if_true, decide_false, hr]
    · have hn : numBytes (addl n) = 4 ∨ numBytes (addl n) = 8 := by
        unfold numBytes addl; grind
      rw [if_neg (by omega), if_neg (by omega)]
      have h27 : (addl n = 27) = (2 ^ 32 ≤ n) := by
        unfold addl; simp; grind
      simp [Value.setHead, fresh, h27, h2, show 2 ^ 16 ≤ n by omega]

theorem preparse_head {u : Value} {m n : Nat} {t : Bytes} (hm : m < 7) (h64 : n < 2 ^ 64)
    (hr : u.rest = head m n ++ t) : preparse u = .ok (u.setHead (majorTy m) n (decide (m = 1))) := by
  have hk := addl_le n
  have hs := small_ofNat (m := m) (k := addl n) (by omega)
  have ht := tyOf_ofNat m (by omega) (addl n) (by omega)
  have hg := neg_ofNat m (by omega) (addl n) (by omega)
  have hl := argBytes_length n
  rw [head_eq] at hr
  generalize UInt8.ofNat (m * 32 + addl n) = b at *
  unfold preparse
  rw [hr]
  simp only [List.cons_append]
  rw [if_neg (by omega), if_neg (by simp only [Value.canRead, hr, hs]; simp; omega), readExtra_head h64 hs hr]
  simp only [R.bind_eq, R.bind]
  unfold classify
  by_cases h1 : m = 1
  · rw [if_pos (hg.2 h1)]
    subst h1
    simp [Value.setHead, fresh, ht, majorTy]
  · rw [if_neg (fun h => h1 (hg.1 h)), if_neg]
    · simp [Value.setHead, fresh, ht, h1]
    · rw [ht]
      have : m = 0 ∨ m = 2 ∨ m = 3 ∨ m = 4 ∨ m = 5 ∨ m = 6 := by omega
      rcases this with h | h | h | h | h | h <;> subst h <;> simp [majorTy]

theorem num_setHead {u v : Value} {m n : Nat} {t : Bytes} (h64 : n < 2 ^ 64) (hr : v.rest = head m n ++ t) {ty neg}
    (hv : v = u.setHead ty n neg) : v.num = .ok n := by
  have hl := argBytes_length n
  unfold Value.num
  by_cases h2 : n < 2 ^ 16
  · rw [if_neg (by rw [hv]; simp [Value.setHead]; omega), hv]
    simp [Value.setHead]
    omega
  · rw [if_pos (by rw [hv]; simp [Value.setHead]; omega)]
    have hn : (if v.is64 = true then 8 else 4) = numBytes (addl n) := by
      rw [hv]; unfold numBytes addl; simp [Value.setHead]; grind
    rw [hn]
    unfold Value.read
    rw [hr, head_eq, if_pos (by simp only [List.length_append, List.length_cons]; omega)]
    have : List.take (numBytes (addl n)) (List.drop 1 (UInt8.ofNat (m * 32 + addl n) :: argBytes n ++ t)) = argBytes n := by
      rw [← hl]; simp
    rw [this]
    simp [argBytes_nat (by omega : 24 ≤ n) h64]

theorem head_skip {m n : Nat} (t : Bytes) : ∃ b r, head m n ++ t = b :: r ∧
    List.drop (numBytes (small b) + 1) (head m n ++ t) = t ∧ numBytes (small b) + 1 ≤ (head m n ++ t).length := by
  have hl := argBytes_length n
  have hs := small_ofNat (m := m) (k := addl n) (by have := addl_le n; omega)
  refine ⟨_, argBytes n ++ t, by rw [head_eq]; rfl, ?_, ?_⟩
  · rw [hs, head_eq, ← hl]; simp
  · rw [hs, head_eq, ← hl]; simp

theorem numAdvance_setHead {u v : Value} {m n : Nat} {t : Bytes} (h64 : n < 2 ^ 64)
    (hr : v.rest = head m n ++ t) {ty neg} (hv : v = u.setHead ty n neg) : numAdvance v = .ok (n, { v with rest := t }) := by
  unfold numAdvance
  rw [num_setHead h64 hr hv]
  obtain ⟨b, r, h1, h2, h3⟩ := head_skip (m := m) (n := n) t
  simp only [R.bind_eq, R.bind, Value.skip, hr]
  rw [h1] at h2 h3 ⊢
  simp only
  rw [if_pos h3, h2]
  rfl

end Verif.Cbor
