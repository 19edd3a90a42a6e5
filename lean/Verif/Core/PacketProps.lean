import Verif.Core.Packet

/-!
# Variable length integers and stream packet headers — property theorems (C36, C43)
-/

namespace Verif.Core.Packet

namespace Spec

/-- Big endian value of bytes. -/
def be : List UInt8 → Nat
  | [] => 0
  | b :: bs => b.toNat * 256 ^ bs.length + be bs

/-- Number of bytes of an encoding, from the two top bits of its first byte. -/
def size (first : UInt8) : Nat := 2 ^ (first.toNat / 64)

/-- The bytes encode the number: big endian, the two top bits hold the logarithm of the length. -/
def Encodes (bytes : List UInt8) (v : Nat) : Prop :=
  ∃ first rest, bytes = first :: rest ∧ bytes.length = size first ∧
    be bytes = (first.toNat / 64) * 64 * 256 ^ rest.length + v ∧ v < 64 * 256 ^ rest.length

end Spec

open Spec

/-! ### Helpers -/

theorem shr6 (b : UInt8) : (b.toUInt64 >>> 6).toNat = b.toNat / 64 := by
  have := b.toNat_lt
  simp [Nat.shiftRight_eq_div_pow]

theorem and3f (b : UInt8) : (b.toUInt64 &&& 0x3F).toNat = b.toNat % 64 := by
  have h : (0x3F : UInt64).toNat = 2 ^ 6 - 1 := rfl
  rw [UInt64.toNat_and, h, Nat.and_two_pow_sub_one_eq_mod]
  simp

theorem shl_nat (x : UInt64) (k : Nat) (hk : k < 64) (h : x.toNat * 2 ^ k < 2 ^ 64) :
    (x <<< UInt64.ofNat k).toNat = x.toNat * 2 ^ k := by
  have hk' : (UInt64.ofNat k).toNat = k := by
    have : UInt64.size = 2 ^ 64 := rfl
    exact UInt64.toNat_ofNat_of_lt' (by omega)
  rw [UInt64.toNat_shiftLeft, hk', Nat.mod_eq_of_lt hk, Nat.shiftLeft_eq, Nat.mod_eq_of_lt h]

theorem ofNat_eq_lit8 : (8 : UInt64) = UInt64.ofNat 8 := rfl

/-- Shift of a byte value, for the shifts that occur. -/
theorem shl_byte (x : UInt64) (k : Nat) (hk : k ≤ 48) (hx : x.toNat < 256) :
    (x <<< UInt64.ofNat k).toNat = x.toNat * 2 ^ k := by
  apply shl_nat _ _ (by omega)
  have : 2 ^ k ≤ 2 ^ 48 := Nat.pow_le_pow_right (by omega) hk
  have : x.toNat * 2 ^ k ≤ 255 * 2 ^ 48 := Nat.mul_le_mul (by omega) this
  omega

theorem byte_lt (b : UInt8) : b.toUInt64.toNat < 256 := by
  rw [UInt8.toNat_toUInt64]; exact b.toNat_lt

theorem lb_cases (b : UInt8) : b.toUInt64 >>> 6 = 0 ∧ b.toNat / 64 = 0 ∨ b.toUInt64 >>> 6 = 1 ∧ b.toNat / 64 = 1 ∨
    b.toUInt64 >>> 6 = 2 ∧ b.toNat / 64 = 2 ∨ b.toUInt64 >>> 6 = 3 ∧ b.toNat / 64 = 3 := by
  have h := shr6 b
  have hb := b.toNat_lt
  have : b.toNat / 64 = 0 ∨ b.toNat / 64 = 1 ∨ b.toNat / 64 = 2 ∨ b.toNat / 64 = 3 := by omega
  rcases this with h' | h' | h' | h'
  · exact .inl ⟨UInt64.toNat_inj.mp (by rw [h, h']; rfl), h'⟩
  · exact .inr (.inl ⟨UInt64.toNat_inj.mp (by rw [h, h']; rfl), h'⟩)
  · exact .inr (.inr (.inl ⟨UInt64.toNat_inj.mp (by rw [h, h']; rfl), h'⟩))
  · exact .inr (.inr (.inr ⟨UInt64.toNat_inj.mp (by rw [h, h']; rfl), h'⟩))

theorem drop_cons {α : Type} {l : List α} {n : Nat} (h : n + 1 ≤ l.length) : ∃ a as, l = a :: as ∧ n ≤ as.length := by
  cases l with
  | nil => simp at h
  | cons a as => exact ⟨a, as, rfl, by simpa using h⟩

/-- Complete description of `varUintRead` on non-empty packets. -/
theorem read_spec (b : UInt8) (bs : List UInt8) (bufSize : Nat) (hs : bufSize ≤ bs.length + 1) :
    (bufSize < size b ∧ varUintRead (b :: bs) bufSize = .fail) ∨
    (size b ≤ bufSize ∧ ∃ v, varUintRead (b :: bs) bufSize = .ok (v, size b) ∧
      Encodes ((b :: bs).take (size b)) v.toNat) := by
  have hb := b.toNat_lt
  have h3 := and3f b
  have e8 : (8 : UInt64) = UInt64.ofNat 8 := rfl
  have e16 : (16 : UInt64) = UInt64.ofNat 16 := rfl
  have e24 : (24 : UInt64) = UInt64.ofNat 24 := rfl
  have e32 : (32 : UInt64) = UInt64.ofNat 32 := rfl
  have e40 : (40 : UInt64) = UInt64.ofNat 40 := rfl
  have e48 : (48 : UInt64) = UInt64.ofNat 48 := rfl
  have e56 : (56 : UInt64) = UInt64.ofNat 56 := rfl
  rcases lb_cases b with ⟨h1, h2⟩ | ⟨h1, h2⟩ | ⟨h1, h2⟩ | ⟨h1, h2⟩
  · have hsz : size b = 1 := by simp [size, h2]
    rw [hsz]
    simp only [varUintRead, Rd.byte, List.getElem?_cons_zero, h1]
    by_cases hlt : bufSize < 1
    · left
      refine ⟨hlt, ?_⟩
      rw [if_pos (by simpa using hlt)]
    · right
      refine ⟨by omega, b.toUInt64 &&& 0x3F, ?_, b, [], by simp, by simp [size, h2], ?_, ?_⟩
      · rw [if_neg (by simpa using hlt)]; rfl
      · rw [h3]; simp [be]; omega
      · rw [h3]; simp; omega
  · have hsz : size b = 2 := by simp [size, h2]
    rw [hsz]
    by_cases hlt : bufSize < 2
    · left
      refine ⟨hlt, ?_⟩
      simp only [varUintRead, Rd.byte, List.getElem?_cons_zero, h1]
      rw [if_pos (by simpa using hlt)]
    · right
      obtain ⟨c, cs, rfl, _⟩ := drop_cons (l := bs) (n := 0) (by omega)
      have hc := byte_lt c
      have hv : ((b.toUInt64 &&& 0x3F) <<< 8 + c.toUInt64).toNat = b.toNat % 64 * 256 + c.toNat := by
        rw [e8, UInt64.toNat_add, shl_byte _ 8 (by omega) (by omega), h3, UInt8.toNat_toUInt64]
        have := c.toNat_lt
        omega
      refine ⟨by omega, (b.toUInt64 &&& 0x3F) <<< 8 + c.toUInt64, ?_, b, [c], by simp, by simp [size, h2], ?_, ?_⟩
      · simp only [varUintRead, Rd.byte, List.getElem?_cons_zero, h1]
        rw [if_neg (by simpa using hlt)]
        rfl
      · rw [hv]; simp [be]; omega
      · rw [hv]; have := c.toNat_lt; simp; omega
  · have hsz : size b = 4 := by simp [size, h2]
    rw [hsz]
    by_cases hlt : bufSize < 4
    · left
      refine ⟨hlt, ?_⟩
      simp only [varUintRead, Rd.byte, List.getElem?_cons_zero, h1]
      rw [if_pos (by simpa using hlt)]
    · right
      obtain ⟨c1, cs, rfl, hl⟩ := drop_cons (l := bs) (n := 2) (by omega)
      obtain ⟨c2, cs, rfl, hl⟩ := drop_cons (l := cs) (n := 1) (by omega)
      obtain ⟨c3, cs, rfl, hl⟩ := drop_cons (l := cs) (n := 0) (by omega)
      have l1 := c1.toNat_lt
      have l2 := c2.toNat_lt
      have l3 := c3.toNat_lt
      have hv : ((b.toUInt64 &&& 0x3F) <<< 24 + c1.toUInt64 <<< 16 + c2.toUInt64 <<< 8 + c3.toUInt64).toNat =
          b.toNat % 64 * 2 ^ 24 + c1.toNat * 2 ^ 16 + c2.toNat * 2 ^ 8 + c3.toNat := by
        rw [e8, e16, e24, UInt64.toNat_add, UInt64.toNat_add, UInt64.toNat_add,
          shl_byte _ 24 (by omega) (by omega), shl_byte _ 16 (by omega) (byte_lt c1),
          shl_byte _ 8 (by omega) (byte_lt c2), h3, UInt8.toNat_toUInt64, UInt8.toNat_toUInt64, UInt8.toNat_toUInt64]
        omega
      refine ⟨by omega, (b.toUInt64 &&& 0x3F) <<< 24 + c1.toUInt64 <<< 16 + c2.toUInt64 <<< 8 + c3.toUInt64, ?_, b, [c1, c2, c3], by simp, by simp [size, h2], ?_, ?_⟩
      · simp only [varUintRead, Rd.byte, List.getElem?_cons_zero, h1]
        rw [if_neg (by simpa using hlt)]
        rfl
      · rw [hv]; simp [be]; omega
      · rw [hv]; simp; omega
  · have hsz : size b = 8 := by simp [size, h2]
    rw [hsz]
    by_cases hlt : bufSize < 8
    · left
      refine ⟨hlt, ?_⟩
      simp only [varUintRead, Rd.byte, List.getElem?_cons_zero, h1]
      rw [if_pos (by simpa using hlt)]
    · right
      obtain ⟨c1, cs, rfl, hl⟩ := drop_cons (l := bs) (n := 6) (by omega)
      obtain ⟨c2, cs, rfl, hl⟩ := drop_cons (l := cs) (n := 5) (by omega)
      obtain ⟨c3, cs, rfl, hl⟩ := drop_cons (l := cs) (n := 4) (by omega)
      obtain ⟨c4, cs, rfl, hl⟩ := drop_cons (l := cs) (n := 3) (by omega)
      obtain ⟨c5, cs, rfl, hl⟩ := drop_cons (l := cs) (n := 2) (by omega)
      obtain ⟨c6, cs, rfl, hl⟩ := drop_cons (l := cs) (n := 1) (by omega)
      obtain ⟨c7, cs, rfl, hl⟩ := drop_cons (l := cs) (n := 0) (by omega)
      have l1 := c1.toNat_lt
      have l2 := c2.toNat_lt
      have l3 := c3.toNat_lt
      have l4 := c4.toNat_lt
      have l5 := c5.toNat_lt
      have l6 := c6.toNat_lt
      have l7 := c7.toNat_lt
      have hv : ((b.toUInt64 &&& 0x3F) <<< 56 + c1.toUInt64 <<< 48 + c2.toUInt64 <<< 40 + c3.toUInt64 <<< 32 +
          c4.toUInt64 <<< 24 + c5.toUInt64 <<< 16 + c6.toUInt64 <<< 8 + c7.toUInt64).toNat =
          b.toNat % 64 * 2 ^ 56 + c1.toNat * 2 ^ 48 + c2.toNat * 2 ^ 40 + c3.toNat * 2 ^ 32 + c4.toNat * 2 ^ 24 +
          c5.toNat * 2 ^ 16 + c6.toNat * 2 ^ 8 + c7.toNat := by
        rw [e8, e16, e24, e32, e40, e48, e56]
        simp only [UInt64.toNat_add]
        rw [shl_nat _ 56 (by omega) (by rw [h3]; omega), shl_byte _ 48 (by omega) (byte_lt c1),
          shl_byte _ 40 (by omega) (byte_lt c2), shl_byte _ 32 (by omega) (byte_lt c3),
          shl_byte _ 24 (by omega) (byte_lt c4), shl_byte _ 16 (by omega) (byte_lt c5),
          shl_byte _ 8 (by omega) (byte_lt c6), h3]
        simp only [UInt8.toNat_toUInt64]
        omega
      refine ⟨by omega, (b.toUInt64 &&& 0x3F) <<< 56 + c1.toUInt64 <<< 48 + c2.toUInt64 <<< 40 + c3.toUInt64 <<< 32 + c4.toUInt64 <<< 24 + c5.toUInt64 <<< 16 + c6.toUInt64 <<< 8 + c7.toUInt64, ?_, b, [c1, c2, c3, c4, c5, c6, c7], by simp, by simp [size, h2], ?_, ?_⟩
      · simp only [varUintRead, Rd.byte, List.getElem?_cons_zero, h1]
        rw [if_neg (by simpa using hlt)]
        rfl
      · rw [hv]; simp [be]; omega
      · rw [hv]; simp; omega

/-! ## C36 -/

/-- C36: reading from a non-empty packet never leaves it, fails exactly if the packet is shorter than the
encoding its first byte announces, and otherwise returns the number the leading bytes encode. -/
theorem C36_read (b : UInt8) (bs : List UInt8) :
    varUintRead (b :: bs) (bs.length + 1) ≠ .ub ∧
    (varUintRead (b :: bs) (bs.length + 1) = .fail ↔ bs.length + 1 < size b) ∧
    (∀ v n, varUintRead (b :: bs) (bs.length + 1) = .ok (v, n) →
      n = size b ∧ n ≤ bs.length + 1 ∧ Encodes ((b :: bs).take n) v.toNat) := by
  rcases read_spec b bs (bs.length + 1) (by omega) with ⟨h1, h2⟩ | ⟨h1, v, h2, h3⟩
  · rw [h2]
    exact ⟨by simp, by simp [h1], by simp⟩
  · rw [h2]
    refine ⟨by simp, ?_, ?_⟩
    · constructor
      · intro h; cases h
      · intro h; omega
    · intro v' n h
      injection h with h
      injection h with ha hb
      subst ha hb
      exact ⟨rfl, h1, h3⟩

/-- C36: on an empty packet it reads a byte that is not there. -/
theorem C36_empty_packet_over_read (n : Nat) : varUintRead [] n = .ub := rfl

theorem u8_or (x : UInt8) (k : Nat) (hk : k < 4) (hx : x.toNat < 64) :
    (x ||| (UInt8.ofNat k <<< 6)).toNat = k * 64 + x.toNat := by
  have : ∀ k : Fin 4, ∀ x : Fin 64, ((UInt8.ofNat x.val) ||| (UInt8.ofNat k.val <<< 6)).toNat = k.val * 64 + x.val := by
    decide +kernel
  have h := this ⟨k, hk⟩ ⟨x.toNat, hx⟩
  simpa using h

theorem toU8_shr (v : UInt64) (k : Nat) (hk : k < 64) :
    ((v >>> UInt64.ofNat k).toUInt8).toNat = v.toNat / 2 ^ k % 256 := by
  have hk' : (UInt64.ofNat k).toNat = k := by
    have : UInt64.size = 2 ^ 64 := rfl
    exact UInt64.toNat_ofNat_of_lt' (by omega)
  rw [UInt64.toNat_toUInt8, UInt64.toNat_shiftRight, hk', Nat.mod_eq_of_lt hk, Nat.shiftRight_eq_div_pow]

theorem lit1 : ((1 : UInt64) <<< 6).toNat = 64 := by decide +kernel
theorem lit2 : ((1 : UInt64) <<< 14).toNat = 16384 := by decide +kernel
theorem lit3 : ((1 : UInt64) <<< 30).toNat = 1073741824 := by decide +kernel

theorem bound3 (v : Nat) (hv : v < 1073741824) (l : List UInt8) (hl : l.length = 3) : v < 64 * 256 ^ l.length := by
  have : 64 * 256 ^ 3 = 1073741824 := by decide +kernel
  rw [hl, this]; exact hv

theorem bound7 (v : Nat) (hv : v < 4611686018427387904) (l : List UInt8) (hl : l.length = 7) :
    v < 64 * 256 ^ l.length := by
  have : 64 * 256 ^ 7 = 4611686018427387904 := by decide +kernel
  rw [hl, this]; exact hv

theorem enc1 (b7 : UInt8) (v : Nat) (h : b7.toNat = v) (hv : v < 64) : Encodes [b7] v := by
  refine ⟨b7, [], rfl, ?_, ?_, by simpa using hv⟩
  · have : b7.toNat / 64 = 0 := by omega
    simp [size, this]
  · have : b7.toNat / 64 = 0 := by omega
    simp [be]; omega

theorem enc2 (b6 b7 : UInt8) (v : Nat) (h6 : b6.toNat = v / 256 % 256) (h7 : b7.toNat = v % 256) (hv : v < 16384) :
    Encodes [b6 ||| ((1 : UInt8) <<< 6), b7] v := by
  have ho : (b6 ||| ((1 : UInt8) <<< 6)).toNat = 1 * 64 + b6.toNat := u8_or b6 1 (by omega) (by rw [h6]; omega)
  have hd : (b6 ||| ((1 : UInt8) <<< 6)).toNat / 64 = 1 := by omega
  refine ⟨_, _, rfl, ?_, ?_, ?_⟩
  · rw [size, hd]; rfl
  · simp only [be, List.length_cons, List.length_nil, ho, Nat.reduceAdd, Nat.reducePow, Nat.reduceMul]
    omega
  · simp only [List.length_cons, List.length_nil, Nat.reduceAdd, Nat.reducePow, Nat.reduceMul]; omega

theorem enc4 (b4 b5 b6 b7 : UInt8) (v : Nat) (h4 : b4.toNat = v / 16777216 % 256) (h5 : b5.toNat = v / 65536 % 256)
    (h6 : b6.toNat = v / 256 % 256) (h7 : b7.toNat = v % 256) (hv : v < 1073741824) :
    Encodes [b4 ||| ((2 : UInt8) <<< 6), b5, b6, b7] v := by
  have ho : (b4 ||| ((2 : UInt8) <<< 6)).toNat = 2 * 64 + b4.toNat := u8_or b4 2 (by omega) (by rw [h4]; omega)
  have hd : (b4 ||| ((2 : UInt8) <<< 6)).toNat / 64 = 2 := by omega
  refine ⟨_, _, rfl, ?_, ?_, ?_⟩
  · rw [size, hd]; rfl
  · simp only [be, List.length_cons, List.length_nil, ho, Nat.reduceAdd, Nat.reducePow, Nat.reduceMul]
    omega
  · exact bound3 v hv _ rfl

theorem enc8 (b0 b1 b2 b3 b4 b5 b6 b7 : UInt8) (v : Nat) (h0 : b0.toNat = v / 72057594037927936 % 256)
    (h1 : b1.toNat = v / 281474976710656 % 256) (h2 : b2.toNat = v / 1099511627776 % 256) (h3 : b3.toNat = v / 4294967296 % 256)
    (h4 : b4.toNat = v / 16777216 % 256) (h5 : b5.toNat = v / 65536 % 256)
    (h6 : b6.toNat = v / 256 % 256) (h7 : b7.toNat = v % 256) (hv : v < 4611686018427387904) :
    Encodes [b0 ||| ((3 : UInt8) <<< 6), b1, b2, b3, b4, b5, b6, b7] v := by
  have ho : (b0 ||| ((3 : UInt8) <<< 6)).toNat = 3 * 64 + b0.toNat := u8_or b0 3 (by omega) (by rw [h0]; omega)
  have hd : (b0 ||| ((3 : UInt8) <<< 6)).toNat / 64 = 3 := by omega
  refine ⟨_, _, rfl, ?_, ?_, ?_⟩
  · rw [size, hd]; rfl
  · simp only [be, List.length_cons, List.length_nil, ho, Nat.reduceAdd, Nat.reducePow, Nat.reduceMul]
    omega
  · exact bound7 v hv _ rfl

/-- What is written is an encoding of the value, for values below 2^62. -/
theorem C36_write_encodes (v : UInt64) (h : v.toNat < 2 ^ 62) : Encodes (varUintWrite v) v.toNat := by
  have b7 : v.toUInt8.toNat = v.toNat % 256 := UInt64.toNat_toUInt8 v
  have b6 : (v >>> 8).toUInt8.toNat = v.toNat / 256 % 256 := toU8_shr v 8 (by omega)
  have b5 : (v >>> 16).toUInt8.toNat = v.toNat / 65536 % 256 := toU8_shr v 16 (by omega)
  have b4 : (v >>> 24).toUInt8.toNat = v.toNat / 16777216 % 256 := toU8_shr v 24 (by omega)
  have b3 : (v >>> 32).toUInt8.toNat = v.toNat / 4294967296 % 256 := toU8_shr v 32 (by omega)
  have b2 : (v >>> 40).toUInt8.toNat = v.toNat / 1099511627776 % 256 := toU8_shr v 40 (by omega)
  have b1 : (v >>> 48).toUInt8.toNat = v.toNat / 281474976710656 % 256 := toU8_shr v 48 (by omega)
  have b0 : (v >>> 56).toUInt8.toNat = v.toNat / 72057594037927936 % 256 := toU8_shr v 56 (by omega)
  simp only [varUintWrite]
  split
  · rename_i hlt
    rw [UInt64.lt_iff_toNat_lt, lit1] at hlt
    exact enc1 _ _ (by rw [b7]; omega) hlt
  split
  · rename_i _ hlt
    rw [UInt64.lt_iff_toNat_lt, lit2] at hlt
    exact enc2 _ _ _ b6 b7 hlt
  split
  · rename_i _ _ hlt
    rw [UInt64.lt_iff_toNat_lt, lit3] at hlt
    exact enc4 _ _ _ _ _ b4 b5 b6 b7 hlt
  · exact enc8 _ _ _ _ _ _ _ _ _ b0 b1 b2 b3 b4 b5 b6 b7 h

theorem encodes_inj {bytes : List UInt8} {v w : Nat} (h1 : Encodes bytes v) (h2 : Encodes bytes w) : v = w := by
  obtain ⟨f, r, rfl, _, h3, _⟩ := h1
  obtain ⟨f', r', h4, _, h5, _⟩ := h2
  injection h4 with h6 h7
  subst h6 h7
  omega

/-- C36: reading back what was written, followed by anything, returns the value and the written length. -/
theorem C36_round_trip (v : UInt64) (h : v.toNat < 2 ^ 62) (rest : List UInt8) :
    varUintRead (varUintWrite v ++ rest) (varUintWrite v ++ rest).length = .ok (v, (varUintWrite v).length) := by
  have he := C36_write_encodes v h
  obtain ⟨f, r, h1, h2, _, _⟩ := id he
  have hlen : (varUintWrite v ++ rest).length = (r ++ rest).length + 1 := by rw [h1]; simp
  have hb : varUintWrite v ++ rest = f :: (r ++ rest) := by rw [h1]; rfl
  rw [hlen, hb]
  rcases read_spec f (r ++ rest) ((r ++ rest).length + 1) (by omega) with ⟨h3, _⟩ | ⟨h3, w, h4, h5⟩
  · exfalso
    rw [← h2, h1] at h3
    simp at h3; omega
  · rw [h4, h2]
    have : (f :: (r ++ rest)).take (size f) = varUintWrite v := by
      rw [← hb, ← h2]; simp
    rw [this] at h5
    have := encodes_inj h5 he
    rw [UInt64.toNat_inj.mp this]

/-- C36: values of 2^62 and above do not survive: the two top bits are lost. -/
theorem C36_large_value_lost :
    varUintRead (varUintWrite ((1 : UInt64) <<< 62)) 8 = .ok (0, 8) := by decide +kernel

example : varUintWrite 1000 = [0x43, 0xE8] ∧ varUintRead [0x43, 0xE8, 7] 3 = .ok (1000, 2) ∧
    varUintRead [0x43] 1 = .fail := by decide +kernel

/-! ## C43 -/

/-- C43: exactly which packets are read beyond their end: those that end right after the stream id, of
length 5 with a four byte id or length 9 with an eight byte id. -/
theorem C43_bounds_violated (buffer : List UInt8) :
    parseHeader buffer = .ub ↔
      ∃ t b rest, buffer = t :: b :: rest ∧
        ((b.toNat / 64 = 2 ∧ rest.length = 3) ∨ (b.toNat / 64 = 3 ∧ rest.length = 7)) := by
  unfold parseHeader
  by_cases h4 : buffer.length < 4
  · rw [if_pos h4]
    constructor
    · intro h; cases h
    · rintro ⟨t, b, rest, rfl, h⟩
      simp only [List.length_cons] at h4
      omega
  · rw [if_neg h4]
    obtain ⟨t, bs, rfl, hl⟩ := drop_cons (l := buffer) (n := 3) (by omega)
    obtain ⟨b, rest, rfl, hl⟩ := drop_cons (l := bs) (n := 2) (by omega)
    have hd : List.drop 1 (t :: b :: rest) = b :: rest := rfl
    have hn : (t :: b :: rest).length - 1 = rest.length + 1 := by simp
    rw [hd, hn]
    have hb := b.toNat_lt
    have hsz : size b = 2 ^ (b.toNat / 64) := rfl
    rcases read_spec b rest (rest.length + 1) (by omega) with ⟨h1, h2⟩ | ⟨h1, v, h2, h3⟩
    · rw [h2]
      constructor
      · intro h; cases h
      · rintro ⟨t', b', rest', he, h⟩
        injection he with _ he
        injection he with e1 e2
        subst e1 e2
        rcases h with ⟨h5, h6⟩ | ⟨h5, h6⟩
        · rw [hsz, h5] at h1; omega
        · rw [hsz, h5] at h1; omega
    · rw [h2]
      simp only
      have hcase : b.toNat / 64 = 0 ∨ b.toNat / 64 = 1 ∨ b.toNat / 64 = 2 ∨ b.toNat / 64 = 3 := by omega
      constructor
      · intro h
        refine ⟨t, b, rest, rfl, ?_⟩
        have : (t :: b :: rest)[1 + size b]? = none := by
          cases hx : (t :: b :: rest)[1 + size b]? with
          | none => rfl
          | some x => rw [hx] at h; cases h
        rw [List.getElem?_eq_none_iff] at this
        simp only [List.length_cons] at this
        rcases hcase with hc | hc | hc | hc
        all_goals rw [hsz, hc] at this h1
        · omega
        · omega
        · exact .inl ⟨hc, by omega⟩
        · exact .inr ⟨hc, by omega⟩
      · rintro ⟨t', b', rest', he, h⟩
        injection he with _ he
        injection he with e1 e2
        subst e1 e2
        have : (t :: b :: rest)[1 + size b]? = none := by
          rw [List.getElem?_eq_none_iff]
          simp only [List.length_cons]
          rcases h with ⟨h5, h6⟩ | ⟨h5, h6⟩
          · rw [hsz, h5]; omega
          · rw [hsz, h5]; omega
        rw [this]

/-- C43, what does hold: packets that are not of those two shapes are parsed inside their bounds; a parsed
packet consists of the application type, an encoding of the stream id, and the payload, which is not empty
and starts with the flags. -/
theorem C43_bounds_partial (buffer : List UInt8) (hd : Header) (h : parseHeader buffer = .ok hd) :
    ∃ t id, buffer = t :: id ++ hd.payload ∧ Encodes id hd.streamId.toNat ∧ hd.payload.head? = some hd.flags := by
  unfold parseHeader at h
  split at h
  · cases h
  · rename_i h4
    obtain ⟨t, bs, rfl, hl⟩ := drop_cons (l := buffer) (n := 3) (by omega)
    obtain ⟨b, rest, rfl, hl⟩ := drop_cons (l := bs) (n := 2) (by omega)
    have hdr : List.drop 1 (t :: b :: rest) = b :: rest := rfl
    have hn : (t :: b :: rest).length - 1 = rest.length + 1 := by simp
    rw [hdr, hn] at h
    rcases read_spec b rest (rest.length + 1) (by omega) with ⟨h1, h2⟩ | ⟨h1, v, h2, h3⟩
    · rw [h2] at h; cases h
    · rw [h2] at h
      simp only at h
      split at h
      · cases h
      · rename_i flags hf
        injection h with h
        subst h
        refine ⟨t, (b :: rest).take (size b), ?_, h3, ?_⟩
        · have : List.drop (1 + size b) (t :: b :: rest) = List.drop (size b) (b :: rest) := by
            rw [Nat.add_comm, List.drop_succ_cons]
          rw [this, List.cons_append, List.take_append_drop]
        · rw [List.head?_drop]; exact hf

/-- C43: every packet with flags and at least one further byte is inside the bounds. -/
theorem C43_long_packets_partial (buffer : List UInt8) (h : 10 ≤ buffer.length) : parseHeader buffer ≠ .ub := by
  intro hu
  obtain ⟨t, b, rest, rfl, h'⟩ := (C43_bounds_violated buffer).mp hu
  simp only [List.length_cons] at h
  omega

example : parseHeader [1, 0x80, 0, 0, 5] = .ub ∧
    parseHeader [1, 0x40, 6, 1, 9] = .ok ⟨6, 1, [1, 9]⟩ := by decide +kernel

end Verif.Core.Packet
