import Verif.Api.ConnFpSpec
import Verif.Util.HexProps

/-!
# Fingerprints of connections — lemmas
-/

namespace Verif.Api.ConnFp

open Verif.Util.Hex Verif.Util.Hex.Spec Spec

/-! ### Texts -/

theorem byte_cases {p : UInt8 → Prop} (h : ∀ n : Fin 256, p (UInt8.ofNat n)) (b : UInt8) : p b := by
  have := h ⟨b.toNat, b.toNat_lt⟩
  rwa [u8_ofNat] at this

theorem digitAt_hi (b : UInt8) : digitAt (b.toNat / 16) = [encodeChar ((b >>> 4) &&& 0xF)] := by
  revert b; apply byte_cases; decide +kernel

theorem digitAt_lo (b : UInt8) : digitAt (b.toNat % 16) = [encodeChar (b &&& 0xF)] := by
  revert b; apply byte_cases; decide +kernel

theorem spell_cons (b : UInt8) (bs : Bytes) :
    spell (b :: bs) = encodeChar ((b >>> 4) &&& 0xF) :: encodeChar (b &&& 0xF) :: spell bs := by
  simp [spell, digitAt_hi, digitAt_lo]

theorem dataToHex_spell (fp : Bytes) : dataToHex fp = spell fp := by
  induction fp with
  | nil => rfl
  | cons b bs ih => rw [spell_cons, ← ih]; rfl

theorem spell_length (fp : Bytes) : (spell fp).length = 2 * fp.length := by rw [← dataToHex_spell, dataToHex_length]

theorem spell_take (fp : Bytes) : ∀ n, spell (fp.take n) = (spell fp).take (2 * n) := by
  induction fp with
  | nil => intro n; simp [spell]
  | cons b bs ih =>
    intro n
    cases n with
    | zero => simp [spell]
    | succ n => rw [List.take_succ_cons, spell_cons, spell_cons, ih, Nat.mul_succ]; rfl

theorem encode_nonzero (b : UInt8) : encodeChar ((b >>> 4) &&& 0xF) ≠ 0 ∧ encodeChar (b &&& 0xF) ≠ 0 := by
  revert b; apply byte_cases; decide +kernel

theorem spell_nonzero (fp : Bytes) : ∀ c ∈ spell fp, c ≠ 0 := by
  induction fp with
  | nil => simp [spell]
  | cons b bs ih =>
    intro c hc
    rw [spell_cons] at hc
    rcases List.mem_cons.1 hc with rfl | hc
    · exact (encode_nonzero b).1
    rcases List.mem_cons.1 hc with rfl | hc
    · exact (encode_nonzero b).2
    · exact ih c hc

theorem cstring_end (t : Bytes) (h : ∀ c ∈ t, c ≠ 0) (rest : Bytes) : cstring (t ++ 0 :: rest) = some t := by
  induction t with
  | nil => simp [cstring]
  | cons c t ih =>
    rw [List.cons_append, cstring, if_neg (h c (by simp)), ih fun c hc => h c (by simp [hc])]
    rfl

theorem cstring_none (t : Bytes) (h : ∀ c ∈ t, c ≠ 0) : cstring t = none := by
  induction t with
  | nil => rfl
  | cons c t ih => rw [cstring, if_neg (h c (by simp)), ih fun c hc => h c (by simp [hc])]; rfl

theorem toHexGo_spec (bs : Bytes) : ∀ P : Bytes,
    toHexGo (P ++ List.replicate (2 * bs.length + 1) 0) P.length bs = some (P ++ spell bs ++ [0]) := by
  induction bs with
  | nil => intro P; simp [toHexGo, spell]
  | cons b bs ih =>
    intro P
    have e : List.replicate (2 * (b :: bs).length + 1) (0 : UInt8) = 0 :: 0 :: 0 :: List.replicate (2 * bs.length) 0 := by
      rw [show 2 * (b :: bs).length + 1 = 2 * bs.length + 1 + 1 + 1 by simp; omega]
      simp [List.replicate_succ]
    have hw : write (P ++ List.replicate (2 * (b :: bs).length + 1) 0) P.length
        [encodeChar ((b >>> 4) &&& 0xF), encodeChar (b &&& 0xF), 0] =
        some ((P ++ [encodeChar ((b >>> 4) &&& 0xF), encodeChar (b &&& 0xF)]) ++ List.replicate (2 * bs.length + 1) 0) := by
      rw [e]
      unfold write
      rw [if_pos (by simp)]
      simp [List.drop_append, List.replicate_succ]
    have := ih (P ++ [encodeChar ((b >>> 4) &&& 0xF), encodeChar (b &&& 0xF)])
    simp only [toHexGo, hw]
    rw [show P.length + 2 = (P ++ [encodeChar ((b >>> 4) &&& 0xF), encodeChar (b &&& 0xF)]).length by simp, this,
      spell_cons]
    simp

theorem toHex_spec (w : W) (fp : Bytes) (n : Nat) (hn : n ≤ fp.length) (mem : Bool) :
    toHex w fp n mem = ({ w with made := w.made + mem.toNat }, if mem then some ((spell fp).take (2 * n) ++ [0]) else none) := by
  cases mem with
  | false => rfl
  | true =>
    have h := toHexGo_spec (fp.take n) []
    have hl : (fp.take n).length = n := by simp [hn]
    rw [hl, Nat.mul_comm] at h
    simp only [List.nil_append, List.length_nil] at h
    simp only [toHex, if_true, h, spell_take, Bool.toNat_true]

/-- The text which is shown can be read. -/
theorem cstring_shown (fp : Bytes) (n : Nat) : cstring ((spell fp).take n ++ [0]) = some ((spell fp).take n) :=
  cstring_end _ (fun c hc => spell_nonzero fp c (List.mem_of_mem_take hc)) []

/-! ### Texts which are set -/

theorem isHex_iff (c : UInt8) : isHex c = true ↔ ∃ v, IsDigit c v := by
  have h : isHex c = true ↔ digit c ≠ none := by
    unfold isHex digit
    by_cases h1 : 48 ≤ c ∧ c ≤ 57 <;> by_cases h2 : 65 ≤ c ∧ c ≤ 70 <;> by_cases h3 : 97 ≤ c ∧ c ≤ 102 <;>
      simp [h1, h2, h3]
  rw [h]
  refine ⟨fun hn => ?_, fun hv hn => (digit_none_iff c).1 hn hv⟩
  obtain ⟨v, hv⟩ := Option.ne_none_iff_exists'.1 hn
  exact ⟨v.toNat, (digit_iff c v).1 hv⟩

theorem low_digit (c : UInt8) : ∀ v : UInt8, digit c = some v → digitAt v.toNat = [lowerCase c] := by
  revert c; apply byte_cases; decide +kernel

theorem spells_low {text : Bytes} {vs : List Nat} (h : Spells text vs) :
    vs.flatMap digitAt = text.map lowerCase := by
  induction h with
  | nil => rfl
  | @cons c v cs vs hd _ ih =>
    have hlt := isDigit_lt hd
    have := low_digit c (UInt8.ofNat v) ((digit_iff _ _).2 (by rwa [toNat_small hlt]))
    rw [toNat_small hlt] at this
    simp [this, ih]

theorem lowerCase_encode (b : UInt8) : lowerCase (encodeChar ((b >>> 4) &&& 0xF)) = encodeChar ((b >>> 4) &&& 0xF) ∧
    lowerCase (encodeChar (b &&& 0xF)) = encodeChar (b &&& 0xF) := by
  revert b; apply byte_cases; decide +kernel

theorem spell_lower (fp : Bytes) : (spell fp).map lowerCase = spell fp := by
  induction fp with
  | nil => rfl
  | cons b bs ih => rw [spell_cons]; simp [ih, (lowerCase_encode b).1, (lowerCase_encode b).2]

/-- What is read back of a text. -/
theorem canon_spec (text fp : Bytes) (hs : text.length < 2 ^ 64 - 1) (h : hexToData text 32 = .ok fp) :
    spell fp = canon text ∧ fp.length = 32 := by
  obtain ⟨hl, vs, hv, hval⟩ := C34_decodes_the_value text fp 32 ⟨hs, by omega⟩ h
  refine ⟨?_, hl⟩
  obtain ⟨ws, hw, hval'⟩ := dataToHex_spells fp
  have hlen : (text.length = 64 ∨ text.length + 1 = 64) :=
    ((C34_accepts_exactly_hex text 32 ⟨hs, by omega⟩).2.1 ⟨fp, h⟩).1
  have hvlt : ∀ {cs : Bytes} {us : List Nat}, Spells cs us → ∀ d ∈ us, d < 16 := by
    intro cs us hsp
    induction hsp with
    | nil => simp
    | cons hd _ ih =>
      intro d hd'
      rcases List.mem_cons.1 hd' with rfl | hd'
      · exact isDigit_lt hd
      · exact ih d hd'
  have hwl : ws.length = 64 := by rw [spells_length hw, dataToHex_length, hl]
  have hvl := spells_length hv
  have e : ws = (if text.length = 63 then [0] else []) ++ vs := by
    refine value_inj 16 _ _ ?_ (hvlt hw) ?_ ?_
    · rw [hwl, List.length_append, hvl]
      rcases hlen with e | e
      · rw [if_neg (by omega), e]; rfl
      · rw [if_pos (by omega)]; simp; omega
    · intro d hd
      rcases List.mem_append.1 hd with hd | hd
      · split at hd
        · rw [List.mem_singleton.1 hd]; omega
        · cases hd
      · exact hvlt hv d hd
    · have : value 16 ((if text.length = 63 then [0] else []) ++ vs) = value 16 vs := by
        split
        · simp [value]
        · rfl
      rw [this, hval', ← hval]
      rfl
  have := spells_low hw
  rw [dataToHex_spell, spell_lower] at this
  rw [← this, e, List.flatMap_append, spells_low hv, canon]
  congr 1
  split
  · decide +kernel
  · rfl

theorem accepted_spec (s : Side) (text : Bytes) (hs : text.length < 2 ^ 64 - 1) (hd : s = .device → text.length = 64) :
    (accepted s text = true ↔ ∃ fp, hexToData text 32 = .ok fp) ∧ hexToData text 32 ≠ .ub := by
  obtain ⟨h1, h2⟩ := C34_accepts_exactly_hex text 32 ⟨hs, by omega⟩
  refine ⟨?_, h1⟩
  rw [h2]
  have hall : text.all isHex = true ↔ ∀ c ∈ text, ∃ v, IsDigit c v := by
    rw [List.all_eq_true]
    exact ⟨fun h c hc => (isHex_iff c).1 (h c hc), fun h c hc => (isHex_iff c).2 (h c hc)⟩
  simp only [accepted, decide_eq_true_eq]
  rw [hall]
  cases s with
  | client => simp
  | device => have := hd rfl; simp [this]

end Verif.Api.ConnFp
