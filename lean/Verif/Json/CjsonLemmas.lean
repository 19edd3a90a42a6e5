import Verif.Json.Cjson

/-!
# cJSON: lemmas

Strings, white space, consumption of input, independence of the recursion bound, and memory safety.
-/

namespace Verif.Json

/-! ## Bytes -/

/-- A statement about all bytes is a finite check. -/
theorem forall_byte {p : UInt8 → Prop} (h : ∀ n : Fin 256, p (UInt8.ofNat n.val)) (c : UInt8) : p c := by
  have := h ⟨c.toNat, c.toNat_lt⟩
  simpa using this

/-! ## White space -/

theorem skipWs_cons {c l} (h : 32 < c) : skipWs (c :: l) = c :: l := by
  cases l with
  | nil => simp [skipWs]
  | cons x l =>
    unfold skipWs
    rw [if_neg]
    intro h'
    rw [UInt8.le_iff_toNat_le] at h'
    rw [UInt8.lt_iff_toNat_lt] at h
    omega

theorem skipWs_length (l : Bytes) : (skipWs l).length ≤ l.length := by
  fun_induction skipWs l <;> simp_all <;> omega

/-- A buffer which ends with the terminating zero. -/
def End (l : Bytes) : Prop := l.getLast? = some 0

theorem End.skipWs {l} (h : End l) : End (skipWs l) := by
  fun_induction Json.skipWs l with
  | case1 => exact h
  | case2 => exact h
  | case3 c l hl hc ih => 
    apply ih
    unfold End at *
    cases l with
    | nil => simp_all
    | cons => simpa [List.getLast?_cons_cons] using h
  | case4 => exact h

theorem End.ne_nil {l} (h : End l) : l ≠ [] := by rintro rfl; cases h

theorem End.tail {c l} (h : End (c :: l)) (hc : c ≠ 0) : End l := by
  unfold End at *
  cases l with
  | nil => simp at h; exact absurd h hc
  | cons => simpa [List.getLast?_cons_cons] using h

theorem End.drop {l} (h : End l) (n : Nat) (hn : n < l.length) : End (l.drop n) := by
  unfold End at *
  rw [List.getLast?_drop]
  split
  · omega
  · exact h

/-! ## Strings -/

/-- The number of backslashes which skip a byte, when the first byte is skipped or not. -/
def skips : Bool → Bytes → Nat
  | _, [] => 0
  | true, _ :: l => skips false l
  | false, c :: l => if c = 92 then 1 + skips true l else skips false l

theorem scan_spec {l c k r} (h : scan l = some (c, k, r)) : l = c ++ 34 :: r ∧ k = skips false c := by
  fun_induction scan l generalizing c k r with
  | case1 => cases h
  | case2 => cases h; simp_all [skips]
  | case3 => cases h
  | case4 h1 e l ih =>
    rw [Option.map_eq_some_iff] at h
    obtain ⟨⟨c2, k2, r2⟩, h2, h3⟩ := h
    obtain ⟨h4, h5⟩ := ih h2
    cases h3
    simp_all [skips]
    omega
  | case5 c' l h1 h2 ih =>
    rw [Option.map_eq_some_iff] at h
    obtain ⟨⟨c2, k2, r2⟩, h2, h3⟩ := h
    obtain ⟨h4, h5⟩ := ih h2
    cases h3
    simp_all [skips]

theorem skips_two (b : Bool) (x y : UInt8) (l : Bytes) : ∃ b', skips b (x :: y :: l) ≤ 1 + skips b' l := by
  cases b
  · by_cases hx : x = 92
    · exact ⟨false, by simp [skips, hx]⟩
    · by_cases hy : y = 92
      · exact ⟨true, by simp [skips, hx, hy]⟩
      · exact ⟨false, by simp [skips, hx, hy]⟩
  · by_cases hy : y = 92
    · exact ⟨true, by simp [skips, hy]⟩
    · exact ⟨false, by simp [skips, hy]⟩

theorem skips_one (b : Bool) (x : UInt8) (l : Bytes) : ∃ b', skips b (x :: l) ≤ 1 + skips b' l := by
  cases b
  · by_cases hx : x = 92
    · exact ⟨true, by simp [skips, hx]⟩
    · exact ⟨false, by simp [skips, hx]⟩
  · exact ⟨false, by simp [skips]⟩

theorem hexValue_ne {c n} (h : hexValue c = some n) : c ≠ 92 := by
  rintro rfl
  revert h
  decide +revert

/-- A code other than 0 has four valid digits. -/
theorem hex4_ne {a b c d} (h : hex4 a b c d ≠ 0) : a ≠ 92 ∧ b ≠ 92 ∧ c ≠ 92 ∧ d ≠ 92 := by
  unfold hex4 at h
  split at h
  · next h1 h2 h3 h4 => exact ⟨hexValue_ne h1, hexValue_ne h2, hexValue_ne h3, hexValue_ne h4⟩
  · exact absurd rfl h

theorem utf8_length (n : Nat) : (utf8 n).length ≤ 4 ∧ (n < 0x10000 → (utf8 n).length ≤ 3) ∧ (n = 0 → (utf8 n).length = 1) := by
  unfold utf8
  split
  · simp
  · split
    · simp; omega
    · split
      · simp; omega
      · simp; omega

theorem hexValue_lt {c n} (h : hexValue c = some n) : n < 16 := by
  revert h
  unfold hexValue
  simp only [UInt8.le_iff_toNat_le]
  split
  · rintro ⟨⟩; simp at *; omega
  · split
    · rintro ⟨⟩; simp at *; omega
    · split
      · rintro ⟨⟩; simp at *; omega
      · intro h; cases h

theorem hex4_lt (a b c d : UInt8) : hex4 a b c d < 0x10000 := by
  unfold hex4
  split
  · next h1 h2 h3 h4 =>
    have := hexValue_lt h1
    have := hexValue_lt h2
    have := hexValue_lt h3
    have := hexValue_lt h4
    omega
  · omega

/-- What an escaped code point needs fits into what was allocated for it. -/
theorem utf16_fits {l o r} (h : utf16 l = some (o, r)) (b : Bool) :
    ∃ b', o.length + skips b (92 :: 117 :: l) + r.length ≤ l.length + 2 + skips b' r := by
  unfold utf16 at h
  split at h
  case h_2 => cases h
  next a b' c d l =>
  split at h
  · cases h
  · split at h
    · next hs =>
      have h1 := hex4_ne (a := a) (b := b') (c := c) (d := d) (by omega)
      split at h
      · next s u e f g i l =>
        split at h
        · cases h
        · next hsu =>
          split at h
          · cases h
          · next he =>
            have h2 := hex4_ne (a := e) (b := f) (c := g) (d := i) (by omega)
            simp only [Option.some.injEq, Prod.mk.injEq] at h
            obtain ⟨rfl, rfl⟩ := h
            refine ⟨false, ?_⟩
            have h3 := (utf8_length (0x10000 + (hex4 a b' c d % 0x400) * 0x400 + hex4 e f g i % 0x400)).1
            have h4 : s = 92 ∧ u = 117 := ⟨Classical.byContradiction (fun h => hsu (.inl h)), Classical.byContradiction (fun h => hsu (.inr h))⟩
            cases b <;> simp [skips, h1, h2, h4] <;> omega
      · cases h
    · simp only [Option.some.injEq, Prod.mk.injEq] at h
      obtain ⟨rfl, rfl⟩ := h
      have h3 := utf8_length (hex4 a b' c d)
      by_cases h0 : hex4 a b' c d = 0
      · have h4 := h3.2.2 h0
        obtain ⟨b1, g1⟩ := skips_two b 92 117 (a :: b' :: c :: d :: l)
        obtain ⟨b2, g2⟩ := skips_two b1 a b' (c :: d :: l)
        obtain ⟨b3, g3⟩ := skips_two b2 c d l
        exact ⟨b3, by simp only [List.length_cons]; omega⟩
      · have h1 := hex4_ne h0
        have h4 := h3.2.1 (hex4_lt a b' c d)
        refine ⟨false, ?_⟩
        cases b <;> simp [skips, h1] <;> omega

/-- The bytes of a parsed string fit into the allocated memory. -/
theorem decode_fits {l o} (h : decode l = some o) (b : Bool) : o.length + skips b l ≤ l.length + 1 := by
  fun_induction decode l generalizing o b with
  | case1 => cases h; simp [skips]
  | case2 c l hc ih =>
    rw [Option.map_eq_some_iff] at h
    obtain ⟨o', h1, rfl⟩ := h
    have := ih h1 false
    cases b <;> simp [skips, hc] <;> omega
  | case3 c hc =>
    cases h
    cases b <;> simp [skips]
    split <;> simp
  | case4 => cases h
  | case5 c hc l o' r hu ih =>
    rw [Option.map_eq_some_iff] at h
    obtain ⟨o2, h1, rfl⟩ := h
    have hc : c = 92 := Classical.byContradiction hc
    subst hc
    obtain ⟨b', h2⟩ := utf16_fits hu b
    have := ih h1 b'
    simp only [List.length_append, List.length_cons]
    omega
  | case6 => cases h
  | case7 c hc e l he x hx ih =>
    rw [Option.map_eq_some_iff] at h
    obtain ⟨o2, h1, rfl⟩ := h
    have hc : c = 92 := Classical.byContradiction hc
    obtain ⟨b', h2⟩ := skips_two b c e l
    have := ih h1 b'
    simp only [List.length_cons]
    omega

/-- `parse_string` reads within the buffer and writes within its allocation. -/
theorem parseString_safe {l} (h : End l) : parseString l ≠ .ub ∧ ∀ s r, parseString l = .ok (s, r) → End r ∧ r.length < l.length := by
  unfold parseString
  split
  · exact absurd rfl h.ne_nil
  · next c l =>
    split
    · simp
    · next hc =>
      have hc : c = 34 := Classical.byContradiction hc
      have hl := h.tail (by rw [hc]; decide)
      split
      · simp
      · next content k rest hsc =>
        obtain ⟨h1, h2⟩ := scan_spec hsc
        split
        · simp
        · next out hd =>
          have h3 := decode_fits hd false
          rw [if_neg (by omega)]
          refine ⟨by simp, ?_⟩
          intro s r he
          simp only [R.ok.injEq, Prod.mk.injEq] at he
          obtain ⟨_, rfl⟩ := he
          subst h1
          constructor
          · have := hl.drop (content.length + 1) (by
              have h4 : End (content ++ 34 :: rest) := hl
              cases rest with
              | nil => simp [End] at h4
              | cons => simp)
            rw [show content ++ 34 :: rest = (content ++ [34]) ++ rest by simp] at this
            rwa [List.drop_left' (by simp)] at this
          · simp; omega

end Verif.Json
