import Verif.Json.CjsonParse

/-!
# cJSON: parsing what was printed
-/

namespace Verif.Json

/-! ## Strings -/

theorem decode_plain {c l} (h : c ≠ 92) : decode (c :: l) = (decode l).map (c :: ·) := by
  rw [decode.eq_def]; simp [h]

theorem decode_pair {e l x} (h : e ≠ 117) (hx : unescape e = some x) : decode (92 :: e :: l) = (decode l).map (x :: ·) := by
  rw [decode.eq_def]; simp [h, hx]

theorem decode_u {l b r} (h : utf16 l = some (b, r)) : decode (92 :: 117 :: l) = (decode r).map (b ++ ·) := by
  rw [decode.eq_def]
  simp
  split
  · next h' => rw [h] at h'; cases h'
  · next h' => rw [h] at h'; cases h'; rfl

theorem hexDigit_spec (c : UInt8) : c < 32 → hex4 48 48 (hexDigit (c / 16)) (hexDigit (c % 16)) = c.toNat :=
  forall_byte (p := fun c => c < 32 → hex4 48 48 (hexDigit (c / 16)) (hexDigit (c % 16)) = c.toNat) (by decide +kernel) c

theorem decode_escape (c : UInt8) (l : Bytes) : decode (escape c ++ l) = (decode l).map (c :: ·) := by
  unfold escape
  split
  · next h => exact decode_plain h.2.2
  · next h =>
    split
    · next h => subst h; exact decode_pair (by decide) (by decide)
    · split
      · next h => subst h; exact decode_pair (by decide) (by decide)
      · split
        · next h => subst h; exact decode_pair (by decide) (by decide)
        · split
          · next h => subst h; exact decode_pair (by decide) (by decide)
          · split
            · next h => subst h; exact decode_pair (by decide) (by decide)
            · split
              · next h => subst h; exact decode_pair (by decide) (by decide)
              · split
                · next h => subst h; exact decode_pair (by decide) (by decide)
                · next h92 h34 _ _ _ _ _ =>
                  have hc : c < 32 := by
                    rw [UInt8.lt_iff_toNat_lt]
                    have : ¬ (c > 31) := fun h' => h ⟨h', h34, h92⟩
                    rw [GT.gt, UInt8.lt_iff_toNat_lt] at this
                    simp at this ⊢
                    omega
                  have h4 := hexDigit_spec c hc
                  have hlt : c.toNat < 32 := by rw [UInt8.lt_iff_toNat_lt] at hc; simpa using hc
                  have : utf16 (48 :: 48 :: hexDigit (c / 16) :: hexDigit (c % 16) :: l) = some ([c], l) := by
                    unfold utf16
                    simp only [h4]
                    rw [if_neg (by omega), if_neg (by omega)]
                    unfold utf8
                    rw [if_pos (by omega)]
                    simp
                  exact decode_u this

theorem decode_escapes (s : Bytes) : decode (s.flatMap escape) = some s := by
  induction s with
  | nil => rw [List.flatMap_nil, decode.eq_def]
  | cons c s ih => rw [List.flatMap_cons, decode_escape, ih]; rfl

/-- Printed strings contain no bare quote. -/
theorem scan_escape (c : UInt8) (l : Bytes) {x k r} (h : scan l = some (x, k, r)) :
    ∃ k', scan (escape c ++ l) = some (escape c ++ x, k', r) := by
  have plain : ∀ e l x k r, e ≠ 34 → e ≠ 92 → scan l = some (x, k, r) → scan (e :: l) = some (e :: x, k, r) := by
    intro e l x k r h1 h2 h3
    rw [scan.eq_def]; simp [h1, h2, h3]
  have pair : ∀ e l x k r, scan l = some (x, k, r) → scan (92 :: e :: l) = some (92 :: e :: x, k + 1, r) := by
    intro e l x k r h3
    rw [scan.eq_def]; simp [h3]
  have hd : ∀ c : UInt8, hexDigit (c / 16) ≠ 34 ∧ hexDigit (c / 16) ≠ 92 ∧ hexDigit (c % 16) ≠ 34 ∧ hexDigit (c % 16) ≠ 92 := by
    intro c
    exact forall_byte (p := fun c => hexDigit (c / 16) ≠ 34 ∧ hexDigit (c / 16) ≠ 92 ∧ hexDigit (c % 16) ≠ 34 ∧ hexDigit (c % 16) ≠ 92)
      (by decide +kernel) c
  unfold escape
  split
  · next h' => exact ⟨k, plain _ _ _ _ _ h'.2.1 h'.2.2 h⟩
  · split; · exact ⟨_, pair _ _ _ _ _ h⟩
    split; · exact ⟨_, pair _ _ _ _ _ h⟩
    split; · exact ⟨_, pair _ _ _ _ _ h⟩
    split; · exact ⟨_, pair _ _ _ _ _ h⟩
    split; · exact ⟨_, pair _ _ _ _ _ h⟩
    split; · exact ⟨_, pair _ _ _ _ _ h⟩
    split; · exact ⟨_, pair _ _ _ _ _ h⟩
    have h1 := hd c
    exact ⟨_, pair _ _ _ _ _ (plain _ _ _ _ _ (by decide) (by decide) (plain _ _ _ _ _ (by decide) (by decide)
      (plain _ _ _ _ _ h1.1 h1.2.1 (plain _ _ _ _ _ h1.2.2.1 h1.2.2.2 h))))⟩

theorem scan_escapes (s r : Bytes) : ∃ k, scan (s.flatMap escape ++ 34 :: r) = some (s.flatMap escape, k, r) := by
  induction s with
  | nil => exact ⟨0, by rw [List.flatMap_nil, List.nil_append, scan.eq_def]; simp⟩
  | cons c s ih =>
    obtain ⟨k, ih⟩ := ih
    rw [List.flatMap_cons, List.append_assoc]
    exact scan_escape c _ ih

theorem takeWhile_all {p : UInt8 → Bool} {l : Bytes} (h : ∀ x ∈ l, p x = true) : l.takeWhile p = l := by
  induction l with
  | nil => rfl
  | cons c l ih => rw [List.takeWhile_cons, if_pos (h c (by simp)), ih (fun x hx => h x (by simp [hx]))]

/-- A string without a zero byte is read back. -/
theorem parseString_print {s r : Bytes} (h : 0 ∉ s) : parseString (printString s ++ r) = .ok (s, r) := by
  obtain ⟨k, hk⟩ := scan_escapes s r
  have hd := decode_escapes s
  have hf := decode_fits hd false
  have hs := (scan_spec hk).2
  have : printString s ++ r = 34 :: (s.flatMap escape ++ 34 :: r) := by simp [printString]
  rw [this]
  unfold parseString
  simp only [ne_eq, not_true, if_false, hk, hd]
  rw [if_neg (by omega)]
  rw [takeWhile_all]
  intro x hx
  simp only [ne_eq, decide_eq_true_eq]
  rintro rfl
  exact h hx

/-! ## Numbers -/

theorem digit_number (n : Nat) (h : n < 10) : isNumber (48 + UInt8.ofNat n) = true ∧ 48 ≤ 48 + UInt8.ofNat n ∧ 48 + UInt8.ofNat n ≤ 57 := by
  have : ∀ n : Fin 10, isNumber (48 + UInt8.ofNat n.val) = true ∧ 48 ≤ 48 + UInt8.ofNat n.val ∧ 48 + UInt8.ofNat n.val ≤ 57 := by decide +kernel
  exact this ⟨n, h⟩

theorem digits_number (n : Nat) : (∀ c ∈ digits n, isNumber c = true) ∧ ∃ c l, digits n = c :: l ∧ 48 ≤ c ∧ c ≤ 57 := by
  fun_induction digits n with
  | case1 n h =>
    have := digit_number n h
    exact ⟨by simp [this.1], _, _, rfl, this.2⟩
  | case2 n h ih =>
    have := digit_number (n % 10) (by omega)
    obtain ⟨h1, c, l, h2, h3⟩ := ih
    refine ⟨?_, c, l ++ [48 + UInt8.ofNat (n % 10)], by rw [h2]; rfl, h3⟩
    intro x hx
    rw [List.mem_append, List.mem_singleton] at hx
    rcases hx with hx | rfl
    · exact h1 x hx
    · exact this.1

theorem digits_length (n k : Nat) (h : n < 10 ^ (k + 1)) : (digits n).length ≤ k + 1 := by
  induction k generalizing n with
  | zero => rw [digits, if_pos (by simpa using h)]; simp
  | succ k ih =>
    rw [digits]
    split
    · simp
    · have := ih (n / 10) (by rw [Nat.div_lt_iff_lt_mul (by omega)]; rw [Nat.pow_succ] at h; omega)
      simp
      omega

theorem printInt_number (i : Int) : (∀ c ∈ printInt i, isNumber c = true) ∧
    ∃ c l, printInt i = c :: l ∧ (c = 45 ∨ (48 ≤ c ∧ c ≤ 57)) := by
  unfold printInt
  have h := digits_number i.natAbs
  split
  · refine ⟨?_, 45, _, rfl, .inl rfl⟩
    intro c hc
    rw [List.mem_cons] at hc
    rcases hc with rfl | hc
    · decide
    · exact h.1 c hc
  · obtain ⟨h1, c, l, h2, h3⟩ := h
    exact ⟨h1, c, l, h2, .inr h3⟩

/-- The values of an `int`. -/
def isInt (i : Int) : Prop := -2147483648 ≤ i ∧ i ≤ 2147483647

theorem printInt_length {i} (h : isInt i) : (printInt i).length ≤ 11 := by
  unfold isInt at h
  have := digits_length i.natAbs 9 (by omega)
  unfold printInt
  split <;> simp <;> omega

/-- A byte which can follow a value in a text. -/
def Stop (r : Bytes) : Prop := ∃ c l, r = c :: l ∧ isNumber c = false

theorem parseNumber_print (S : Strtod) {i r} (h : isInt i) (hr : Stop r) : parseNumber S (printInt i ++ r) = .ok (i, r) := by
  obtain ⟨c, l, rfl, hc⟩ := hr
  have h1 := printInt_number i
  have h2 := printInt_length h
  have h3 : ((printInt i ++ c :: l).take 63).takeWhile isNumber = printInt i := by
    rw [List.take_append, List.take_of_length_le (by omega)]
    rw [show 63 - (printInt i).length = (62 - (printInt i).length) + 1 by omega, List.take_succ_cons]
    rw [List.takeWhile_append_of_pos h1.1, List.takeWhile_cons, hc]
    simp
  have h4 := S.dec i h.1 h.2
  unfold parseNumber
  simp only [h3, h4]
  obtain ⟨x, y, h5, _⟩ := h1.2
  rw [if_neg (by rw [h5]; simp)]
  simp

/-! ## Values -/

mutual

/-- A value whose text is read back at a depth: not nested too deeply, no zero bytes, numbers which are an `int`. -/
def Fits : Nat → Json Bytes → Prop
  | _, .null => True
  | _, .bool _ => True
  | _, .num i => isInt i
  | _, .str s => 0 ∉ s
  | d, .arr l => d < 1000 ∧ FitsElems (d + 1) l
  | d, .obj l => d < 1000 ∧ FitsMembers (d + 1) l

def FitsElems : Nat → List (Json Bytes) → Prop
  | _, [] => True
  | d, x :: l => Fits d x ∧ FitsElems d l

def FitsMembers : Nat → List (Bytes × Json Bytes) → Prop
  | _, [] => True
  | d, (k, x) :: l => 0 ∉ k ∧ Fits d x ∧ FitsMembers d l

end

/-- The first byte of a printed value. -/
theorem print_head (v : Json Bytes) : ∃ c l, print v = c :: l ∧ 32 < c ∧ c ≠ 93 ∧ c ≠ 125 ∧ c ≠ 0xEF := by
  cases v with
  | null => exact ⟨_, _, rfl, by decide⟩
  | bool b => cases b <;> exact ⟨_, _, rfl, by decide⟩
  | num i =>
    obtain ⟨_, c, l, h1, h2⟩ := printInt_number i
    refine ⟨c, l, by rw [print, h1], ?_⟩
    revert h2
    exact forall_byte (p := fun c => (c = 45 ∨ (48 ≤ c ∧ c ≤ 57)) → 32 < c ∧ c ≠ 93 ∧ c ≠ 125 ∧ c ≠ 0xEF) (by decide +kernel) c
  | str s => exact ⟨_, _, rfl, by decide⟩
  | arr l => exact ⟨_, _, rfl, by decide⟩
  | obj l => exact ⟨_, _, rfl, by decide⟩

theorem starts_ne {a p c l} (h : c ≠ a) : starts (a :: p) (c :: l) = false := by
  unfold starts
  simp [h]

theorem parseValue_num {S n d i r} (h : isInt i) (hr : Stop r) : parseValue S (n + 1) d (printInt i ++ r) = .ok (.num i, r) := by
  obtain ⟨_, c, l, h1, h2⟩ := printInt_number i
  have hn := parseNumber_print S h hr
  rw [h1] at hn ⊢
  have h3 : c ≠ 110 ∧ c ≠ 102 ∧ c ≠ 116 ∧ c ≠ 34 := by
    revert h2
    exact forall_byte (p := fun c => (c = 45 ∨ (48 ≤ c ∧ c ≤ 57)) → c ≠ 110 ∧ c ≠ 102 ∧ c ≠ 116 ∧ c ≠ 34) (by decide +kernel) c
  rw [List.cons_append] at hn ⊢
  unfold parseValue
  rw [starts_ne h3.1, starts_ne h3.2.1, starts_ne h3.2.2.1]
  simp only [Bool.false_eq_true, if_false]
  rw [if_neg h3.2.2.2, if_pos h2, hn]
  rfl

theorem stop_cons {c : UInt8} {l} (h : isNumber c = false) : Stop (c :: l) := ⟨c, l, rfl, h⟩

mutual

theorem parse_print_value (S : Strtod) (v : Json Bytes) (n d : Nat) (r : Bytes) (hf : Fits d v) (hr : Stop r)
    (hn : 3 * (print v ++ r).length + 1 ≤ n) : parseValue S n d (print v ++ r) = .ok (v, r) := by
  cases n with
  | zero => omega
  | succ n =>
  cases v with
  | null => unfold parseValue; rfl
  | bool b => cases b <;> (unfold parseValue; rfl)
  | num i => rw [print]; exact parseValue_num hf hr
  | str s =>
    have hp := parseString_print (r := r) (show 0 ∉ s from hf)
    rw [print]
    have h1 : printString s ++ r = 34 :: (s.flatMap escape ++ 34 :: r) := by simp [printString]
    rw [h1] at hp ⊢
    unfold parseValue
    rw [starts_ne (by decide), starts_ne (by decide), starts_ne (by decide)]
    simp only [Bool.false_eq_true, if_false, if_true, hp]
    rfl
  | arr l =>
    obtain ⟨hd, hf⟩ := (hf : d < 1000 ∧ FitsElems (d + 1) l)
    rw [print] at hn ⊢
    simp only [List.cons_append, List.append_assoc, List.nil_append, List.length_cons] at hn ⊢
    unfold parseValue
    rw [starts_ne (by decide), starts_ne (by decide), starts_ne (by decide)]
    simp only [Bool.false_eq_true, if_false]
    rw [if_neg (by decide), if_neg (by decide), if_pos trivial]
    cases n with
    | zero => omega
    | succ n =>
    unfold parseArray
    rw [if_neg (by omega)]
    cases l with
    | nil =>
      simp only [printElems, List.nil_append]
      rw [skipWs_cons (by decide)]
      rfl
    | cons x l =>
      have he := parse_print_elems S x l n (d + 1) r hf (by omega)
      obtain ⟨c, t, hc, h1, h2, _⟩ := print_head x
      have h3 : ∃ t, printElems (x :: l) = c :: t := by
        cases l with
        | nil => exact ⟨t, by rw [printElems, hc]⟩
        | cons y l => exact ⟨_, by rw [printElems, hc]; rfl⟩
      obtain ⟨t', h3⟩ := h3
      rw [h3] at he ⊢
      rw [List.cons_append] at he ⊢
      rw [skipWs_cons h1]
      simp only
      rw [if_neg h2, he]
      rfl
  | obj l =>
    obtain ⟨hd, hf⟩ := (hf : d < 1000 ∧ FitsMembers (d + 1) l)
    rw [print] at hn ⊢
    simp only [List.cons_append, List.append_assoc, List.nil_append, List.length_cons] at hn ⊢
    unfold parseValue
    rw [starts_ne (by decide), starts_ne (by decide), starts_ne (by decide)]
    simp only [Bool.false_eq_true, if_false]
    rw [if_neg (by decide), if_neg (by decide), if_neg (by decide), if_pos trivial]
    cases n with
    | zero => omega
    | succ n =>
    unfold parseObject
    rw [if_neg (by omega)]
    cases l with
    | nil =>
      simp only [printMembers, List.nil_append]
      rw [skipWs_cons (by decide)]
      rfl
    | cons x l =>
      obtain ⟨k, x⟩ := x
      have he := parse_print_members S k x l n (d + 1) r hf (by omega)
      have h3 : ∃ t, printMembers ((k, x) :: l) = 34 :: t := by
        cases l with
        | nil => exact ⟨_, by rw [printMembers, printString]; rfl⟩
        | cons y l => exact ⟨_, by rw [printMembers, printString]; rfl⟩
      obtain ⟨t', h3⟩ := h3
      rw [h3] at he ⊢
      rw [List.cons_append] at he ⊢
      rw [skipWs_cons (by decide)]
      simp only
      rw [if_neg (by decide), he]
      rfl
termination_by n

theorem parse_print_elems (S : Strtod) (x : Json Bytes) (l : List (Json Bytes)) (n d : Nat) (r : Bytes) (hf : FitsElems d (x :: l))
    (hn : 3 * (printElems (x :: l) ++ 93 :: r).length + 2 ≤ n) :
    parseElems S n d (printElems (x :: l) ++ 93 :: r) = .ok (x :: l, r) := by
  cases n with
  | zero => omega
  | succ n =>
  obtain ⟨hx, hl⟩ := (hf : Fits d x ∧ FitsElems d l)
  obtain ⟨c, t, hc, h1, _⟩ := print_head x
  unfold parseElems
  cases l with
  | nil =>
    rw [printElems] at hn ⊢
    have hv := parse_print_value S x n d (93 :: r) hx (stop_cons (by decide)) (by omega)
    rw [hc, List.cons_append] at hv ⊢
    rw [skipWs_cons h1, hv]
    simp only [R.bind]
    rw [skipWs_cons (by decide)]
    simp
  | cons y l =>
    rw [printElems] at hn ⊢
    simp only [List.append_assoc, List.cons_append, List.length_append, List.length_cons] at hn ⊢
    have hv := parse_print_value S x n d (44 :: (printElems (y :: l) ++ 93 :: r)) hx (stop_cons (by decide))
      (by simp only [List.length_append, List.length_cons]; omega)
    have he := parse_print_elems S y l n d r hl (by simp only [List.length_append, List.length_cons]; omega)
    rw [hc, List.cons_append] at hv ⊢
    rw [skipWs_cons h1, hv]
    simp only [R.bind]
    rw [skipWs_cons (by decide)]
    simp [he]
termination_by n

theorem parse_print_members (S : Strtod) (k : Bytes) (x : Json Bytes) (l : List (Bytes × Json Bytes)) (n d : Nat) (r : Bytes)
    (hf : FitsMembers d ((k, x) :: l)) (hn : 3 * (printMembers ((k, x) :: l) ++ 125 :: r).length + 2 ≤ n) :
    parseMembers S n d (printMembers ((k, x) :: l) ++ 125 :: r) = .ok ((k, x) :: l, r) := by
  cases n with
  | zero => omega
  | succ n =>
  obtain ⟨hk, hx, hl⟩ := (hf : 0 ∉ k ∧ Fits d x ∧ FitsMembers d l)
  obtain ⟨c, t, hc, h1, _⟩ := print_head x
  unfold parseMembers
  cases l with
  | nil =>
    rw [printMembers] at hn ⊢
    simp only [List.append_assoc, List.cons_append, List.length_append, List.length_cons] at hn ⊢
    have hp := parseString_print (r := 58 :: (print x ++ 125 :: r)) hk
    have hv := parse_print_value S x n d (125 :: r) hx (stop_cons (by decide)) (by simp only [List.length_append, List.length_cons]; omega)
    have h2 : skipWs (printString k ++ 58 :: (print x ++ 125 :: r)) = printString k ++ 58 :: (print x ++ 125 :: r) := by
      rw [printString, List.cons_append, List.cons_append]; exact skipWs_cons (by decide)
    rw [h2, hp]
    simp only [R.bind]
    rw [skipWs_cons (by decide)]
    rw [hc, List.cons_append] at hv ⊢
    simp only [ne_eq, not_true, if_false]
    rw [skipWs_cons h1, hv]
    simp only
    rw [skipWs_cons (by decide)]
    simp
  | cons y l =>
    obtain ⟨k2, y⟩ := y
    rw [printMembers] at hn ⊢
    simp only [List.append_assoc, List.cons_append, List.length_append, List.length_cons] at hn ⊢
    have hp := parseString_print (r := 58 :: (print x ++ 44 :: (printMembers ((k2, y) :: l) ++ 125 :: r))) hk
    have hv := parse_print_value S x n d (44 :: (printMembers ((k2, y) :: l) ++ 125 :: r)) hx (stop_cons (by decide))
      (by simp only [List.length_append, List.length_cons]; omega)
    have he := parse_print_members S k2 y l n d r hl (by simp only [List.length_append, List.length_cons]; omega)
    have h2 : skipWs (printString k ++ 58 :: (print x ++ 44 :: (printMembers ((k2, y) :: l) ++ 125 :: r))) =
        printString k ++ 58 :: (print x ++ 44 :: (printMembers ((k2, y) :: l) ++ 125 :: r)) := by
      rw [printString, List.cons_append, List.cons_append]; exact skipWs_cons (by decide)
    rw [h2, hp]
    simp only [R.bind]
    rw [skipWs_cons (by decide)]
    rw [hc, List.cons_append] at hv ⊢
    simp only [ne_eq, not_true, if_false]
    rw [skipWs_cons h1, hv]
    simp only
    rw [skipWs_cons (by decide)]
    simp [he]
termination_by n

end

end Verif.Json
