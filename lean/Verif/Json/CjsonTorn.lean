import Verif.Json.CjsonPrint

/-!
# Torn texts

A proper prefix of a printed object or array is not accepted by the parser: helper lemmas.
-/

namespace Verif.Json

/-- What follows cannot end or continue an object or an array. -/
def Bad (r : Bytes) : Prop := ∀ c t, skipWs r = c :: t → c ≠ 44 ∧ c ≠ 93 ∧ c ≠ 125

theorem bad_zero : Bad [0] := by
  intro c t h
  simp only [skipWs, List.cons.injEq] at h
  rw [← h.1]
  decide

/-- The two ways in which a prefix of two texts ends. -/
theorem prefix_split {p q a b : Bytes} (h : p ++ q = a ++ b) :
    (∃ a', a = p ++ a' ∧ a' ≠ []) ∨ ∃ b', p = a ++ b' ∧ b' ++ q = b := by
  rcases List.append_eq_append_iff.mp h with ⟨a', h1, h2⟩ | ⟨b', h1, h2⟩
  · cases a' with
    | nil => exact .inr ⟨[], by simp [h1], by simpa using h2⟩
    | cons x a' => exact .inl ⟨_, h1, by simp⟩
  · exact .inr ⟨b', h1, h2.symm⟩

/-! ## Words -/

theorem starts_short {w p : Bytes} (h0 : 0 ∉ w) (h : p.length < w.length) : starts w (p ++ [0]) = false := by
  unfold starts
  rw [List.take_of_length_le (by simp; omega)]
  simp only [beq_eq_false_iff_ne, ne_eq]
  rintro rfl
  simp at h0

theorem torn_word {S n d p a w x r} (hp : a :: w = p ++ x) (hx : x ≠ []) (h0 : 0 ∉ a :: w)
    (ha : a = 110 ∧ w = [117, 108, 108] ∨ a = 102 ∧ w = [97, 108, 115, 101] ∨ a = 116 ∧ w = [114, 117, 101]) :
    parseValue S n d (p ++ [0]) ≠ .ok r := by
  cases n with
  | zero => unfold parseValue; simp
  | succ n =>
  have hl : p.length < (a :: w).length := by
    have := List.length_pos_iff.mpr hx
    have h := congrArg List.length hp
    rw [List.length_append] at h
    omega
  have hs := starts_short h0 hl
  cases p with
  | nil => unfold parseValue; simp [starts]
  | cons c p =>
    have hc : a = c := by simp at hp; exact hp.1
    subst hc
    rw [List.cons_append] at hs ⊢
    unfold parseValue
    rcases ha with ⟨rfl, rfl⟩ | ⟨rfl, rfl⟩ | ⟨rfl, rfl⟩
    · rw [hs, starts_ne (by decide), starts_ne (by decide)]; simp
    · rw [hs, starts_ne (by decide), starts_ne (by decide)]; simp
    · rw [hs, starts_ne (by decide), starts_ne (by decide)]; simp

/-! ## Numbers -/

theorem number_bad {c : UInt8} (h : isNumber c = true) : 32 < c ∧ c ≠ 44 ∧ c ≠ 93 ∧ c ≠ 125 := by
  revert h
  exact forall_byte (p := fun c => isNumber c = true → 32 < c ∧ c ≠ 44 ∧ c ≠ 93 ∧ c ≠ 125) (by decide +kernel) c

theorem torn_number {S : Strtod} {p : Bytes} {i r} (hp : ∀ c ∈ p, isNumber c = true)
    (h : parseNumber S (p ++ [0]) = .ok (i, r)) : Bad r := by
  unfold parseNumber at h
  have hle := S.le (((p ++ [0]).take 63).takeWhile isNumber)
  simp only at h
  split at h
  · cases h
  · simp only [R.ok.injEq, Prod.mk.injEq] at h
    obtain ⟨_, rfl⟩ := h
    have h1 : (((p ++ [0]).take 63).takeWhile isNumber).length ≤ p.length := by
      rcases Nat.lt_or_ge p.length 63 with h2 | h2
      · rw [List.take_of_length_le (by simp; omega), List.takeWhile_append_of_pos hp]
        simp [List.takeWhile_cons, show isNumber 0 = false by decide]
      · exact Nat.le_trans (List.takeWhile_sublist _).length_le (by simp; omega)
    generalize (S.run _).1 = k at hle
    rw [List.drop_append_of_le_length (by omega)]
    cases hd : p.drop k with
    | nil => exact bad_zero
    | cons c t =>
      have hc := number_bad (hp c (List.mem_of_mem_drop (by rw [hd]; simp)))
      intro x y hxy
      rw [List.cons_append, skipWs_cons hc.1] at hxy
      simp only [List.cons.injEq] at hxy
      rw [← hxy.1]
      exact hc.2

/-! ## Strings -/

theorem scan_escape_none (c : UInt8) (l : Bytes) (h : scan l = none) : scan (escape c ++ l) = none := by
  have plain : ∀ e l, e ≠ 34 → e ≠ 92 → scan l = none → scan (e :: l) = none := by
    intro e l h1 h2 h3
    rw [scan.eq_def]; simp [h1, h2, h3]
  have pair : ∀ e l, scan l = none → scan (92 :: e :: l) = none := by
    intro e l h3
    rw [scan.eq_def]; simp [h3]
  have hd : ∀ c : UInt8, hexDigit (c / 16) ≠ 34 ∧ hexDigit (c / 16) ≠ 92 ∧ hexDigit (c % 16) ≠ 34 ∧ hexDigit (c % 16) ≠ 92 := by
    intro c
    exact forall_byte (p := fun c => hexDigit (c / 16) ≠ 34 ∧ hexDigit (c / 16) ≠ 92 ∧ hexDigit (c % 16) ≠ 34 ∧ hexDigit (c % 16) ≠ 92)
      (by decide +kernel) c
  unfold escape
  split
  · next h' => exact plain _ _ h'.2.1 h'.2.2 h
  · split; · exact pair _ _ h
    split; · exact pair _ _ h
    split; · exact pair _ _ h
    split; · exact pair _ _ h
    split; · exact pair _ _ h
    split; · exact pair _ _ h
    split; · exact pair _ _ h
    have h1 := hd c
    exact pair _ _ (plain _ _ (by decide) (by decide) (plain _ _ (by decide) (by decide)
      (plain _ _ h1.1 h1.2.1 (plain _ _ h1.2.2.1 h1.2.2.2 h))))

theorem scan_escape_torn (c : UInt8) (k : Nat) (h : k < (escape c).length) : scan ((escape c).take k ++ [0]) = none := by
  have h6 : (escape c).length ≤ 6 :=
    forall_byte (p := fun c => (escape c).length ≤ 6) (by decide +kernel) c
  have := forall_byte (p := fun c => ∀ k : Fin 6, k.val < (escape c).length → scan ((escape c).take k.val ++ [0]) = none)
    (by decide +kernel) c
  exact this ⟨k, by omega⟩ h

theorem scan_torn (s p q : Bytes) (h : p ++ q = s.flatMap escape) : scan (p ++ [0]) = none := by
  induction s generalizing p with
  | nil =>
    simp only [List.flatMap_nil, List.append_eq_nil_iff] at h
    rw [h.1]
    decide
  | cons c s ih =>
    rw [List.flatMap_cons] at h
    rcases prefix_split h with ⟨a', h1, h2⟩ | ⟨b', rfl, h2⟩
    · have hp : p = (escape c).take p.length := by rw [h1]; simp
      rw [hp]
      refine scan_escape_torn c _ ?_
      have := List.length_pos_iff.mpr h2
      rw [h1, List.length_append]
      omega
    · rw [List.append_assoc]
      exact scan_escape_none c _ (ih b' h2)

theorem torn_string {s p q : Bytes} (h : printString s = p ++ q) (hq : q ≠ []) (x) : parseString (p ++ [0]) ≠ .ok x := by
  cases p with
  | nil => simp [parseString]
  | cons c p =>
    rw [printString, List.cons_append, List.cons_append, List.cons.injEq] at h
    obtain ⟨hc, h⟩ := h
    have : ∃ q', p ++ q' = s.flatMap escape := by
      rcases prefix_split h.symm with ⟨a', h1, _⟩ | ⟨b', h1, h2⟩
      · exact ⟨a', h1.symm⟩
      · cases b' with
        | nil => exact ⟨[], by simpa using h1⟩
        | cons y b' =>
          simp only [List.cons_append, List.cons.injEq, List.append_eq_nil_iff] at h2
          exact absurd h2.2.2 hq
    obtain ⟨q', hq'⟩ := this
    rw [List.cons_append]
    unfold parseString
    rw [← hc]
    simp only [ne_eq, not_true, if_false, scan_torn s p q' hq']
    simp

/-! ## Values -/

theorem print_prefix_head {v : Json Bytes} {c p q} (h : print v = c :: p ++ q) : 32 < c ∧ c ≠ 93 ∧ c ≠ 125 := by
  obtain ⟨c', l, h1, h2, h3, h4, _⟩ := print_head v
  rw [h1, List.cons_append, List.cons.injEq] at h
  rw [← h.1]
  exact ⟨h2, h3, h4⟩

theorem parseValue_zero {S n d} (x) : parseValue S n d [0] ≠ .ok x := by
  cases n with
  | zero => unfold parseValue; simp
  | succ n => unfold parseValue; simp [starts]

theorem elems_head (x : Json Bytes) (l) : ∃ c t, printElems (x :: l) = c :: t ∧ 32 < c ∧ c ≠ 93 := by
  obtain ⟨c, t, hc, h1, h2, _⟩ := print_head x
  cases l with
  | nil => exact ⟨c, t, by rw [printElems, hc], h1, h2⟩
  | cons y l => exact ⟨c, _, by rw [printElems, hc]; rfl, h1, h2⟩

theorem members_head (x : Bytes × Json Bytes) (l) : ∃ t, printMembers (x :: l) = 34 :: t := by
  obtain ⟨k, x⟩ := x
  cases l with
  | nil => exact ⟨_, by rw [printMembers, printString]; rfl⟩
  | cons y l => exact ⟨_, by rw [printMembers, printString]; rfl⟩

mutual

/-- A proper prefix of a printed value is rejected, or a shorter number is read and the rest fits nowhere. -/
theorem torn_value (S : Strtod) (v : Json Bytes) (n d : Nat) (p q : Bytes) (hf : Fits d v) (h : print v = p ++ q)
    (hq : q ≠ []) (hn : 3 * (p.length + 1) + 1 ≤ n) (x : Json Bytes) (r : Bytes)
    (hr : parseValue S n d (p ++ [0]) = .ok (x, r)) : Bad r ∧ ∃ i, v = .num i := by
  cases v with
  | null => exact absurd hr (torn_word h hq (by decide) (.inl ⟨rfl, rfl⟩))
  | bool b =>
    cases b
    · exact absurd hr (torn_word h hq (by decide) (.inr (.inl ⟨rfl, rfl⟩)))
    · exact absurd hr (torn_word h hq (by decide) (.inr (.inr ⟨rfl, rfl⟩)))
  | num i =>
    refine ⟨?_, i, rfl⟩
    rw [print] at h
    have hnum : ∀ c ∈ p, isNumber c = true := fun c hc => (printInt_number i).1 c (by rw [h]; simp [hc])
    cases n with
    | zero => omega
    | succ n =>
    cases p with
    | nil => exact absurd hr (parseValue_zero _)
    | cons c p =>
      obtain ⟨_, c', l, h1, h2⟩ := printInt_number i
      rw [h1, List.cons_append, List.cons.injEq] at h
      rw [h.1] at h2
      have h3 : c ≠ 110 ∧ c ≠ 102 ∧ c ≠ 116 ∧ c ≠ 34 := by
        clear hnum
        revert h2
        exact forall_byte (p := fun c => (c = 45 ∨ (48 ≤ c ∧ c ≤ 57)) → c ≠ 110 ∧ c ≠ 102 ∧ c ≠ 116 ∧ c ≠ 34) (by decide +kernel) c
      rw [List.cons_append] at hr
      unfold parseValue at hr
      rw [starts_ne h3.1, starts_ne h3.2.1, starts_ne h3.2.2.1] at hr
      simp only [Bool.false_eq_true, if_false] at hr
      rw [if_neg h3.2.2.2, if_pos h2] at hr
      cases hp : parseNumber S (c :: (p ++ [0])) with
      | ok y =>
        rw [hp] at hr
        simp only [R.bind, R.ok.injEq, Prod.mk.injEq] at hr
        obtain ⟨i', r'⟩ := y
        have := torn_number (S := S) hnum (i := i') (r := r') (by rw [List.cons_append]; exact hp)
        rw [← hr.2]
        exact this
      | fail => rw [hp] at hr; simp [R.bind] at hr
      | ub => rw [hp] at hr; simp [R.bind] at hr
  | str s =>
    exfalso
    rw [print] at h
    cases n with
    | zero => omega
    | succ n =>
    cases p with
    | nil => exact absurd hr (parseValue_zero _)
    | cons c p =>
      have hc : c = 34 := by
        rw [printString, List.cons_append, List.cons_append, List.cons.injEq] at h
        exact h.1.symm
      subst hc
      have hp := torn_string h hq
      rw [List.cons_append] at hr hp
      unfold parseValue at hr
      rw [starts_ne (by decide), starts_ne (by decide), starts_ne (by decide)] at hr
      simp only [Bool.false_eq_true, if_false, if_true] at hr
      cases hp' : parseString (34 :: (p ++ [0])) with
      | ok y => exact hp y hp'
      | fail => rw [hp'] at hr; simp [R.bind] at hr
      | ub => rw [hp'] at hr; simp [R.bind] at hr
  | arr l =>
    exfalso
    obtain ⟨hd, hf⟩ := (hf : d < 1000 ∧ FitsElems (d + 1) l)
    rw [print] at h
    cases n with
    | zero => omega
    | succ n =>
    cases p with
    | nil => exact absurd hr (parseValue_zero _)
    | cons c p =>
      rw [List.cons_append, List.cons_append, List.cons.injEq] at h
      obtain ⟨hc, h⟩ := h
      subst hc
      simp only [List.length_cons] at hn
      rw [List.cons_append] at hr
      unfold parseValue at hr
      rw [starts_ne (by decide), starts_ne (by decide), starts_ne (by decide)] at hr
      simp only [Bool.false_eq_true, if_false] at hr
      rw [if_neg (by decide), if_neg (by decide), if_pos trivial] at hr
      cases n with
      | zero => omega
      | succ n =>
      unfold parseArray at hr
      rw [if_neg (by omega)] at hr
      have hpre : ∃ q', printElems l = p ++ q' := by
        rcases prefix_split h.symm with ⟨a', h1, _⟩ | ⟨b', h1, h2⟩
        · exact ⟨a', h1⟩
        · cases b' with
          | nil => exact ⟨[], by simpa using h1.symm⟩
          | cons y b' =>
            simp only [List.cons_append, List.cons.injEq, List.append_eq_nil_iff] at h2
            exact absurd h2.2.2 hq
      obtain ⟨q', hq'⟩ := hpre
      cases p with
      | nil =>
        simp only [List.nil_append, skipWs] at hr
        rw [if_neg (by decide)] at hr
        cases n with
        | zero => simp [parseElems, R.bind] at hr
        | succ n =>
          unfold parseElems at hr
          simp only [skipWs] at hr
          cases hv : parseValue S n (d + 1) [0] with
          | ok y => exact absurd hv (parseValue_zero _)
          | fail => rw [hv] at hr; simp [R.bind] at hr
          | ub => rw [hv] at hr; simp [R.bind] at hr
      | cons c p =>
        cases l with
        | nil => simp [printElems] at hq'
        | cons y l =>
          have he := torn_elems S y l n (d + 1) (c :: p) q' hf hq' (by simp only [List.length_cons] at hn ⊢; omega)
          obtain ⟨c', t, h1, h2, h3⟩ := elems_head y l
          rw [h1, List.cons_append, List.cons.injEq] at hq'
          rw [hq'.1] at h2 h3
          rw [List.cons_append] at hr he
          rw [skipWs_cons h2] at hr
          simp only at hr
          rw [if_neg h3] at hr
          cases hp' : parseElems S n (d + 1) (c :: (p ++ [0])) with
          | ok y => exact he y hp'
          | fail => rw [hp'] at hr; simp [R.bind] at hr
          | ub => rw [hp'] at hr; simp [R.bind] at hr
  | obj l =>
    exfalso
    obtain ⟨hd, hf⟩ := (hf : d < 1000 ∧ FitsMembers (d + 1) l)
    rw [print] at h
    cases n with
    | zero => omega
    | succ n =>
    cases p with
    | nil => exact absurd hr (parseValue_zero _)
    | cons c p =>
      rw [List.cons_append, List.cons_append, List.cons.injEq] at h
      obtain ⟨hc, h⟩ := h
      subst hc
      simp only [List.length_cons] at hn
      rw [List.cons_append] at hr
      unfold parseValue at hr
      rw [starts_ne (by decide), starts_ne (by decide), starts_ne (by decide)] at hr
      simp only [Bool.false_eq_true, if_false] at hr
      rw [if_neg (by decide), if_neg (by decide), if_neg (by decide), if_pos trivial] at hr
      cases n with
      | zero => omega
      | succ n =>
      unfold parseObject at hr
      rw [if_neg (by omega)] at hr
      have hpre : ∃ q', printMembers l = p ++ q' := by
        rcases prefix_split h.symm with ⟨a', h1, _⟩ | ⟨b', h1, h2⟩
        · exact ⟨a', h1⟩
        · cases b' with
          | nil => exact ⟨[], by simpa using h1.symm⟩
          | cons y b' =>
            simp only [List.cons_append, List.cons.injEq, List.append_eq_nil_iff] at h2
            exact absurd h2.2.2 hq
      obtain ⟨q', hq'⟩ := hpre
      cases p with
      | nil =>
        simp only [List.nil_append, skipWs] at hr
        rw [if_neg (by decide)] at hr
        cases n with
        | zero => simp [parseMembers, R.bind] at hr
        | succ n =>
          unfold parseMembers at hr
          simp [skipWs, parseString, R.bind] at hr
      | cons c p =>
        cases l with
        | nil => simp [printMembers] at hq'
        | cons y l =>
          obtain ⟨k, y⟩ := y
          have he := torn_members S k y l n (d + 1) (c :: p) q' hf hq' (by simp only [List.length_cons] at hn ⊢; omega)
          obtain ⟨t, h1⟩ := members_head (k, y) l
          rw [h1, List.cons_append, List.cons.injEq] at hq'
          rw [← hq'.1] at he hr
          rw [List.cons_append] at hr he
          rw [skipWs_cons (by decide)] at hr
          simp only at hr
          rw [if_neg (by decide)] at hr
          cases hp' : parseMembers S n (d + 1) (34 :: (p ++ [0])) with
          | ok y => exact he y hp'
          | fail => rw [hp'] at hr; simp [R.bind] at hr
          | ub => rw [hp'] at hr; simp [R.bind] at hr
termination_by n

/-- The elements of an array without what ends it. -/
theorem torn_elems (S : Strtod) (x : Json Bytes) (l : List (Json Bytes)) (n d : Nat) (p q : Bytes)
    (hf : FitsElems d (x :: l)) (h : printElems (x :: l) = p ++ q) (hn : 3 * (p.length + 1) + 2 ≤ n) (y) :
    parseElems S n d (p ++ [0]) ≠ .ok y := by
  cases n with
  | zero => omega
  | succ n =>
  obtain ⟨hx, hl⟩ := (hf : Fits d x ∧ FitsElems d l)
  intro hr
  unfold parseElems at hr
  -- what comes after the first element
  have hcase : (∃ a', print x = p ++ a' ∧ a' ≠ []) ∨ p = print x ∨
      ∃ z l' p', l = z :: l' ∧ p = print x ++ 44 :: p' ∧ ∃ q', printElems (z :: l') = p' ++ q' := by
    cases l with
    | nil =>
      rw [printElems] at h
      cases q with
      | nil => exact .inr (.inl (by simpa using h.symm))
      | cons c q => exact .inl ⟨_, h, by simp⟩
    | cons z l =>
      rw [printElems] at h
      rcases prefix_split h.symm with ha | ⟨b', h1, h2⟩
      · exact .inl ha
      · cases b' with
        | nil => exact .inr (.inl (by simpa using h1))
        | cons c b' =>
          simp only [List.cons_append, List.cons.injEq] at h2
          rw [h2.1] at h1
          exact .inr (.inr ⟨z, l, b', rfl, h1, q, h2.2.symm⟩)
  have hskip : ∀ t, (∀ c t', p ++ t = c :: t' → 32 < c) → skipWs (p ++ t) = p ++ t := by
    intro t ht
    cases hpt : p ++ t with
    | nil => rfl
    | cons c t' => rw [skipWs_cons (ht c t' hpt)]
  rcases hcase with ⟨a', h1, h2⟩ | rfl | ⟨z, l', p', rfl, rfl, q', h3⟩
  · cases p with
    | nil =>
      simp only [List.nil_append, skipWs] at hr
      cases hv : parseValue S n d [0] with
      | ok y => exact absurd hv (parseValue_zero _)
      | fail => rw [hv] at hr; simp [R.bind] at hr
      | ub => rw [hv] at hr; simp [R.bind] at hr
    | cons c p =>
      have hc := print_prefix_head h1
      rw [List.cons_append, skipWs_cons hc.1] at hr
      cases hv : parseValue S n d (c :: (p ++ [0])) with
      | ok y =>
        obtain ⟨y, r⟩ := y
        have hb := (torn_value S x n d (c :: p) a' hx h1 h2 (by simp only [List.length_cons] at hn ⊢; omega) y r
          (by rw [List.cons_append]; exact hv)).1
        rw [hv] at hr
        simp only [R.bind] at hr
        cases hs : skipWs r with
        | nil => rw [hs] at hr; simp at hr
        | cons c t =>
          have := hb c t hs
          rw [hs] at hr
          simp [this.1, this.2.1] at hr
      | fail => rw [hv] at hr; simp [R.bind] at hr
      | ub => rw [hv] at hr; simp [R.bind] at hr
  · have hv := parse_print_value S x n d [0] hx (stop_cons (by decide)) (by simp only [List.length_append, List.length_cons, List.length_nil]; omega)
    obtain ⟨c, t, hc, h1, _⟩ := print_head x
    rw [hc, List.cons_append] at hv hr
    rw [skipWs_cons h1, hv] at hr
    simp [R.bind, skipWs] at hr
  · simp only [List.length_append, List.length_cons] at hn
    have hv := parse_print_value S x n d (44 :: (p' ++ [0])) hx (stop_cons (by decide))
      (by simp only [List.length_append, List.length_cons, List.length_nil]; omega)
    have he := torn_elems S z l' n d p' q' hl h3 (by omega)
    obtain ⟨c, t, hc, h1, _⟩ := print_head x
    rw [List.append_assoc, List.cons_append] at hr
    rw [hc, List.cons_append] at hv hr
    rw [skipWs_cons h1, hv] at hr
    simp only [R.bind] at hr
    rw [skipWs_cons (by decide)] at hr
    simp only [if_true] at hr
    cases hp' : parseElems S n d (p' ++ [0]) with
    | ok y => exact he y hp'
    | fail => rw [hp'] at hr; simp at hr
    | ub => rw [hp'] at hr; simp at hr
termination_by n

/-- The members of an object without what ends it. -/
theorem torn_members (S : Strtod) (k : Bytes) (x : Json Bytes) (l : List (Bytes × Json Bytes)) (n d : Nat) (p q : Bytes)
    (hf : FitsMembers d ((k, x) :: l)) (h : printMembers ((k, x) :: l) = p ++ q) (hn : 3 * (p.length + 1) + 2 ≤ n) (y) :
    parseMembers S n d (p ++ [0]) ≠ .ok y := by
  cases n with
  | zero => omega
  | succ n =>
  obtain ⟨hk, hx, hl⟩ := (hf : 0 ∉ k ∧ Fits d x ∧ FitsMembers d l)
  intro hr
  unfold parseMembers at hr
  have hcase : (∃ a', printString k = p ++ a' ∧ a' ≠ []) ∨ p = printString k ∨
      ∃ p1, p = printString k ++ 58 :: p1 ∧ ((∃ a', print x = p1 ++ a' ∧ a' ≠ []) ∨ p1 = print x ∨
      ∃ z l' p', l = z :: l' ∧ p1 = print x ++ 44 :: p' ∧ ∃ q', printMembers (z :: l') = p' ++ q') := by
    have hrest : ∃ rest, printMembers ((k, x) :: l) = printString k ++ 58 :: (print x ++ rest) ∧
        (l = [] ∧ rest = [] ∨ ∃ z l', l = z :: l' ∧ rest = 44 :: printMembers (z :: l')) := by
      cases l with
      | nil => exact ⟨[], by rw [printMembers]; simp, .inl ⟨rfl, rfl⟩⟩
      | cons z l' => exact ⟨44 :: printMembers (z :: l'), by rw [printMembers]; simp, .inr ⟨z, l', rfl, rfl⟩⟩
    obtain ⟨rest, h1, h2⟩ := hrest
    rw [h1] at h
    rcases prefix_split h.symm with ha | ⟨b', h3, h4⟩
    · exact .inl ha
    · cases b' with
      | nil => exact .inr (.inl (by simpa using h3))
      | cons c b' =>
        simp only [List.cons_append, List.cons.injEq] at h4
        rw [h4.1] at h3
        refine .inr (.inr ⟨b', h3, ?_⟩)
        rcases prefix_split h4.2 with ha | ⟨b2, h5, h6⟩
        · exact .inl ha
        · cases b2 with
          | nil => exact .inr (.inl (by simpa using h5))
          | cons c b2 =>
            rcases h2 with ⟨_, rfl⟩ | ⟨z, l', rfl, rfl⟩
            · simp at h6
            · simp only [List.cons_append, List.cons.injEq] at h6
              rw [h6.1] at h5
              exact .inr (.inr ⟨z, l', b2, rfl, h5, q, h6.2.symm⟩)
  have hs : ∀ t, skipWs (printString k ++ t) = printString k ++ t := by
    intro t
    rw [printString, List.cons_append, List.cons_append]; exact skipWs_cons (by decide)
  rcases hcase with ⟨a', h1, h2⟩ | rfl | ⟨p1, rfl, hcase⟩
  · have ht := torn_string h1 h2
    have h3 : skipWs (p ++ [0]) = p ++ [0] := by
      cases p with
      | nil => rfl
      | cons c p =>
        rw [printString, List.cons_append, List.cons_append, List.cons.injEq] at h1
        rw [← h1.1, List.cons_append]
        exact skipWs_cons (by decide)
    rw [h3] at hr
    cases hp' : parseString (p ++ [0]) with
    | ok y => exact ht y hp'
    | fail => rw [hp'] at hr; simp [R.bind] at hr
    | ub => rw [hp'] at hr; simp [R.bind] at hr
  · rw [hs, parseString_print hk] at hr
    simp [R.bind, skipWs] at hr
  · rw [List.append_assoc, hs, parseString_print hk] at hr
    simp only [R.bind, List.cons_append] at hr
    rw [skipWs_cons (by decide)] at hr
    simp only [ne_eq, not_true, if_false] at hr
    simp only [List.length_append, List.length_cons] at hn
    rcases hcase with ⟨a', h1, h2⟩ | rfl | ⟨z, l', p', rfl, rfl, q', h3⟩
    · cases p1 with
      | nil =>
        simp only [List.nil_append, skipWs] at hr
        cases hv : parseValue S n d [0] with
        | ok y => exact absurd hv (parseValue_zero _)
        | fail => rw [hv] at hr; simp at hr
        | ub => rw [hv] at hr; simp at hr
      | cons c p =>
        have hc := print_prefix_head h1
        rw [List.cons_append, skipWs_cons hc.1] at hr
        cases hv : parseValue S n d (c :: (p ++ [0])) with
        | ok y =>
          obtain ⟨y, r⟩ := y
          have hb := (torn_value S x n d (c :: p) a' hx h1 h2 (by simp only [List.length_cons] at hn ⊢; omega) y r
            (by rw [List.cons_append]; exact hv)).1
          rw [hv] at hr
          simp only at hr
          cases hs : skipWs r with
          | nil => rw [hs] at hr; simp at hr
          | cons c t =>
            have := hb c t hs
            rw [hs] at hr
            simp [this.1, this.2.2] at hr
        | fail => rw [hv] at hr; simp at hr
        | ub => rw [hv] at hr; simp at hr
    · have hv := parse_print_value S x n d [0] hx (stop_cons (by decide))
        (by simp only [List.length_append, List.length_cons, List.length_nil]; omega)
      obtain ⟨c, t, hc, h1, _⟩ := print_head x
      rw [hc, List.cons_append] at hv hr
      rw [skipWs_cons h1, hv] at hr
      simp [skipWs] at hr
    · simp only [List.length_append, List.length_cons] at hn
      obtain ⟨k2, z⟩ := z
      have hv := parse_print_value S x n d (44 :: (p' ++ [0])) hx (stop_cons (by decide))
        (by simp only [List.length_append, List.length_cons, List.length_nil]; omega)
      have he := torn_members S k2 z l' n d p' q' hl h3 (by omega)
      obtain ⟨c, t, hc, h1, _⟩ := print_head x
      rw [List.append_assoc, List.cons_append] at hr
      rw [hc, List.cons_append] at hv hr
      rw [skipWs_cons h1, hv] at hr
      simp only at hr
      rw [skipWs_cons (by decide)] at hr
      simp only [if_true] at hr
      cases hp' : parseMembers S n d (p' ++ [0]) with
      | ok y => exact he y hp'
      | fail => rw [hp'] at hr; simp at hr
      | ub => rw [hp'] at hr; simp at hr
termination_by n

end

/-- A proper prefix of a printed object or array is not accepted. -/
theorem parse_torn (S : Strtod) {v : Json Bytes} {p q : Bytes} (hf : Fits 0 v) (h : print v = p ++ q) (hq : q ≠ [])
    (hv : ∀ i, v ≠ .num i) (x) : parse S p ≠ .ok x := by
  intro hp
  unfold parse at hp
  have hb : skipWs (skipBom (p ++ [0])) = p ++ [0] := by
    cases p with
    | nil => simp [skipBom, skipWs]
    | cons c p =>
      have hc := print_prefix_head h
      obtain ⟨c', l, h1, _, _, _, h2⟩ := print_head v
      rw [h1, List.cons_append, List.cons.injEq] at h
      rw [h.1] at h2
      rw [List.cons_append, skipBom, starts_ne h2]
      simp only [Bool.false_eq_true, and_false, if_false]
      exact skipWs_cons hc.1
  rw [hb] at hp
  cases hr : parseValue S (3 * p.length + 6) 0 (p ++ [0]) with
  | ok y =>
    obtain ⟨i, hi⟩ := (torn_value S v _ 0 p q hf h hq (by omega) y.1 y.2 hr).2
    exact hv i hi
  | fail => rw [hr] at hp; simp [R.bind] at hp
  | ub => rw [hr] at hp; simp [R.bind] at hp

/-! ## A printed text has no zero byte -/

theorem printString_zero (s : Bytes) : 0 ∉ printString s := by
  have he : ∀ c : UInt8, 0 ∉ escape c := fun c => forall_byte (p := fun c => 0 ∉ escape c) (by decide +kernel) c
  simp only [printString, List.cons_append, List.mem_cons, List.mem_append, List.mem_flatMap, List.not_mem_nil, or_false]
  rintro (h | ⟨c, _, h⟩ | h)
  · exact absurd h (by decide)
  · exact he c h
  · exact absurd h (by decide)

mutual

theorem print_zero (v : Json Bytes) : 0 ∉ print v := by
  cases v with
  | null => rw [print]; decide
  | bool b => cases b <;> (rw [print]; decide)
  | num i =>
    rw [print]
    intro h
    exact absurd ((printInt_number i).1 0 h) (by decide)
  | str s => rw [print]; exact printString_zero s
  | arr l =>
    rw [print]
    have := printElems_zero l
    simp only [List.cons_append, List.mem_cons, List.mem_append, List.not_mem_nil, or_false]
    rintro (h | h | h)
    · exact absurd h (by decide)
    · exact this h
    · exact absurd h (by decide)
  | obj l =>
    rw [print]
    have := printMembers_zero l
    simp only [List.cons_append, List.mem_cons, List.mem_append, List.not_mem_nil, or_false]
    rintro (h | h | h)
    · exact absurd h (by decide)
    · exact this h
    · exact absurd h (by decide)

theorem printElems_zero (l : List (Json Bytes)) : 0 ∉ printElems l := by
  match l with
  | [] => simp [printElems]
  | [x] => rw [printElems]; exact print_zero x
  | x :: y :: l =>
    rw [printElems]
    have h1 := print_zero x
    have h2 := printElems_zero (y :: l)
    simp only [List.mem_append, List.mem_cons]
    rintro (h | h | h)
    · exact h1 h
    · exact absurd h (by decide)
    · exact h2 h

theorem printMembers_zero (l : List (Bytes × Json Bytes)) : 0 ∉ printMembers l := by
  match l with
  | [] => simp [printMembers]
  | [(k, x)] =>
    rw [printMembers]
    have h1 := print_zero x
    simp only [List.mem_append, List.mem_cons]
    rintro (h | h | h)
    · exact printString_zero k h
    · exact absurd h (by decide)
    · exact h1 h
  | (k, x) :: y :: l =>
    rw [printMembers]
    have h1 := print_zero x
    have h2 := printMembers_zero (y :: l)
    simp only [List.append_assoc, List.cons_append, List.mem_append, List.mem_cons]
    rintro (h | h | h | h | h)
    · exact printString_zero k h
    · exact absurd h (by decide)
    · exact h1 h
    · exact absurd h (by decide)
    · exact h2 h

end

end Verif.Json
