import Verif.Apps.PromptSpec

/-! Lemmas for C116. -/

namespace Verif.Apps

open Spec

theorem toChar_printable (signed : Bool) (c : Nat) (h : 0x20 ≤ c ∧ c ≤ 0x7e) :
    (In.byte (Fin.ofNat 256 c)).toChar signed = c := by
  have : (Fin.ofNat 256 c).val = c := by simp [Fin.ofNat]; omega
  simp only [In.toChar, this]
  rw [if_neg (by omega)]

/-- The loop never does anything undefined. -/
theorem loop_safe (signed : Bool) (size : Nat) (hs : 0 < size) (input : List In) (buffer : Cells) (i : Nat)
    (hb : buffer.length = size) (hi : i + input.length < 2 ^ 31) :
    promptLoop signed ((size : Int) - 1) buffer i input ≠ .ub := by
  induction input generalizing buffer i with
  | nil => simp [promptLoop]
  | cons x xs ih =>
    simp only [List.length_cons] at hi
    unfold promptLoop
    simp only
    split
    · simp
    split
    · rw [if_pos]
      · simp
      · split <;> omega
    rw [if_neg (by omega), if_neg (by omega)]
    apply ih
    · split <;> simp [hb]
    · omega

/-- What is in the buffer after some printable characters: they are at its beginning. -/
theorem loop_line (signed : Bool) (size : Nat) (hs : 0 < size) (line : List Nat) (hp : Printable line) (rest : List In)
    (buffer : Cells) (i : Nat) (hb : buffer.length = size) (hi : i + line.length < 2 ^ 31) :
    promptLoop signed ((size : Int) - 1) buffer i (typed line ++ rest) =
      .done (decide (i + line.length ≤ size - 1))
        ((buffer.take i ++ ((line.map some).take (size - 1 - i)) ++ buffer.drop (i + min line.length (size - 1 - i))).set
          (min (i + line.length) (size - 1)) (some 0)) rest := by
  induction line generalizing buffer i with
  | nil =>
    simp only [typed, List.map_nil, List.nil_append, List.cons_append, promptLoop]
    have hc : (In.byte 10).toChar signed = 10 := by
      simp only [In.toChar]; rw [if_neg]; · rfl
      · simp; intro _; decide
    rw [hc, if_neg (by decide), if_pos (.inl rfl)]
    simp only [List.length_nil, Nat.add_zero, List.take_nil, List.append_nil, Nat.zero_min, List.take_append_drop]
    by_cases h : (i : Int) < (size : Int) - 1
    · rw [if_pos h, if_pos (by omega)]
      congr 1
      · congr 1; apply propext; omega
      · rw [show ((i : Int).toNat) = i from rfl, show min i (size - 1) = i from by omega]
    · rw [if_neg h, if_pos (by omega)]
      congr 1
      · congr 1; apply propext; omega
      · rw [show ((size : Int) - 1).toNat = size - 1 from by omega, show min i (size - 1) = size - 1 from by omega]
  | cons c line ih =>
    have hc := hp c (by simp)
    simp only [typed, List.map_cons, List.cons_append, promptLoop]
    rw [toChar_printable signed c hc, if_neg (by omega), if_neg (by omega)]
    have hpr : isPrintable (c : Int) = true := by
      simp only [isPrintable, Bool.and_eq_true, decide_eq_true_eq]; omega
    simp only [List.length_cons] at hi
    rw [if_neg (by omega), if_neg (by omega)]
    have hrest : List.map (fun c => In.byte (Fin.ofNat 256 c)) line ++ [In.byte 10] ++ rest = typed line ++ rest := rfl
    rw [hrest]
    simp only [hpr, and_true]
    rw [ih (fun x hx => hp x (by simp [hx])) _ _ (by split <;> simp [hb]) (by omega)]
    have hcond : (i + 1 + line.length ≤ size - 1) = (i + (c :: line).length ≤ size - 1) := by
      simp only [List.length_cons]; apply propext; omega
    simp only [hcond]
    congr 1
    rw [show min (i + 1 + line.length) (size - 1) = min (i + (c :: line).length) (size - 1) from by
      simp only [List.length_cons]; congr 1; omega]
    congr 1
    by_cases h : (i : Int) < (size : Int) - 1
    · rw [if_pos h]
      obtain ⟨m, hm⟩ : ∃ m, size - 1 - i = m + 1 := ⟨size - 1 - i - 1, by omega⟩
      rw [show size - 1 - (i + 1) = m from by omega, hm]
      simp only [List.map_cons, List.take_succ_cons, Int.toNat_natCast, List.length_cons]
      have h1 : (buffer.set i (some c)).take (i + 1) = buffer.take i ++ [some c] := by
        rw [List.take_add_one, List.take_set_of_le (Nat.le_refl _)]
        simp [List.getElem?_set, hb]
        omega
      have h2 : (buffer.set i (some c)).drop (i + 1 + min line.length m) = buffer.drop (i + min (line.length + 1) (m + 1)) := by
        rw [List.drop_set_of_lt (by omega)]
        congr 1; omega
      rw [h1, h2]
      simp
    · rw [if_neg h]
      have : size - 1 - i = 0 := by omega
      have h' : size - 1 - (i + 1) = 0 := by omega
      rw [this, h']
      simp

theorem readString_line (line : List Nat) (hp : Printable line) (tail : Cells) :
    readString (line.map some ++ some 0 :: tail) = some line := by
  induction line with
  | nil => rfl
  | cons c line ih =>
    have hc := hp c (by simp)
    obtain ⟨k, rfl⟩ : ∃ k, c = k + 1 := ⟨c - 1, by omega⟩
    simp only [List.map_cons, List.cons_append, readString, ih (fun x hx => hp x (by simp [hx])), Option.map_some]

theorem printable_take {line : List Nat} (hp : Printable line) (k : Nat) : Printable (line.take k) :=
  fun c hc => hp c (List.mem_of_mem_take hc)

/-- `prompt` on a printable line. -/
theorem prompt_line (signed : Bool) (buffer : Cells) (hs : 0 < buffer.length) (line : List Nat) (hp : Printable line)
    (hl : line.length < 2 ^ 31) (rest : List In) :
    ∃ buffer', prompt signed buffer (typed line ++ rest) = .done (decide (line.length < buffer.length)) buffer' rest ∧
      buffer'.length = buffer.length ∧ readString buffer' = some (line.take (buffer.length - 1)) := by
  refine ⟨(line.take (buffer.length - 1)).map some ++ some 0 :: buffer.drop (min line.length (buffer.length - 1) + 1),
    ?_, ?_, ?_⟩
  · unfold prompt
    rw [loop_line signed buffer.length hs line hp rest buffer 0 rfl (by omega)]
    simp only [List.take_zero, List.nil_append, Nat.sub_zero, Nat.zero_add, ← List.map_take]
    have hd : decide (line.length ≤ buffer.length - 1) = decide (line.length < buffer.length) := by
      apply decide_eq_decide.mpr; omega
    rw [hd]
    congr 1
    rw [List.set_append_right _ _ (by simp; omega)]
    congr 1
    have hlen : min line.length (buffer.length - 1) < buffer.length := by omega
    simp only [List.length_map, List.length_take]
    rw [Nat.min_comm (buffer.length - 1), Nat.sub_self]
    rw [List.drop_eq_getElem_cons hlen]
    rfl
  · simp; omega
  · exact readString_line _ (printable_take hp _) _

/-- A loop which gets any line without an end of input in it. -/
theorem loop_any (signed : Bool) (size : Nat) (hs : 0 < size) (line : List (Fin 256)) (rest : List In)
    (hl : ∀ b ∈ line, b ≠ 0 ∧ b ≠ 10 ∧ (signed = true → b ≠ 255)) (buffer : Cells) (i : Nat) (hb : buffer.length = size)
    (hi : i + line.length < 2 ^ 31) :
    ∃ buffer', promptLoop signed ((size : Int) - 1) buffer i (line.map In.byte ++ .byte 10 :: rest) =
        .done (decide (i + line.length < size)) buffer' rest ∧ buffer'.length = size ∧ some 0 ∈ buffer' := by
  induction line generalizing buffer i with
  | nil =>
    simp only [List.map_nil, List.nil_append, promptLoop]
    have hc : (In.byte 10).toChar signed = 10 := by
      simp only [In.toChar]; rw [if_neg]; · rfl
      · simp; intro _; decide
    rw [hc, if_neg (by decide), if_pos (.inl rfl)]
    refine ⟨buffer.set (if (i : Int) < (size : Int) - 1 then (i : Int) else (size : Int) - 1).toNat (some 0), ?_, by simp [hb], ?_⟩
    · rw [if_pos (by split <;> omega)]
      congr 1
      apply decide_eq_decide.mpr
      simp only [List.length_nil]; omega
    · apply List.mem_set
      split <;> omega
  | cons b line ih =>
    obtain ⟨h0, h10, h255⟩ := hl b (by simp)
    simp only [List.map_cons, List.cons_append, promptLoop]
    simp only [List.length_cons] at hi
    have hv0 : b.val ≠ 0 := fun h => h0 (Fin.ext h)
    have hv10 : b.val ≠ 10 := fun h => h10 (Fin.ext h)
    have hv255 : signed = true → b.val ≠ 255 := fun hs h => h255 hs (Fin.ext h)
    have hlt := b.isLt
    have hc0 : (In.byte b).toChar signed ≠ 0 := by
      simp only [In.toChar]; split <;> omega
    have hc10 : ¬ ((In.byte b).toChar signed = 10 ∨ (In.byte b).toChar signed = -1) := by
      simp only [In.toChar]
      split
      · next h => have := hv255 h.1; omega
      · omega
    rw [if_neg hc0, if_neg hc10, if_neg (by omega), if_neg (by omega)]
    obtain ⟨buffer', h1, h2, h3⟩ := ih (fun x hx => hl x (by simp [hx]))
      (if (i : Int) < (size : Int) - 1 ∧ isPrintable ((In.byte b).toChar signed) = true then
        buffer.set i (some ((In.byte b).toChar signed).toNat) else buffer) (i + 1) (by split <;> simp [hb]) (by omega)
    refine ⟨buffer', ?_, h2, h3⟩
    rw [h1]
    congr 1
    apply decide_eq_decide.mpr
    simp only [List.length_cons]; omega

theorem sameText_aux (line t : List Nat) (ht : ∀ c ∈ t, 97 ≤ c ∧ c ≤ 122) :
    (line.length = t.length ∧ ∀ p ∈ line.zip t, p.1 = p.2 ∨ (97 ≤ p.2 ∧ p.2 ≤ 122 ∧ p.1 + 32 = p.2)) ↔ line.map lower = t := by
  induction line generalizing t with
  | nil => cases t <;> simp
  | cons c line ih =>
    cases t with
    | nil => simp
    | cons x t =>
      have hx := ht x (by simp)
      have := ih t (fun c hc => ht c (by simp [hc]))
      simp only [List.length_cons, List.zip_cons_cons, List.mem_cons, List.map_cons, List.cons.injEq, Nat.add_right_cancel_iff]
      rw [← this]
      have hcx : (c = x ∨ (97 ≤ x ∧ x ≤ 122 ∧ c + 32 = x)) ↔ lower c = x := by
        unfold lower; split <;> omega
      rw [← hcx]
      constructor
      · rintro ⟨h1, h2⟩
        exact ⟨h2 (c, x) (.inl rfl), h1, fun p hp => h2 p (.inr hp)⟩
      · rintro ⟨h0, h1, h2⟩
        refine ⟨h1, ?_⟩
        rintro p (rfl | hp)
        · exact h0
        · exact h2 p hp

theorem sameText_iff (line : List Nat) (s : String) (h : ∀ c ∈ codes s, 97 ≤ c ∧ c ≤ 122) :
    SameText line s ↔ line.map lower = codes s := by
  rw [← sameText_aux line (codes s) h]
  simp [SameText, codes]

theorem yesOrNo_iff (line : List Nat) (b : Bool) : yesOrNo (line.map lower) = some b ↔ Means line b := by
  have hy := sameText_iff line "y" (by decide)
  have hyes := sameText_iff line "yes" (by decide)
  have hn := sameText_iff line "n" (by decide)
  have hno := sameText_iff line "no" (by decide)
  have cy : codes "y" = [121] := by decide
  have cyes : codes "yes" = [121, 101, 115] := by decide
  have cn : codes "n" = [110] := by decide
  have cno : codes "no" = [110, 111] := by decide
  rw [cy] at hy; rw [cyes] at hyes; rw [cn] at hn; rw [cno] at hno
  unfold yesOrNo
  cases b
  · simp only [Means, hn, hno]
    split
    · next h =>
      simp only [Option.some.injEq, Bool.true_eq_false, false_iff]
      rintro (h' | h') <;> rw [h'] at h <;> exact absurd h (by decide)
    · split <;> simp_all
  · simp only [Means, hy, hyes]
    split
    · simp_all
    · split <;> simp_all

theorem means_length {line : List Nat} {b : Bool} (h : Means line b) : 0 < line.length ∧ line.length < 4 := by
  cases b <;> rcases h with h | h <;> have := h.1 <;> simp at this <;> omega

/-- A line which is no answer is asked again. -/
theorem yesNo_skip (signed : Bool) (d : Option Bool) (k : Nat) (line : List Nat) (hp : Printable line)
    (hl : line.length < 2 ^ 31) (hr : ∀ b, ¬ Means line b) (hd : d.isSome = true → line ≠ []) (rest : List In) :
    yesNoLoop signed d (k + 1) (typed line ++ rest) = yesNoLoop signed d k rest := by
  obtain ⟨buffer', h1, h2, h3⟩ := prompt_line signed (List.replicate 4 none) (by simp) line hp hl rest
  rw [yesNoLoop, h1]
  by_cases h : line.length < 4
  · simp only [List.length_replicate, h, decide_true, h3]
    rw [List.take_of_length_le (by simp; omega)]
    have hy : yesOrNo (line.map lower) = none := by
      cases hh : yesOrNo (line.map lower) with
      | none => rfl
      | some b => exact absurd ((yesOrNo_iff line b).mp hh) (hr b)
    cases line with
    | nil =>
      cases d with
      | none => simp only [hy]
      | some d => exact absurd rfl (hd rfl)
    | cons c line => simp only [hy]
  · simp [h]

theorem yesNo_take (signed : Bool) (d : Option Bool) (k : Nat) (line : List Nat) (hp : Printable line) (b : Bool)
    (hm : Means line b) (rest : List In) :
    yesNoLoop signed d (k + 1) (typed line ++ rest) = .answer b rest := by
  have hl := means_length hm
  obtain ⟨buffer', h1, h2, h3⟩ := prompt_line signed (List.replicate 4 none) (by simp) line hp (by omega) rest
  rw [yesNoLoop, h1]
  simp only [List.length_replicate, hl.2, decide_true, h3]
  rw [List.take_of_length_le (by simp; omega)]
  have hy := (yesOrNo_iff line b).mpr hm
  cases line with
  | nil => simp at hl
  | cons c line => simp only [hy]

theorem typed_pos (line : List Nat) : 1 ≤ (typed line).length := by simp [typed]

theorem typedAll_length (lines : List (List Nat)) : lines.length ≤ (typedAll lines).length := by
  induction lines with
  | nil => simp
  | cons l lines ih =>
    have := typed_pos l
    simp only [typedAll, List.flatMap_cons, List.length_append, List.length_cons] at ih ⊢
    omega

theorem yesNo_lines (signed : Bool) (d : Option Bool) (k : Nat) (lines : List (List Nat))
    (h : ∀ line ∈ lines, Printable line ∧ line.length < 2 ^ 31 ∧ (∀ b, ¬ Means line b) ∧ (d.isSome = true → line ≠ []))
    (rest : List In) :
    yesNoLoop signed d (lines.length + k) (typedAll lines ++ rest) = yesNoLoop signed d k rest := by
  induction lines with
  | nil => simp [typedAll]
  | cons l lines ih =>
    obtain ⟨h1, h2, h3, h4⟩ := h l (by simp)
    rw [show (l :: lines).length + k = (lines.length + k) + 1 by simp; omega]
    rw [show typedAll (l :: lines) ++ rest = typed l ++ (typedAll lines ++ rest) by simp [typedAll]]
    rw [yesNo_skip signed d _ l h1 h2 h3 h4, ih (fun x hx => h x (by simp [hx]))]

theorem number_iff (line : List Nat) (longMax max : Nat) (hm : max < longMax) (hne : line ≠ []) :
    (isNumerical line = true ∧ strtol longMax line ≤ max) ↔ ∃ n, Number line n ∧ n ≤ max := by
  simp only [isNumerical, List.all_eq_true, Bool.and_eq_true, decide_eq_true_eq, strtol, Number]
  constructor
  · rintro ⟨h1, h2⟩
    exact ⟨_, ⟨hne, h1, rfl⟩, by omega⟩
  · rintro ⟨n, ⟨_, h1, rfl⟩, h2⟩
    exact ⟨h1, by omega⟩

theorem number_value (line : List Nat) (longMax max n : Nat) (hm : max < longMax) (hn : Number line n) (h : n ≤ max) :
    strtol longMax line = n := by
  obtain ⟨_, _, rfl⟩ := hn
  unfold strtol; omega

theorem uint16_skip (signed : Bool) (longMax max : Nat) (hm : max < longMax) (d : Option Nat) (k : Nat) (line : List Nat)
    (hp : Printable line) (hl : line.length < 2 ^ 31) (hr : ¬ ∃ n, Number line n ∧ n ≤ max ∧ line.length < 16)
    (hd : d.isSome = true → line ≠ []) (rest : List In) :
    uint16Loop signed longMax max d (k + 1) (typed line ++ rest) = uint16Loop signed longMax max d k rest := by
  obtain ⟨buffer', h1, h2, h3⟩ := prompt_line signed (List.replicate 16 (some 0)) (by simp) line hp hl rest
  rw [uint16Loop, h1]
  by_cases h : line.length < 16
  · simp only [List.length_replicate, h, decide_true, h3]
    rw [List.take_of_length_le (by simp; omega)]
    cases line with
    | nil =>
      cases d with
      | none => rfl
      | some d => exact absurd rfl (hd rfl)
    | cons c line =>
      simp only
      rw [if_neg]
      intro hc
      obtain ⟨n, hn, hle⟩ := (number_iff (c :: line) longMax max hm (by simp)).mp hc
      exact hr ⟨n, hn, hle, h⟩
  · simp [h]

theorem uint16_take (signed : Bool) (longMax max : Nat) (hm : max < longMax) (d : Option Nat) (k : Nat) (line : List Nat)
    (hp : Printable line) (n : Nat) (hn : Number line n) (hle : n ≤ max) (hl : line.length < 16) (rest : List In) :
    uint16Loop signed longMax max d (k + 1) (typed line ++ rest) = .answer n rest := by
  obtain ⟨buffer', h1, h2, h3⟩ := prompt_line signed (List.replicate 16 (some 0)) (by simp) line hp (by omega) rest
  rw [uint16Loop, h1]
  simp only [List.length_replicate, hl, decide_true, h3]
  rw [List.take_of_length_le (by simp; omega)]
  have hv := number_value line longMax max n hm hn hle
  have hi := (number_iff line longMax max hm hn.1).mpr ⟨n, hn, hle⟩
  cases line with
  | nil => exact absurd rfl hn.1
  | cons c line => simp only; rw [if_pos hi, hv]

theorem uint16_lines (signed : Bool) (longMax max : Nat) (hm : max < longMax) (d : Option Nat) (k : Nat)
    (lines : List (List Nat))
    (h : ∀ line ∈ lines, Printable line ∧ line.length < 2 ^ 31 ∧ (¬ ∃ n, Number line n ∧ n ≤ max ∧ line.length < 16) ∧
      (d.isSome = true → line ≠ [])) (rest : List In) :
    uint16Loop signed longMax max d (lines.length + k) (typedAll lines ++ rest) = uint16Loop signed longMax max d k rest := by
  induction lines with
  | nil => simp [typedAll]
  | cons l lines ih =>
    obtain ⟨h1, h2, h3, h4⟩ := h l (by simp)
    rw [show (l :: lines).length + k = (lines.length + k) + 1 by simp; omega]
    rw [show typedAll (l :: lines) ++ rest = typed l ++ (typedAll lines ++ rest) by simp [typedAll]]
    rw [uint16_skip signed longMax max hm d _ l h1 h2 h3 h4, ih (fun x hx => h x (by simp [hx]))]

/-- On a platform whose `char` has a sign the end of the input looks like an empty line. -/
theorem prompt_eof_signed (c : Option Nat) (buffer : Cells) (rest : List In) :
    prompt true (c :: buffer) (.eof :: rest) = .done true (some 0 :: buffer) rest := by
  have h : (0 : Int) ≤ (buffer.length : Int) := by omega
  unfold prompt promptLoop
  simp only [In.toChar, List.length_cons, if_true]
  rw [if_neg (by decide), if_pos (.inr trivial)]
  have hp : (if ((0 : Nat) : Int) < ((buffer.length + 1 : Nat) : Int) - 1 then ((0 : Nat) : Int) else ((buffer.length + 1 : Nat) : Int) - 1) = 0 := by
    split <;> omega
  rw [hp, if_pos (by omega)]
  congr 1
  apply decide_eq_true; omega

/-- On a platform whose `char` has no sign the end of the input is not noticed. -/
theorem loop_eof_unsigned (n : Int) (buffer : Cells) (i k : Nat) (hi : i < 2 ^ 31) :
    promptLoop false n buffer i (List.replicate k .eof) = if i + k < 2 ^ 31 then .waiting else .ub := by
  induction k generalizing i with
  | zero => simp [promptLoop, hi]
  | succ k ih =>
    have hpr : isPrintable 255 = false := by decide
    have hc : In.eof.toChar false = 255 := rfl
    simp only [List.replicate_succ, promptLoop, hc]
    rw [if_neg (by decide), if_neg (by decide)]
    simp only [Bool.false_eq_true, if_false, hpr, and_false, false_and]
    by_cases h : i + 1 = 2 ^ 31
    · rw [if_pos h, if_neg (by omega)]
    · rw [if_neg h, ih (i + 1) (by omega)]
      by_cases h' : i + 1 + k < 2 ^ 31
      · rw [if_pos h', if_pos (by omega)]
      · rw [if_neg h', if_neg (by omega)]

theorem yesNo_eof (fuel k : Nat) : yesNoLoop true none fuel (List.replicate k .eof) = .waiting := by
  induction fuel generalizing k with
  | zero => rfl
  | succ fuel ih =>
    cases k with
    | zero => simp [yesNoLoop, prompt, promptLoop]
    | succ k =>
      rw [yesNoLoop, show List.replicate (k + 1) In.eof = .eof :: List.replicate k .eof from rfl,
        show List.replicate 4 (none : Option Nat) = none :: List.replicate 3 none from rfl, prompt_eof_signed]
      simp only [readString]
      exact ih k

theorem uint16_eof (longMax max fuel k : Nat) : uint16Loop true longMax max none fuel (List.replicate k .eof) = .waiting := by
  induction fuel generalizing k with
  | zero => rfl
  | succ fuel ih =>
    cases k with
    | zero => simp [uint16Loop, prompt, promptLoop]
    | succ k =>
      rw [uint16Loop, show List.replicate (k + 1) In.eof = .eof :: List.replicate k .eof from rfl,
        show List.replicate 16 (some 0) = some 0 :: List.replicate 15 (some 0) from rfl, prompt_eof_signed]
      simp only [readString]
      exact ih k

theorem repeating_eof (c : Option Nat) (buffer : Cells) (fuel k : Nat) :
    repeatingLoop true (c :: buffer) fuel (List.replicate k .eof) = .waiting := by
  induction fuel generalizing k c with
  | zero => rfl
  | succ fuel ih =>
    cases k with
    | zero => simp [repeatingLoop, prompt, promptLoop]
    | succ k =>
      rw [repeatingLoop, List.replicate_succ, prompt_eof_signed]
      exact ih (some 0) k

theorem askServiceId_line (signed : Bool) (line : List Nat) (hp : Printable line) (h0 : line ≠ []) (hl : line.length < 2 ^ 31)
    (rest : List In) : askServiceId signed (typed line ++ rest) = .answer (line.take 19) rest := by
  obtain ⟨buffer', h1, h2, h3⟩ := prompt_line signed (List.replicate 20 (some 0)) (by simp) line hp hl rest
  unfold askServiceId promptRepeating repeatingLoop
  rw [h1]
  simp only [List.length_replicate, Nat.add_one_sub_one] at h3
  have h3' : readString buffer' = some (line.take 19) := h3
  cases line with
  | nil => exact absurd rfl h0
  | cons c line =>
    have hc := hp c (by simp)
    match buffer', h3' with
    | [], h => simp [readString] at h
    | none :: _, h => simp [readString] at h
    | some 0 :: _, h => simp [readString] at h
    | some (m + 1) :: cs, h => simp only [h]

end Verif.Apps
