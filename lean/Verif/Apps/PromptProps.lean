import Verif.Apps.PromptLemmas

/-!
# C116 — what is typed is what is stored
-/

namespace Verif.Apps

open Spec

/-- Any input of less than 2^31 keys, whatever they are, into a buffer of any size but zero: nothing outside of the buffer is
touched. -/
theorem C116_memory_safe (signed : Bool) (buffer : Cells) (hs : 0 < buffer.length) (input : List In)
    (hl : input.length < 2 ^ 31) : prompt signed buffer input ≠ .ub :=
  loop_safe signed buffer.length hs input buffer 0 rfl (by omega)

/-- A printable line is stored as typed, cut to what fits, and the result says whether it was cut. Exactly this line is read.
-/
theorem C116_line (signed : Bool) (buffer : Cells) (hs : 0 < buffer.length) (line : List Nat) (hp : Printable line)
    (hl : line.length < 2 ^ 31) (rest : List In) :
    ∃ buffer', prompt signed buffer (typed line ++ rest) = .done (decide (line.length < buffer.length)) buffer' rest ∧
      buffer'.length = buffer.length ∧ readString buffer' = some (line.take (buffer.length - 1)) :=
  prompt_line signed buffer hs line hp hl rest

/-- A line of any bytes but NUL, and 255 where `char` has a sign: exactly this line is read, and there is a NUL in the buffer
afterwards. What is missing: the string is the line only if the line is printable (`C116_line`,
`C116_unprintable_violated`), and NUL is not handled (`C116_nul_violated`). -/
theorem C116_reads_one_line_partial (signed : Bool) (buffer : Cells) (hs : 0 < buffer.length) (line : List (Fin 256))
    (hl : ∀ b ∈ line, b ≠ 0 ∧ b ≠ 10 ∧ (signed = true → b ≠ 255)) (hn : line.length < 2 ^ 31) (rest : List In) :
    ∃ buffer', prompt signed buffer (line.map In.byte ++ .byte 10 :: rest) =
        .done (decide (line.length < buffer.length)) buffer' rest ∧ buffer'.length = buffer.length ∧ some 0 ∈ buffer' := by
  have := loop_any signed buffer.length hs line rest hl buffer 0 rfl (by omega)
  simpa [prompt] using this

/-- Yes or no: whatever printable lines come first, the answer is the first line which is `y`, `yes`, `n` or `no` in upper or
lower case. -/
theorem C116_yes_no (signed : Bool) (lines : List (List Nat)) (line : List Nat) (b : Bool) (rest : List In)
    (h : ∀ l ∈ lines, Printable l ∧ l.length < 2 ^ 31 ∧ ∀ b, ¬ Means l b) (hp : Printable line) (hm : Means line b) :
    promptYesNo signed (typedAll lines ++ typed line ++ rest) = .answer b rest := by
  have h1 := typedAll_length lines
  have h2 := typed_pos line
  unfold promptYesNo
  obtain ⟨k, hk⟩ : ∃ k, (typedAll lines ++ typed line ++ rest).length + 1 = lines.length + (k + 1) :=
    ⟨(typedAll lines ++ typed line ++ rest).length - lines.length, by simp only [List.length_append]; omega⟩
  rw [hk, List.append_assoc, yesNo_lines signed none (k + 1) lines
    (fun l hl => ⟨(h l hl).1, (h l hl).2.1, (h l hl).2.2, by simp⟩)]
  exact yesNo_take signed none k line hp b hm rest

/-- With a default, an empty line is the default, and otherwise the same holds. -/
theorem C116_yes_no_default (signed d : Bool) (lines : List (List Nat)) (line : List Nat) (b : Bool) (rest : List In)
    (h : ∀ l ∈ lines, Printable l ∧ l.length < 2 ^ 31 ∧ (∀ b, ¬ Means l b) ∧ l ≠ []) (hp : Printable line)
    (hm : Means line b ∨ (line = [] ∧ b = d)) :
    promptYesNoDefault signed d (typedAll lines ++ typed line ++ rest) = .answer b rest := by
  have h1 := typedAll_length lines
  have h2 := typed_pos line
  unfold promptYesNoDefault
  obtain ⟨k, hk⟩ : ∃ k, (typedAll lines ++ typed line ++ rest).length + 1 = lines.length + (k + 1) :=
    ⟨(typedAll lines ++ typed line ++ rest).length - lines.length, by simp only [List.length_append]; omega⟩
  rw [hk, List.append_assoc, yesNo_lines signed (some d) (k + 1) lines
    (fun l hl => ⟨(h l hl).1, (h l hl).2.1, (h l hl).2.2.1, fun _ => (h l hl).2.2.2⟩)]
  rcases hm with hm | ⟨rfl, rfl⟩
  · exact yesNo_take signed (some d) k line hp b hm rest
  · obtain ⟨buffer', g1, g2, g3⟩ := prompt_line signed (List.replicate 4 none) (by simp) [] (by simp [Printable]) (by simp) rest
    rw [yesNoLoop, g1]
    simp only [List.length_replicate, List.length_nil, Nat.zero_lt_succ, decide_true, g3, List.take_nil]

/-- A number: whatever printable lines come first, the answer is the first line which is a decimal number of at most 15 digits
not above the maximum. In particular the answer is never above the maximum. -/
theorem C116_number (signed : Bool) (longMax max : Nat) (hm : max < longMax) (lines : List (List Nat)) (line : List Nat)
    (n : Nat) (rest : List In)
    (h : ∀ l ∈ lines, Printable l ∧ l.length < 2 ^ 31 ∧ ¬ ∃ n, Number l n ∧ n ≤ max ∧ l.length < 16) (hp : Printable line)
    (hn : Number line n) (hle : n ≤ max) (hl : line.length < 16) :
    promptUint16 signed longMax max (typedAll lines ++ typed line ++ rest) = .answer n rest := by
  have h1 := typedAll_length lines
  have h2 := typed_pos line
  unfold promptUint16
  obtain ⟨k, hk⟩ : ∃ k, (typedAll lines ++ typed line ++ rest).length + 1 = lines.length + (k + 1) :=
    ⟨(typedAll lines ++ typed line ++ rest).length - lines.length, by simp only [List.length_append]; omega⟩
  rw [hk, List.append_assoc, uint16_lines signed longMax max hm none (k + 1) lines
    (fun l hl => ⟨(h l hl).1, (h l hl).2.1, (h l hl).2.2, by simp⟩)]
  exact uint16_take signed longMax max hm none k line hp n hn hle hl rest

/-- With a default, an empty line is the default, and otherwise the same holds. -/
theorem C116_number_default (signed : Bool) (longMax max d : Nat) (hm : max < longMax) (lines : List (List Nat))
    (line : List Nat) (n : Nat) (rest : List In)
    (h : ∀ l ∈ lines, Printable l ∧ l.length < 2 ^ 31 ∧ (¬ ∃ n, Number l n ∧ n ≤ max ∧ l.length < 16) ∧ l ≠ [])
    (hp : Printable line) (hn : (Number line n ∧ n ≤ max ∧ line.length < 16) ∨ (line = [] ∧ n = d)) :
    promptUint16Default signed longMax max d (typedAll lines ++ typed line ++ rest) = .answer n rest := by
  have h1 := typedAll_length lines
  have h2 := typed_pos line
  unfold promptUint16Default
  obtain ⟨k, hk⟩ : ∃ k, (typedAll lines ++ typed line ++ rest).length + 1 = lines.length + (k + 1) :=
    ⟨(typedAll lines ++ typed line ++ rest).length - lines.length, by simp only [List.length_append]; omega⟩
  rw [hk, List.append_assoc, uint16_lines signed longMax max hm (some d) (k + 1) lines
    (fun l hl => ⟨(h l hl).1, (h l hl).2.1, (h l hl).2.2.1, fun _ => (h l hl).2.2.2⟩)]
  rcases hn with ⟨hn, hle, hl⟩ | ⟨rfl, rfl⟩
  · exact uint16_take signed longMax max hm (some d) k line hp n hn hle hl rest
  · obtain ⟨buffer', g1, g2, g3⟩ := prompt_line signed (List.replicate 16 (some 0)) (by simp) [] (by simp [Printable])
      (by simp) rest
    rw [uint16Loop, g1]
    simp only [List.length_replicate, List.length_nil, Nat.zero_lt_succ, decide_true, g3, List.take_nil]

/-- No answer is above the maximum, whatever comes in. -/
theorem C116_number_range (signed : Bool) (longMax max : Nat) (input rest : List In) (n : Nat)
    (h : promptUint16 signed longMax max input = .answer n rest) : n ≤ max := by
  unfold promptUint16 at h
  generalize input.length + 1 = k at h
  induction k generalizing input with
  | zero => simp [uint16Loop] at h
  | succ k ih =>
    rw [uint16Loop] at h
    (repeat' split at h) <;> first
      | (simp at h; done)
      | exact ih _ h
      | (rename_i hc; simp only [Answer.answer.injEq] at h; omega)
      | simp_all

/-- The name of a service is stored as typed if it has at most 19 characters. -/
theorem C116_service_id_partial (signed : Bool) (line : List Nat) (hp : Printable line) (h0 : line ≠ [])
    (hl : line.length < 20) (rest : List In) : askServiceId signed (typed line ++ rest) = .answer line rest := by
  rw [askServiceId_line signed line hp h0 (by omega), List.take_of_length_le (by omega)]

/-- **Violated**: the question allows 20 characters. Of every name of 20 characters or more the first 19 are stored, and
nobody is told. -/
theorem C116_service_id_violated (signed : Bool) (line : List Nat) (hp : Printable line) (h0 : 20 ≤ line.length)
    (hl : line.length < 2 ^ 31) (rest : List In) :
    askServiceId signed (typed line ++ rest) = .answer (line.take 19) rest ∧ line.take 19 ≠ line := by
  refine ⟨askServiceId_line signed line hp (by rintro rfl; simp at h0) hl rest, ?_⟩
  intro h
  have := congrArg List.length h
  simp at this
  omega

/-- **Violated**: at the end of the input (`char` with a sign) the questions are asked forever. -/
theorem C116_end_of_input_violated (longMax max k : Nat) :
    promptYesNo true (List.replicate k .eof) = .waiting ∧
    promptUint16 true longMax max (List.replicate k .eof) = .waiting ∧
    askServiceId true (List.replicate k .eof) = .waiting := by
  refine ⟨?_, ?_, ?_⟩
  · exact yesNo_eof _ k
  · exact uint16_eof longMax max _ k
  · unfold askServiceId promptRepeating
    rw [List.replicate_succ]
    rw [repeating_eof _ _ _ k]

/-- **Violated**: where `char` has no sign the end of the input is not noticed at all: a single question goes on reading until
the position overflows. -/
theorem C116_end_of_input_unsigned_violated (buffer : Cells) (k : Nat) :
    prompt false buffer (List.replicate k .eof) = if k < 2 ^ 31 then .waiting else .ub := by
  have := loop_eof_unsigned ((buffer.length : Int) - 1) buffer 0 k (by decide)
  simpa [prompt] using this

/-- **Violated**: a byte 255 in the line ends it where `char` has a sign; what follows is read as the next line. -/
theorem C116_byte_255_violated :
    promptYesNo true [.byte 121, .byte 255, .byte 110, .byte 111, .byte 10] =
      .answer true [.byte 110, .byte 111, .byte 10] := by decide

/-- **Violated**: a tabulator in a number; what follows it is dropped and the number is taken. -/
theorem C116_unprintable_violated (signed : Bool) (longMax : Nat) (h : 1 ≤ longMax) :
    promptUint16 signed longMax 65535 [.byte 49, .byte 9, .byte 50, .byte 10] = .answer 1 [] := by
  obtain ⟨k, rfl⟩ : ∃ k, longMax = k + 1 := ⟨longMax - 1, by omega⟩
  have hs : strtol (k + 1) [49] = 1 := by simp [strtol]
  have hp : prompt signed (List.replicate 16 (some 0)) [.byte 49, .byte 9, .byte 50, .byte 10] =
      .done true ([some 49, some 0, some 50, some 0] ++ List.replicate 12 (some 0)) [] := by cases signed <;> decide
  have hr : readString ([some 49, some 0, some 50, some 0] ++ List.replicate 12 (some 0)) = some [49] := by decide
  unfold promptUint16
  simp only [List.length_cons, List.length_nil, uint16Loop, hp, hr, hs]
  rw [if_pos ⟨by decide, by decide⟩]

/-- **Violated**: a tabulator in the answer to yes or no makes the program read bytes nobody has written; so do the letters
outside of ASCII in the friendly name of the device. -/
theorem C116_unwritten_violated (signed : Bool) :
    promptYesNo signed [.byte 121, .byte 9, .byte 10] = .ub ∧
    ∃ buffer', prompt signed (List.replicate 64 none) [.byte 195, .byte 165, .byte 10] = .done true buffer' [] ∧
      readString buffer' = none := by
  cases signed
  · exact ⟨by decide, [none, none, some 0] ++ List.replicate 61 none, by decide, by decide⟩
  · exact ⟨by decide, [none, none, some 0] ++ List.replicate 61 none, by decide, by decide⟩

/-- **Violated**: a NUL ends the question without a NUL in the buffer. -/
theorem C116_nul_violated (signed : Bool) (buffer : Cells) (rest : List In) :
    prompt signed buffer (.byte 0 :: rest) = .done false buffer rest := by
  have hc : (In.byte 0).toChar signed = 0 := by cases signed <;> decide
  unfold prompt promptLoop
  simp only [hc, if_true]

/-! ### The hypotheses are met -/

example : Printable (codes "YES") ∧ Means (codes "YES") true ∧ Means (codes "n") false ∧ ¬ Means (codes "yeah") true := by
  refine ⟨by unfold Printable; decide, ?_, ?_, ?_⟩
  · right; unfold SameText; decide
  · left; unfold SameText; decide
  · rintro (h | h) <;> exact absurd h.1 (by decide)

example : promptYesNo true (typedAll [codes "maybe", codes ""] ++ typed (codes "YES") ++ [.eof]) = .answer true [.eof] := by decide

example : Number (codes "8080") 8080 ∧ promptUint16 false (2 ^ 31 - 1) 65535
    (typedAll [codes "abc", codes "65536", codes "99999999999"] ++ typed (codes "8080")) = .answer 8080 [] := by
  refine ⟨⟨by decide, by decide, by decide⟩, by decide⟩

example : askServiceId true (typed (codes "ssh")) = .answer (codes "ssh") [] ∧
    askServiceId true (typed (codes "abcdefghijklmnopqrst")) = .answer (codes "abcdefghijklmnopqrs") [] := by decide

end Verif.Apps
