import Verif.Apps.PasswordSpec
import Mathlib.Data.List.FinRange

/-! Lemmas for C115. -/

namespace Verif.Apps

open Spec

set_option maxRecDepth 20000 in
theorem readable_iff (c : Char) : c ∈ alphabet ↔ Readable c := by
  have small : ∀ n : Fin 128, (Char.ofNat n.val) ∈ alphabet ↔ Readable (Char.ofNat n.val) := by decide
  by_cases h : c.toNat < 128
  · have := small ⟨c.toNat, h⟩
    simpa [Char.ofNat_toNat] using this
  · constructor
    · intro hm
      have hall : ∀ c ∈ alphabet, c.toNat < 128 := by decide
      exact absurd (hall c hm) h
    · rintro ⟨h1, _⟩
      exfalso
      apply h
      simp only [Char.isAlphanum, Char.isAlpha, Char.isUpper, Char.isLower, Char.isDigit, Bool.or_eq_true, Bool.and_eq_true,
        decide_eq_true_eq, UInt32.le_iff_toNat_le, ge_iff_le] at h1
      simp only [Char.toNat]
      simp at h1
      omega

/-- The bytes which choose a character. -/
def accepted (bs : List (Fin 256)) : List Nat := (bs.map Fin.val).filter (· < alphabet.length)

/-- The character a byte chooses. -/
def charOf (i : Nat) : Char := (alphabet[i]?).getD 'a'

theorem cell_of {i : Nat} (h : i < alphabet.length) : alphabetCell i = some (charOf i) := by
  unfold alphabetCell charOf
  rw [List.getElem?_append_left h]
  rw [List.getElem?_eq_getElem h]; rfl

theorem alphabet_nodup : alphabet.Nodup := by decide
theorem alphabet_length : alphabet.length = 47 := by decide

theorem charOf_mem {i : Nat} (h : i < alphabet.length) : charOf i ∈ alphabet := by
  unfold charOf
  rw [List.getElem?_eq_getElem h]
  exact List.getElem_mem h

theorem charOf_inj {i j : Nat} (hi : i < alphabet.length) (hj : j < alphabet.length) (h : charOf i = charOf j) : i = j := by
  unfold charOf at h
  rw [List.getElem?_eq_getElem hi, List.getElem?_eq_getElem hj] at h
  exact (List.Nodup.getElem_inj_iff alphabet_nodup).mp h

/-- The loop on answers without failure. -/
theorem fill_bytes (n : Nat) (bs : List (Fin 256)) (pre : List Char) (m : Nat) (hm : pre.length + m = n) :
    fill n (pre ++ List.replicate (m + 1) '\x00') pre.length (bs.map .byte) =
      if m ≤ (accepted bs).length then .done (pre ++ ((accepted bs).take m).map charOf ++ ['\x00']) else .asking := by
  induction bs generalizing pre m with
  | nil =>
    simp only [List.map_nil, fill, accepted, List.filter_nil, List.length_nil, List.take_nil, Nat.le_zero_eq]
    by_cases h : m = 0
    · subst h; simp [← hm]
    · rw [if_pos (by omega), if_neg h]
  | cons b bs ih =>
    simp only [List.map_cons, fill]
    by_cases h : m = 0
    · subst h
      rw [if_neg (by omega), if_pos (Nat.zero_le _)]
      simp
    rw [if_pos (by omega)]
    by_cases hb : b.val < alphabet.length
    · rw [if_pos hb, cell_of hb]
      simp only
      rw [if_pos (by simp)]
      have hset : (pre ++ List.replicate (m + 1) '\x00').set pre.length (charOf b.val) =
          (pre ++ [charOf b.val]) ++ List.replicate ((m - 1) + 1) '\x00' := by
        rw [List.set_append_right _ _ (Nat.le_refl _)]
        simp only [Nat.sub_self, List.replicate_succ, List.set_cons_zero, List.append_assoc, List.singleton_append]
        obtain ⟨k, rfl⟩ : ∃ k, m = k + 1 := ⟨m - 1, by omega⟩
        simp [List.replicate_succ]
      rw [hset]
      have := ih (pre ++ [charOf b.val]) (m - 1) (by simp; omega)
      simp only [List.length_append, List.length_singleton] at this
      rw [this]
      have hacc : accepted (b :: bs) = b.val :: accepted bs := by
        simp [accepted, hb]
      rw [hacc]
      by_cases hl : m - 1 ≤ (accepted bs).length
      · rw [if_pos hl, if_pos (by simp; omega)]
        obtain ⟨k, rfl⟩ : ∃ k, m = k + 1 := ⟨m - 1, by omega⟩
        simp
      · rw [if_neg hl, if_neg (by simp; omega)]
    · rw [if_neg hb, ih pre m hm]
      have hacc : accepted (b :: bs) = accepted bs := by
        simp [accepted, hb]
      rw [hacc]

theorem random_bytes (n : Nat) (bs : List (Fin 256)) :
    randomPassword true true n (bs.map .byte) =
      if n ≤ (accepted bs).length then .done (((accepted bs).take n).map charOf ++ ['\x00']) else .asking := by
  simp only [randomPassword, Bool.not_true, Bool.false_eq_true, if_false]
  simpa using fill_bytes n bs [] n (by simp)

theorem accepted_lt {bs : List (Fin 256)} {i : Nat} (h : i ∈ accepted bs) : i < alphabet.length := by
  simp only [accepted, List.mem_filter, decide_eq_true_eq] at h
  exact h.2

theorem zero_not_readable : '\x00' ∉ alphabet := by decide

theorem buffer_string {l : List Char} (h : ∀ c ∈ l, c ∈ alphabet) : bufferString (l ++ ['\x00']) = l := by
  unfold bufferString
  have h2 : ∀ x ∈ l, (decide (x ≠ '\x00')) = true := by
    intro x hx
    simp only [decide_eq_true_eq]
    rintro rfl
    exact zero_not_readable (h _ hx)
  rw [List.takeWhile_append_of_pos (by simpa using h2)]
  simp

theorem fill_fail (n : Nat) (ds r : List Draw) (out : List Char) (g : Nat) :
    fill n out g (ds ++ .fail :: r) = match fill n out g ds with | .asking => .null | x => x := by
  induction ds generalizing out g with
  | nil =>
    simp only [List.nil_append, fill]
    by_cases h : g < n <;> simp [h]
  | cons d ds ih =>
    simp only [List.cons_append, fill]
    by_cases h : g < n
    · simp only [h, if_true]
      cases d with
      | fail => rfl
      | byte b =>
        simp only
        by_cases hb : b.val < alphabet.length
        · rw [if_pos hb, if_pos hb, cell_of hb]
          simp only
          by_cases ho : g < out.length
          · rw [if_pos ho, if_pos ho]; exact ih _ _
          · rw [if_neg ho, if_neg ho]
        · rw [if_neg hb, if_neg hb]; exact ih _ _
    · simp [h]

theorem draws_cases (ds : List Draw) : (∃ bs : List (Fin 256), ds = bs.map .byte) ∨ ∃ (bs : List (Fin 256)) (r : List Draw), ds = bs.map .byte ++ .fail :: r := by
  induction ds with
  | nil => exact .inl ⟨[], rfl⟩
  | cons d ds ih =>
    cases d with
    | fail => exact .inr ⟨[], ds, rfl⟩
    | byte b =>
      rcases ih with ⟨bs, rfl⟩ | ⟨bs, r, rfl⟩
      · exact .inl ⟨b :: bs, rfl⟩
      · exact .inr ⟨b :: bs, r, rfl⟩

/-- What `random_password` returns, for all answers. -/
theorem random_draws (n : Nat) (ds : List Draw) :
    (∃ bs : List (Fin 256), ds = bs.map .byte ∧ randomPassword true true n ds = randomPassword true true n (bs.map .byte)) ∨
    ∃ (bs : List (Fin 256)) (r : List Draw), ds = bs.map .byte ++ .fail :: r ∧
      randomPassword true true n ds = match randomPassword true true n (bs.map .byte) with | .asking => .null | x => x := by
  rcases draws_cases ds with ⟨bs, rfl⟩ | ⟨bs, r, rfl⟩
  · exact .inl ⟨bs, rfl, rfl⟩
  · refine .inr ⟨bs, r, rfl, ?_⟩
    simp only [randomPassword, Bool.not_true, Bool.false_eq_true, if_false]
    exact fill_fail _ _ _ _ _

/-! ### Counting -/

/-- The number of sequences of `k` bytes whose first accepted bytes are `is`. -/
def hits (k : Nat) (is : List Nat) : Nat := (byteSeqs k).countP (fun bs => decide ((accepted bs).take is.length = is))

theorem yields_iff (is : List Nat) (his : ∀ i ∈ is, i < alphabet.length) (bs : List (Fin 256)) :
    Yields is.length (is.map charOf) bs ↔ (accepted bs).take is.length = is := by
  unfold Yields
  rw [random_bytes]
  have hchars : ∀ c ∈ ((accepted bs).take is.length).map charOf, c ∈ alphabet := by
    intro c hc
    obtain ⟨i, hi, rfl⟩ := List.mem_map.mp hc
    exact charOf_mem (accepted_lt (List.mem_of_mem_take hi))
  constructor
  · rintro ⟨buffer, h1, h2⟩
    split at h1
    · rename_i hl
      cases h1
      rw [buffer_string hchars] at h2
      have key : ∀ (a b : List Nat), (∀ i ∈ a, i < alphabet.length) → (∀ i ∈ b, i < alphabet.length) →
          a.map charOf = b.map charOf → a = b := by
        intro a
        induction a with
        | nil => intro b _ _ h; cases b with | nil => rfl | cons _ _ => cases h
        | cons x a ih =>
          intro b ha hb h
          cases b with
          | nil => cases h
          | cons y b =>
            simp only [List.map_cons, List.cons.injEq] at h
            rw [charOf_inj (ha x (by simp)) (hb y (by simp)) h.1,
              ih b (fun i hi => ha i (by simp [hi])) (fun i hi => hb i (by simp [hi])) h.2]
      exact key _ _ (fun i hi => accepted_lt (List.mem_of_mem_take hi)) his h2
    · cases h1
  · intro h
    have hl : is.length ≤ (accepted bs).length := by
      have := congrArg List.length h
      simp only [List.length_take] at this
      omega
    rw [if_pos hl]
    refine ⟨_, rfl, ?_⟩
    rw [buffer_string hchars, h]

theorem ways_hits (is : List Nat) (his : ∀ i ∈ is, i < alphabet.length) (k : Nat) :
    ways is.length k (is.map charOf) = hits k is := by
  unfold ways hits
  apply List.countP_congr
  intro bs _
  simp only [decide_eq_true_eq]
  exact yields_iff is his bs

theorem sum_split {α : Type} (l : List α) (P Q : α → Bool) (hPQ : ∀ x, P x = true → Q x = true → False) (A B : Nat) :
    (l.map (fun x => if P x then A else if Q x then B else 0)).sum = l.countP P * A + l.countP Q * B := by
  induction l with
  | nil => simp
  | cons x l ih =>
    simp only [List.map_cons, List.sum_cons, ih, List.countP_cons]
    cases hp : P x <;> cases hq : Q x <;> simp
    · rw [Nat.add_mul, Nat.one_mul]; omega
    · rw [Nat.add_mul, Nat.one_mul]; omega
    · exact (hPQ x hp hq).elim

set_option maxRecDepth 20000 in
theorem rejected_count : (List.finRange 256).countP (fun b => decide (¬ b.val < alphabet.length)) = 209 := by decide

theorem chosen_count (i : Nat) (hi : i < alphabet.length) :
    (List.finRange 256).countP (fun b => decide (b.val = i)) = 1 := by
  have h : i < 256 := by rw [alphabet_length] at hi; omega
  have : (List.finRange 256).countP (fun b => decide (b.val = i)) = (List.finRange 256).count (⟨i, h⟩ : Fin 256) := by
    unfold List.count
    apply List.countP_congr
    intro b _
    simp [Fin.ext_iff]
  rw [this]
  exact List.count_eq_one_of_mem (List.nodup_finRange 256) (List.mem_finRange _)

theorem hits_succ (k i : Nat) (is : List Nat) (hi : i < alphabet.length) :
    hits (k + 1) (i :: is) = 209 * hits k (i :: is) + hits k is := by
  unfold hits
  simp only [byteSeqs]
  rw [List.countP_flatMap]
  have hb : ∀ b : Fin 256, ((fun l => List.countP (fun bs => decide ((accepted bs).take (i :: is).length = i :: is)) l) ∘
      fun b => (byteSeqs k).map (b :: ·)) b =
      if decide (¬ b.val < alphabet.length) then
        (byteSeqs k).countP (fun bs => decide ((accepted bs).take (i :: is).length = i :: is))
      else if decide (b.val = i) then (byteSeqs k).countP (fun bs => decide ((accepted bs).take is.length = is)) else 0 := by
    intro b
    simp only [Function.comp, List.countP_map]
    by_cases hlt : b.val < alphabet.length
    · have hacc : ∀ bs, accepted (b :: bs) = b.val :: accepted bs := by intro bs; simp [accepted, hlt]
      simp only [hlt, not_true, decide_false, Bool.false_eq_true, if_false, List.length_cons]
      by_cases hbi : b.val = i
      · simp [hbi, hacc, Function.comp_def]
      · simp [hbi, hacc, Function.comp_def]
    · have hacc : ∀ bs, accepted (b :: bs) = accepted bs := by intro bs; simp [accepted, hlt]
      simp [hacc, hlt, Function.comp_def]
  rw [List.map_congr_left (fun b _ => hb b)]
  rw [sum_split, rejected_count, chosen_count i hi, Nat.one_mul]
  intro b h1 h2
  simp only [decide_eq_true_eq] at h1 h2
  exact h1 (by rw [h2]; exact hi)

theorem hits_nil (k : Nat) : hits k [] = (byteSeqs k).length := by
  unfold hits
  simp

/-- The number depends on the length only. -/
theorem hits_length (k : Nat) (is js : List Nat) (hi : ∀ i ∈ is, i < alphabet.length) (hj : ∀ i ∈ js, i < alphabet.length)
    (hl : is.length = js.length) : hits k is = hits k js := by
  induction k generalizing is js with
  | zero =>
    cases is with
    | nil => cases js with
      | nil => rfl
      | cons _ _ => cases hl
    | cons i is => cases js with
      | nil => cases hl
      | cons j js => simp [hits, byteSeqs, accepted]
  | succ k ih =>
    cases is with
    | nil => cases js with
      | nil => rfl
      | cons _ _ => cases hl
    | cons i is => cases js with
      | nil => cases hl
      | cons j js =>
        rw [hits_succ _ _ _ (hi i (by simp)), hits_succ _ _ _ (hj j (by simp)), ih (i :: is) (j :: js) hi hj hl,
          ih is js (fun x hx => hi x (by simp [hx])) (fun x hx => hj x (by simp [hx])) (by simpa using hl)]

theorem hits_self (is : List Nat) (hi : ∀ i ∈ is, i < alphabet.length) :
    hits is.length is = 1 ∧ ∀ k, k < is.length → hits k is = 0 := by
  have short : ∀ (k : Nat) (is : List Nat), (∀ i ∈ is, i < alphabet.length) → k < is.length → hits k is = 0 := by
    intro k
    induction k with
    | zero => intro is _ hk; cases is with
      | nil => cases hk
      | cons i is => simp [hits, byteSeqs, accepted]
    | succ k ih =>
      intro is hi hk
      cases is with
      | nil => cases hk
      | cons i is =>
        simp only [List.length_cons] at hk
        rw [hits_succ _ _ _ (hi i (by simp)), ih (i :: is) hi (by simp; omega),
          ih is (fun x hx => hi x (by simp [hx])) (by omega)]
  refine ⟨?_, fun k hk => short k is hi hk⟩
  induction is with
  | nil => simp [hits, byteSeqs]
  | cons i is ih =>
    rw [List.length_cons, hits_succ _ _ _ (hi i (by simp)), short _ (i :: is) hi (by simp),
      ih (fun x hx => hi x (by simp [hx]))]

theorem indices (p : List Char) (h : ∀ c ∈ p, c ∈ alphabet) :
    ∃ is : List Nat, is.length = p.length ∧ (∀ i ∈ is, i < alphabet.length) ∧ is.map charOf = p := by
  induction p with
  | nil => exact ⟨[], rfl, by simp, rfl⟩
  | cons c p ih =>
    obtain ⟨is, h1, h2, h3⟩ := ih (fun x hx => h x (by simp [hx]))
    obtain ⟨i, hi, hc⟩ := List.getElem_of_mem (h c (by simp))
    refine ⟨i :: is, by simp [h1], ?_, ?_⟩
    · intro j hj
      rcases List.mem_cons.mp hj with rfl | hj
      · exact hi
      · exact h2 j hj
    · simp only [List.map_cons, h3, List.cons.injEq, and_true]
      unfold charOf
      rw [List.getElem?_eq_getElem hi]
      exact hc

end Verif.Apps
