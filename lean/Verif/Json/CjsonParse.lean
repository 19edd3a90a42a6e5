import Verif.Json.CjsonLemmas

/-!
# cJSON: the parser

Memory safety, consumption of input, independence of the recursion bound, and parsing of printed values.
-/

namespace Verif.Json

/-- No undefined behaviour; after a success the rest is shorter and ends with the terminating zero. -/
def Safe {α} (l : Bytes) (x : R (α × Bytes)) : Prop := x ≠ .ub ∧ ∀ v r, x = .ok (v, r) → End r ∧ r.length < l.length

theorem Safe.fail {α l} : Safe l (.fail : R (α × Bytes)) := by unfold Safe; simp

theorem Safe.ok {α l} {v : α} {r} (h : End r) (hl : r.length < l.length) : Safe l (.ok (v, r)) := by
  unfold Safe
  refine ⟨by simp, ?_⟩
  intro v' r' h'
  cases h'
  exact ⟨h, hl⟩

theorem Safe.map {α β l} {x : R (α × Bytes)} {f : α → β} (h : Safe l x) : Safe l (x.bind (fun y => .ok (f y.1, y.2))) := by
  cases x with
  | fail => exact Safe.fail
  | ub => exact absurd rfl h.1
  | ok y => exact Safe.ok (h.2 y.1 y.2 rfl).1 (h.2 y.1 y.2 rfl).2

theorem Safe.bind {α β l} {x : R (α × Bytes)} {f : α × Bytes → R (β × Bytes)} {m : Bytes} (h : Safe m x) (hm : m.length ≤ l.length)
    (hf : ∀ v r, End r → r.length < l.length → Safe l (f (v, r))) : Safe l (x.bind f) := by
  cases x with
  | fail => exact Safe.fail
  | ub => exact absurd rfl h.1
  | ok y =>
    have := h.2 y.1 y.2 rfl
    exact hf y.1 y.2 this.1 (by omega)

theorem Safe.mono {α l m} {x : R (α × Bytes)} (h : Safe l x) (hl : l.length ≤ m.length) : Safe m x :=
  ⟨h.1, fun v r hv => ⟨(h.2 v r hv).1, Nat.lt_of_lt_of_le (h.2 v r hv).2 hl⟩⟩

theorem parseString_Safe {l} (h : End l) : Safe l (parseString l) := parseString_safe h

theorem starts_drop {p l} (h : starts p l = true) (he : End l) (hp : p ≠ []) (h0 : 0 ∉ p) :
    End (l.drop p.length) ∧ (l.drop p.length).length < l.length := by
  unfold starts at h
  have h1 : l.take p.length = p := by simpa using h
  have h2 : p.length < l.length := by
    by_cases hlt : p.length < l.length
    · exact hlt
    · rw [List.take_of_length_le (by omega)] at h1
      subst h1
      have := List.mem_of_getLast? he
      exact absurd this h0
  refine ⟨he.drop _ h2, ?_⟩
  have : 0 < p.length := List.length_pos_iff.2 hp
  simp
  omega

theorem parseNumber_Safe (S : Strtod) {l} (h : End l) : Safe l (parseNumber S l) := by
  unfold parseNumber
  simp only
  split
  · exact Safe.fail
  · next h0 =>
    have h1 := S.le ((l.take 63).takeWhile isNumber)
    have hlt : (S.run ((l.take 63).takeWhile isNumber)).1 < l.length := by
      have h2 : ((l.take 63).takeWhile isNumber).length < l.length := by
        have h3 := (List.takeWhile_prefix (l := l.take 63) isNumber).trans (List.take_prefix 63 l)
        have h4 := h3.length_le
        by_cases he : ((l.take 63).takeWhile isNumber).length = l.length
        · have h5 : (l.take 63).takeWhile isNumber = l := h3.eq_of_length he
          have h6 : (0 : UInt8) ∈ l := List.mem_of_getLast? h
          rw [← h5] at h6
          have : ∀ x ∈ (l.take 63).takeWhile isNumber, isNumber x = true := by
            have := List.all_takeWhile (p := isNumber) (l := l.take 63)
            exact List.all_eq_true.1 this
          have := this 0 h6
          exact absurd this (by decide)
        · omega
      omega
    exact Safe.ok (h.drop _ hlt) (by simp; omega)

/-! ## Memory safety -/

theorem parse_safe_aux (S : Strtod) (n : Nat) : ∀ d l, End l →
    Safe l (parseValue S n d l) ∧ Safe l (parseArray S n d l) ∧ Safe l (parseElems S n d l) ∧
    Safe l (parseObject S n d l) ∧ Safe l (parseMembers S n d l) := by
  induction n with
  | zero => intro d l _; refine ⟨?_, ?_, ?_, ?_, ?_⟩ <;> simp only [parseValue, parseArray, parseElems, parseObject, parseMembers] <;> exact Safe.fail
  | succ n ih =>
    intro d l h
    refine ⟨?_, ?_, ?_, ?_, ?_⟩
    · unfold parseValue
      split
      · next hs => have := starts_drop hs h (by decide) (by decide); exact Safe.ok this.1 this.2
      split
      · next hs => have := starts_drop hs h (by decide) (by decide); exact Safe.ok this.1 this.2
      split
      · next hs => have := starts_drop hs h (by decide) (by decide); exact Safe.ok this.1 this.2
      cases l with
      | nil => exact Safe.fail
      | cons c r =>
        simp only
        split
        · exact (parseString_Safe h).map
        · split
          · exact (parseNumber_Safe S h).map
          · split
            · next hc =>
              have he := h.tail (by rw [hc]; decide)
              exact (ih d r he).2.1.mono (by simp)
            · split
              · next hc =>
                have he := h.tail (by rw [hc]; decide)
                exact (ih d r he).2.2.2.1.mono (by simp)
              · exact Safe.fail
    · unfold parseArray
      split
      · exact Safe.fail
      · have hs := h.skipWs
        have hl := skipWs_length l
        split
        · exact Safe.fail
        · next c r hc =>
          rw [hc] at hs hl
          split
          · next hc => exact Safe.ok (hs.tail (by rw [hc]; decide)) (by simp only [List.length_cons] at hl; omega)
          · exact ((ih (d + 1) _ hs).2.2.1.mono hl).map
    · unfold parseElems
      refine Safe.bind (ih d _ h.skipWs).1 (skipWs_length l) ?_
      intro v r hr hl
      simp only
      have hs := hr.skipWs
      have hl2 := skipWs_length r
      split
      · exact Safe.fail
      · next c r' hc =>
        rw [hc] at hs hl2
        simp only [List.length_cons] at hl2
        split
        · next hc => exact ((ih d _ (hs.tail (by rw [hc]; decide))).2.2.1.mono (m := l) (by omega)).map (f := fun y => v :: y)
        · split
          · next hc => exact Safe.ok (hs.tail (by rw [hc]; decide)) (by omega)
          · exact Safe.fail
    · unfold parseObject
      split
      · exact Safe.fail
      · have hs := h.skipWs
        have hl := skipWs_length l
        split
        · exact Safe.fail
        · next c r hc =>
          rw [hc] at hs hl
          split
          · next hc => exact Safe.ok (hs.tail (by rw [hc]; decide)) (by simp only [List.length_cons] at hl; omega)
          · exact ((ih (d + 1) _ hs).2.2.2.2.mono hl).map
    · unfold parseMembers
      refine Safe.bind (parseString_Safe h.skipWs) (skipWs_length l) ?_
      intro k r hr hl
      simp only
      have hs := hr.skipWs
      have hl2 := skipWs_length r
      split
      · exact Safe.fail
      · next c r' hc =>
        rw [hc] at hs hl2
        simp only [List.length_cons] at hl2
        split
        · exact Safe.fail
        · next hc =>
          have hc : c = 58 := Classical.byContradiction hc
          have he := hs.tail (by rw [hc]; decide)
          have hl3 := skipWs_length r'
          refine Safe.bind (ih d _ he.skipWs).1 (by omega) ?_
          intro v r2 hr2 hl4
          simp only
          have hs2 := hr2.skipWs
          have hl5 := skipWs_length r2
          split
          · exact Safe.fail
          · next c r3 hc =>
            rw [hc] at hs2 hl5
            simp only [List.length_cons] at hl5
            split
            · next hc => exact ((ih d _ (hs2.tail (by rw [hc]; decide))).2.2.2.2.mono (m := l) (by omega)).map (f := fun y => (k, v) :: y)
            · split
              · next hc => exact Safe.ok (hs2.tail (by rw [hc]; decide)) (by omega)
              · exact Safe.fail

theorem End.snoc (l : Bytes) : End (l ++ [0]) := by simp [End]

theorem skipBom_end (text : Bytes) : End (skipBom (text ++ [0])) := by
  unfold skipBom
  split
  · next h => exact (End.snoc text).drop 3 (by omega)
  · exact End.snoc text

theorem skipBom_length (l : Bytes) : (skipBom l).length ≤ l.length := by
  unfold skipBom; split <;> simp

/-! ## The recursion bound -/

/-- With enough fuel the result does not depend on it. -/
theorem fuel_aux (S : Strtod) (n : Nat) : ∀ m d l, End l →
    (3 * l.length + 1 ≤ n → n ≤ m → parseValue S n d l = parseValue S m d l) ∧
    (3 * l.length + 3 ≤ n → n ≤ m → parseArray S n d l = parseArray S m d l) ∧
    (3 * l.length + 2 ≤ n → n ≤ m → parseElems S n d l = parseElems S m d l) ∧
    (3 * l.length + 3 ≤ n → n ≤ m → parseObject S n d l = parseObject S m d l) ∧
    (3 * l.length + 2 ≤ n → n ≤ m → parseMembers S n d l = parseMembers S m d l) := by
  induction n with
  | zero => intro m d l _; refine ⟨?_, ?_, ?_, ?_, ?_⟩ <;> intro h <;> omega
  | succ n ih =>
    intro m d l h
    cases m with
    | zero => refine ⟨?_, ?_, ?_, ?_, ?_⟩ <;> intro _ h <;> omega
    | succ m =>
    refine ⟨?_, ?_, ?_, ?_, ?_⟩ <;> intro hn hm
    · unfold parseValue
      split; · rfl
      split; · rfl
      split; · rfl
      cases l with
      | nil => rfl
      | cons c r =>
      simp only [List.length_cons] at hn
      simp only
      split; · rfl
      split; · rfl
      split
      · next hc =>
        have he := h.tail (by rw [hc]; decide)
        exact (ih m d r he).2.1 (by omega) (by omega)
      split
      · next hc =>
        have he := h.tail (by rw [hc]; decide)
        exact (ih m d r he).2.2.2.1 (by omega) (by omega)
      · rfl
    · unfold parseArray
      have hs := h.skipWs
      have hl := skipWs_length l
      split; · rfl
      cases hsk : skipWs l with
      | nil => rfl
      | cons c r =>
        rw [hsk] at hs hl
        simp only
        split; · rfl
        rw [(ih m (d + 1) _ hs).2.2.1 (by omega) (by omega)]
    · unfold parseElems
      have hs := h.skipWs
      have hl := skipWs_length l
      rw [(ih m d _ hs).1 (by omega) (by omega)]
      have h1 := ((parse_safe_aux S m d _ hs).1)
      cases hv : parseValue S m d (skipWs l) with
      | fail => rfl
      | ub => rfl
      | ok y =>
        obtain ⟨v, r⟩ := y
        simp only [R.bind]
        obtain ⟨hr, hrl⟩ := h1.2 v r hv
        have hs2 := hr.skipWs
        have hl2 := skipWs_length r
        cases hsk : skipWs r with
        | nil => rfl
        | cons c r' =>
          rw [hsk] at hs2 hl2
          simp only [List.length_cons] at hl2
          simp only
          split
          · next hc => rw [(ih m d r' (hs2.tail (by rw [hc]; decide))).2.2.1 (by omega) (by omega)]
          · rfl
    · unfold parseObject
      have hs := h.skipWs
      have hl := skipWs_length l
      split; · rfl
      cases hsk : skipWs l with
      | nil => rfl
      | cons c r =>
        rw [hsk] at hs hl
        simp only
        split; · rfl
        rw [(ih m (d + 1) _ hs).2.2.2.2 (by omega) (by omega)]
    · unfold parseMembers
      have hs := h.skipWs
      have hl := skipWs_length l
      have h0 := parseString_Safe hs
      cases hk : parseString (skipWs l) with
      | fail => rfl
      | ub => rfl
      | ok y =>
        obtain ⟨k, r⟩ := y
        simp only [R.bind]
        obtain ⟨hr, hrl⟩ := h0.2 k r hk
        have hs1 := hr.skipWs
        have hl1 := skipWs_length r
        cases hsk : skipWs r with
        | nil => rfl
        | cons c r1 =>
          rw [hsk] at hs1 hl1
          simp only [List.length_cons] at hl1
          simp only
          split; · rfl
          next hc =>
          have hc : c = 58 := Classical.byContradiction hc
          have he1 := (hs1.tail (by rw [hc]; decide)).skipWs
          have hl2 := skipWs_length r1
          rw [(ih m d _ he1).1 (by omega) (by omega)]
          have h1 := ((parse_safe_aux S m d _ he1).1)
          cases hv : parseValue S m d (skipWs r1) with
          | fail => rfl
          | ub => rfl
          | ok y =>
            obtain ⟨v, r2⟩ := y
            simp only
            obtain ⟨hr2, hrl2⟩ := h1.2 v r2 hv
            have hs3 := hr2.skipWs
            have hl3 := skipWs_length r2
            cases hsk3 : skipWs r2 with
            | nil => rfl
            | cons c r3 =>
              rw [hsk3] at hs3 hl3
              simp only [List.length_cons] at hl3
              simp only
              split
              · next hc => rw [(ih m d r3 (hs3.tail (by rw [hc]; decide))).2.2.2.2 (by omega) (by omega)]
              · rfl

end Verif.Json
