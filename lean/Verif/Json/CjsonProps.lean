import Verif.Json.CjsonPrint

/-!
# cJSON: properties
-/

namespace Verif.Json

/-! ## A conversion of numbers -/

/-- The value of decimal digits. -/
def decVal (l : Bytes) : Nat := l.foldl (fun a c => a * 10 + (c.toNat - 48)) 0

theorem decVal_digits (n : Nat) : decVal (digits n) = n := by
  have h10 : ∀ n : Fin 10, (48 + UInt8.ofNat n.val).toNat - 48 = n.val := by decide +kernel
  fun_induction digits n with
  | case1 n h =>
    have := h10 ⟨n, h⟩
    simp only at this
    simp only [decVal, List.foldl_cons, List.foldl_nil, this]
    omega
  | case2 n h ih =>
    have := h10 ⟨n % 10, by omega⟩
    simp only at this
    unfold decVal at ih ⊢
    rw [List.foldl_append, ih]
    simp only [List.foldl_cons, List.foldl_nil, this]
    omega

/-- A conversion which reads a sign and digits: a `strtod` for integers. -/
def strtol (cs : Bytes) : Nat × Int :=
  match cs with
  | [] => (0, 0)
  | c :: l => if c = 45 then (cs.length, -(decVal l : Int)) else (cs.length, decVal cs)

/-- There is a conversion with the required behaviour. -/
def someStrtod : Strtod where
  run := strtol
  le cs := by unfold strtol; split <;> (try split) <;> simp
  dec i h1 h2 := by
    unfold printInt
    have hd := decVal_digits i.natAbs
    obtain ⟨_, c, l, hc, h3, h4⟩ := digits_number i.natAbs
    split
    · simp only [strtol, if_true, hd]
      congr 1
      omega
    · rw [hc] at hd ⊢
      have : c ≠ 45 := by
        rintro rfl
        exact absurd h3 (by decide)
      simp only [strtol, if_neg this, hd]
      congr 1
      omega

/-! ## Memory safety (C70) -/

/-- Parsing a text never reads past its terminating zero and never writes past the end of an allocated string. -/
theorem C70_parse_memory_safe (S : Strtod) (text : Bytes) : parse S text ≠ .ub := by
  unfold parse
  have h := (parse_safe_aux S (3 * text.length + 6) 0 _ (skipBom_end text).skipWs).1
  cases hv : parseValue S (3 * text.length + 6) 0 (skipWs (skipBom (text ++ [0]))) with
  | ok x => intro h; cases h
  | fail => intro h; cases h
  | ub => exact absurd hv h.1

/-- The bound on the recursion in the model has no effect: the result is the same with every larger one, so a text is
never rejected because of it. -/
theorem C70_parse_total (S : Strtod) (text : Bytes) (n : Nat) (h : 3 * text.length + 6 ≤ n) :
    (parseValue S n 0 (skipWs (skipBom (text ++ [0])))).bind (fun x => .ok x.1) = parse S text := by
  unfold parse
  have h1 := skipWs_length (skipBom (text ++ [0]))
  have h2 := skipBom_length (text ++ [0])
  simp at h2
  rw [(fuel_aux S (3 * text.length + 6) n 0 _ (skipBom_end text).skipWs).1 (by omega) h]

mutual

/-- How deep a value is nested. -/
def depth : Json Bytes → Nat
  | .arr l => depthElems l + 1
  | .obj l => depthMembers l + 1
  | _ => 0

def depthElems : List (Json Bytes) → Nat
  | [] => 0
  | x :: l => max (depth x) (depthElems l)

def depthMembers : List (Bytes × Json Bytes) → Nat
  | [] => 0
  | (_, x) :: l => max (depth x) (depthMembers l)

end

theorem R.bind_ok {α β} {r : R α} {f : α → R β} {b} (h : r.bind f = .ok b) : ∃ a, r = .ok a ∧ f a = .ok b := by
  cases r with
  | ok a => exact ⟨a, rfl, h⟩
  | fail => cases h
  | ub => cases h

theorem depth_aux (S : Strtod) (n : Nat) : ∀ d l,
    (∀ v r, parseValue S n d l = .ok (v, r) → d ≤ 1000 → d + depth v ≤ 1000) ∧
    (∀ v r, parseArray S n d l = .ok (v, r) → d ≤ 1000 → d + depth v ≤ 1000) ∧
    (∀ v r, parseElems S n d l = .ok (v, r) → d ≤ 1000 → d + depthElems v ≤ 1000) ∧
    (∀ v r, parseObject S n d l = .ok (v, r) → d ≤ 1000 → d + depth v ≤ 1000) ∧
    (∀ v r, parseMembers S n d l = .ok (v, r) → d ≤ 1000 → d + depthMembers v ≤ 1000) := by
  induction n with
  | zero =>
    intro d l
    refine ⟨?_, ?_, ?_, ?_, ?_⟩ <;> intro v r h
    · unfold parseValue at h; cases h
    · unfold parseArray at h; cases h
    · unfold parseElems at h; cases h
    · unfold parseObject at h; cases h
    · unfold parseMembers at h; cases h
  | succ n ih =>
    intro d l
    refine ⟨?_, ?_, ?_, ?_, ?_⟩ <;> intro v r h hd
    · unfold parseValue at h
      split at h; · cases h; simpa [depth] using hd
      split at h; · cases h; simpa [depth] using hd
      split at h; · cases h; simpa [depth] using hd
      cases l with
      | nil => cases h
      | cons c l =>
        simp only at h
        split at h
        · obtain ⟨x, _, h⟩ := R.bind_ok h; cases h; simpa [depth] using hd
        split at h
        · obtain ⟨x, _, h⟩ := R.bind_ok h; cases h; simpa [depth] using hd
        split at h
        · exact (ih d l).2.1 v r h hd
        split at h
        · exact (ih d l).2.2.2.1 v r h hd
        · cases h
    · unfold parseArray at h
      split at h
      · cases h
      · cases hs : skipWs l with
        | nil => rw [hs] at h; cases h
        | cons c l =>
          rw [hs] at h
          simp only at h
          split at h
          · cases h; simp [depth, depthElems]; omega
          · obtain ⟨x, h1, h⟩ := R.bind_ok h
            cases h
            have := (ih (d + 1) _).2.2.1 _ _ h1 (by omega)
            simp [depth]; omega
    · unfold parseElems at h
      obtain ⟨x, h1, h⟩ := R.bind_ok h
      have hx := (ih d _).1 _ _ h1 hd
      cases hs : skipWs x.2 with
      | nil => rw [hs] at h; cases h
      | cons c l =>
        rw [hs] at h
        simp only at h
        split at h
        · obtain ⟨y, h2, h⟩ := R.bind_ok h
          cases h
          have := (ih d _).2.2.1 _ _ h2 hd
          simp [depthElems]; omega
        · split at h
          · cases h; simp [depthElems]; omega
          · cases h
    · unfold parseObject at h
      split at h
      · cases h
      · cases hs : skipWs l with
        | nil => rw [hs] at h; cases h
        | cons c l =>
          rw [hs] at h
          simp only at h
          split at h
          · cases h; simp [depth, depthMembers]; omega
          · obtain ⟨x, h1, h⟩ := R.bind_ok h
            cases h
            have := (ih (d + 1) _).2.2.2.2 _ _ h1 (by omega)
            simp [depth]; omega
    · unfold parseMembers at h
      obtain ⟨k, _, h⟩ := R.bind_ok h
      cases hs : skipWs k.2 with
      | nil => rw [hs] at h; cases h
      | cons c l =>
        rw [hs] at h
        simp only at h
        split at h
        · cases h
        · obtain ⟨x, h1, h⟩ := R.bind_ok h
          have hx := (ih d _).1 _ _ h1 hd
          cases hs : skipWs x.2 with
          | nil => rw [hs] at h; cases h
          | cons c l =>
            rw [hs] at h
            simp only at h
            split at h
            · obtain ⟨y, h2, h⟩ := R.bind_ok h
              cases h
              have := (ih d _).2.2.2.2 _ _ h2 hd
              simp [depthMembers]; omega
            · split at h
              · cases h; simp [depthMembers]; omega
              · cases h

/-- A document which is accepted is nested at most 1000 levels deep. -/
theorem C70_depth_bounded (S : Strtod) (text : Bytes) (v : Json Bytes) (h : parse S text = .ok v) : depth v ≤ 1000 := by
  unfold parse at h
  obtain ⟨⟨v', r⟩, h1, h2⟩ := R.bind_ok h
  cases h2
  have := (depth_aux S _ 0 _).1 _ _ h1 (by omega)
  simp only
  omega

/-- Printing a document and parsing the text gives the document back. -/
theorem C70_parse_print (S : Strtod) (v : Json Bytes) (h : Fits 0 v) : parse S (print v) = .ok v := by
  unfold parse
  obtain ⟨c, l, hc, h1, _, _, h2⟩ := print_head v
  have hb : skipBom (print v ++ [0]) = print v ++ [0] := by
    unfold skipBom
    rw [if_neg]
    rintro ⟨_, hs⟩
    rw [hc, List.cons_append, starts_ne h2] at hs
    cases hs
  have hw : skipWs (print v ++ [0]) = print v ++ [0] := by
    rw [hc, List.cons_append]; exact skipWs_cons h1
  rw [hb, hw, parse_print_value S v _ 0 [0] h (stop_cons (by decide)) (by simp; omega)]
  rfl

/-- A nested document with an escaped string: it is read back. -/
example : Fits 0 (.obj [([65, 34], .arr [.str [10, 200], .num (-12), .null, .bool true])]) := by
  refine ⟨by omega, by decide, ⟨by omega, by simp [Fits], ?_, trivial, trivial, trivial⟩, trivial⟩
  exact ⟨by omega, by omega⟩

/-- Texts with an unterminated string and with a truncated escape are rejected. -/
example : (∀ v, parse someStrtod [34, 97] ≠ .ok v) ∧ (∀ v, parse someStrtod [34, 92, 117, 48, 34] ≠ .ok v) := by
  constructor <;> intro v h <;> revert h
  · simp [parse, skipBom, skipWs, parseValue, starts, parseString, scan, R.bind]
  · simp [parse, skipBom, skipWs, parseValue, starts, parseString, scan, R.bind, decode, utf16]

end Verif.Json
