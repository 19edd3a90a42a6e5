import Verif.Coap.PrinterSpec
import Mathlib.Tactic.IntervalCases

/-! # Lemmas for C126 -/

namespace Verif.Coap.Printer

theorem dec_length {n k : Nat} (hk : 0 < k) (h : n < 10 ^ k) : (dec n).length ≤ k := by
  unfold dec
  rw [List.length_map]
  exact (Nat.length_toDigits_le_iff (by decide) hk).mpr h

theorem sprintf_some {size pos : Nat} {t : Text} (h : pos + t.length + 1 ≤ size) : sprintf size pos t = some t := by
  unfold sprintf
  rw [if_pos h]

/-! ## The values which are printed -/

theorem block_parts (v : UInt32) :
    (v >>> 4).toNat = v.toNat / 16 ∧ ((v &&& 0xF) >>> 3).toNat = v.toNat / 8 % 2 ∧ (v &&& 0x7).toNat = v.toNat % 8 := by
  refine ⟨?_, ?_, ?_⟩
  · simp [UInt32.toNat_shiftRight, Nat.shiftRight_eq_div_pow]
  · have h := Nat.and_two_pow_sub_one_eq_mod v.toNat 4
    simp only [UInt32.toNat_shiftRight, UInt32.toNat_and, Nat.shiftRight_eq_div_pow]
    have e : (15 : UInt32).toNat = 2 ^ 4 - 1 := by decide
    have e3 : (3 : UInt32).toNat % 32 = 3 := by decide
    rw [e, h, e3]
    omega
  · have h := Nat.and_two_pow_sub_one_eq_mod v.toNat 3
    simp only [UInt32.toNat_and]
    have e : (7 : UInt32).toNat = 2 ^ 3 - 1 := by decide
    rw [e, h]

theorem blockToString_eq (v : UInt32) : blockToString v = some (Spec.block v.toNat) := by
  obtain ⟨h1, h2, h3⟩ := block_parts v
  have hs : 16 <<< (v &&& 0x7).toNat = 2 ^ (v.toNat % 8 + 4) := by
    rw [h3, Nat.shiftLeft_eq, Nat.pow_add]
    omega
  unfold blockToString
  simp only [h1, h2, hs]
  refine sprintf_some ?_
  have hv := v.toNat_lt
  have l1 : (dec (v.toNat / 16)).length ≤ 9 := dec_length (by decide) (by omega)
  have l2 : (dec (v.toNat / 8 % 2)).length ≤ 1 := dec_length (by decide) (by omega)
  have l3 : (dec (2 ^ (v.toNat % 8 + 4))).length ≤ 4 := by
    refine dec_length (by decide) ?_
    calc 2 ^ (v.toNat % 8 + 4) ≤ 2 ^ 11 := Nat.pow_le_pow_right (by decide) (by omega)
      _ < 10 ^ 4 := by decide
  have l4 : (str "/").length = 1 := by decide
  simp only [List.length_append, l4]
  omega

theorem nibble_eq {d : Nat} (h : d < 16) : nibble d = if d < 10 then (48 + d).toUInt8 else (97 + (d - 10)).toUInt8 := by
  unfold nibble
  split
  · rfl
  · rename_i hd
    have e : 87 + d = 97 + (d - 10) := by omega
    rw [e]

theorem tokenLoop_eq (token : List UInt8) (pos : Nat) (h : pos + 2 * token.length < 17) :
    tokenLoop pos token = some (Spec.token token) := by
  induction token generalizing pos with
  | nil => rfl
  | cons b rest ih =>
    rw [List.length_cons] at h
    have hl : (hex2 b).length = 2 := rfl
    have h1 : sprintf 17 pos (hex2 b) = some (hex2 b) := sprintf_some (by omega)
    have h2 := ih (pos + (hex2 b).length) (by omega)
    have hb := b.toNat_lt
    unfold tokenLoop
    rw [h1, h2]
    simp only [Spec.token, List.flatMap_cons, hex2, List.map_cons, List.map_nil]
    rw [nibble_eq (by omega), nibble_eq (by omega)]

theorem tokenToString_eq {token : List UInt8} (h : token.length ≤ 8) : tokenToString token = some (Spec.token token) :=
  tokenLoop_eq token 0 (by omega)

theorem tokenLoop_none (token : List UInt8) (pos : Nat) (hp : pos ≤ 16) (h : 17 ≤ pos + 2 * token.length) :
    tokenLoop pos token = none := by
  induction token generalizing pos with
  | nil => simp only [List.length_nil] at h; omega
  | cons b rest ih =>
    rw [List.length_cons] at h
    have hl : (hex2 b).length = 2 := rfl
    unfold tokenLoop
    by_cases hc : pos + 3 ≤ 17
    · rw [ih (pos + (hex2 b).length) (by omega) (by omega)]
      split <;> first | rfl | simp_all
    · have : sprintf 17 pos (hex2 b) = none := by
        unfold sprintf
        rw [if_neg (by omega)]
      rw [this]

theorem codeToString_eq (code : UInt8) : codeToString code = some (Spec.code code.toNat) := by
  obtain ⟨n, hn, rfl⟩ : ∃ n, n < 256 ∧ code = UInt8.ofNat n := ⟨code.toNat, code.toNat_lt, by simp⟩
  interval_cases n <;> decide

theorem optionName_eq (n : Nat) : optionName n = (Spec.names.find? (·.1 = n)).map (·.2) := by
  by_cases h : n < 61
  · interval_cases n <;> decide
  · have h1 : Spec.names.find? (·.1 = n) = none := by
      rw [List.find?_eq_none]
      intro x hx
      have : ∀ y ∈ Spec.names, y.1 < 61 := by decide
      have := this x hx
      simp only [decide_eq_true_eq]
      omega
    rw [h1]
    unfold optionName
    split <;> first | rfl | omega

theorem optionToString_eq (o : UInt16) :
    optionToString o = some (match Spec.names.find? (·.1 = o.toNat) with
      | some x => x.2
      | none => str "UNKNOWN(" ++ dec o.toNat ++ str ")") := by
  unfold optionToString
  rw [optionName_eq]
  cases Spec.names.find? (·.1 = o.toNat) with
  | some x => rfl
  | none =>
    simp only [Option.map_none]
    refine sprintf_some ?_
    have hv := o.toNat_lt
    have l1 : (dec o.toNat).length ≤ 5 := dec_length (by decide) (by omega)
    have l2 : (str "UNKNOWN(").length = 8 := by decide
    have l3 : (str ")").length = 1 := by decide
    simp only [List.length_append, l2, l3]
    omega

theorem optionText_eq (varInt : List UInt8 → Option UInt32) (o : UInt16 × List UInt8) :
    optionText varInt o = some (Spec.option varInt o.1.toNat o.2) := by
  obtain ⟨n, data⟩ := o
  have e11 : (n = 11) = (n.toNat = 11) := by rw [← UInt16.toNat_inj]; rfl
  have e3 : (n = 3) = (n.toNat = 3) := by rw [← UInt16.toNat_inj]; rfl
  unfold optionText Spec.option
  simp only [e11, e3]
  split
  · rfl
  · split
    · rfl
    · have hd : (optionToString n).map (fun name => str ", " ++ name ++ str ": OptionDataLength: " ++ dec data.length) =
          some (Spec.byName n.toNat data) := by
        rw [optionToString_eq]
        rfl
      cases hv : varInt data with
      | none =>
        simp only [Option.bind_none]
        split
        · simp_all
        · simp_all
        · simp_all
        · exact hd
      | some v =>
        simp only [Option.bind_some]
        unfold Spec.numeric
        split
        · rename_i w h7 hw; cases hw; simp [h7]
        · rename_i w h7 hw; cases hw; simp [h7, blockToString_eq]
        · rename_i w h7 hw; cases hw; simp [h7, blockToString_eq]
        · rename_i h7 h27 h23
          rw [if_neg (fun h => h7 v h rfl), if_neg (fun h => h27 v h rfl), if_neg (fun h => h23 v h rfl)]
          exact hd

theorem headText_eq {m : Message} (h : m.token.length ≤ 8) :
    headText m = some (str "Type: " ++ str (Spec.kind m.kind) ++ str ", Code: " ++ Spec.code m.code.toNat ++
      str ", MessageId: " ++ dec m.messageId.toNat ++ str ", Token: " ++ Spec.token m.token) := by
  have hk : typeToString m.kind = str (Spec.kind m.kind) := by cases m.kind <;> rfl
  unfold headText
  rw [codeToString_eq, tokenToString_eq h, hk]

/-! ## No zero bytes -/

theorem str_dec_clean : ∀ n : Nat, (0 : UInt8) ∉ dec n := by
  intro n h
  unfold dec at h
  obtain ⟨c, hc, h0⟩ := List.mem_map.mp h
  have hd := Nat.isDigit_of_mem_toDigits (b := 10) (by decide) (by decide) hc
  simp only [Char.isDigit, Bool.and_eq_true, decide_eq_true_eq, ge_iff_le] at hd
  have h1 : 48 ≤ c.toNat := hd.1
  have h2 : c.toNat ≤ 57 := hd.2
  have h3 : (c.toNat.toUInt8).toNat = 0 := by rw [h0]; rfl
  simp only [Nat.toUInt8, UInt8.toNat_ofNat'] at h3
  omega

theorem block_clean (v : Nat) : (0 : UInt8) ∉ Spec.block v := by
  have h : (0 : UInt8) ∉ str "/" := by decide
  simp only [Spec.block, List.mem_append, str_dec_clean, h, or_self, not_false_eq_true]

theorem token_clean (l : List UInt8) : (0 : UInt8) ∉ Spec.token l := by
  intro h
  obtain ⟨b, _, hb⟩ := List.mem_flatMap.mp h
  obtain ⟨d, hd, h0⟩ := List.mem_map.mp hb
  have hlt := b.toNat_lt
  have hd16 : d < 16 := by
    simp only [List.mem_cons, List.not_mem_nil, or_false] at hd
    omega
  clear hb h hd
  revert h0
  interval_cases d <;> decide

theorem code_clean (n : Nat) : (0 : UInt8) ∉ Spec.code n := by
  have h1 : (0 : UInt8) ∉ str "UNKNOWN(" := by decide
  have h2 : (0 : UInt8) ∉ str ")" := by decide
  have h3 : (0 : UInt8) ∉ str "0" := by decide
  unfold Spec.code
  split_ifs
  all_goals first
    | decide
    | simp only [List.mem_append, str_dec_clean, h1, h2, h3, List.not_mem_nil, or_self, not_false_eq_true]

theorem takeWhile_clean (l : List UInt8) : (0 : UInt8) ∉ l.takeWhile (· ≠ 0) := by
  intro h
  induction l with
  | nil => cases h
  | cons a l ih =>
    rw [List.takeWhile_cons] at h
    split at h
    · rename_i ha
      rcases List.mem_cons.mp h with h0 | h0
      · rw [← h0] at ha; simp at ha
      · exact ih h0
    · cases h

theorem byName_clean (n : Nat) (data : List UInt8) : (0 : UInt8) ∉ Spec.byName n data := by
  have h0 : (0 : UInt8) ∉ str ", " := by decide
  have h1 : (0 : UInt8) ∉ str "UNKNOWN(" := by decide
  have h2 : (0 : UInt8) ∉ str ")" := by decide
  have h3 : (0 : UInt8) ∉ str ": OptionDataLength: " := by decide
  have hn : ∀ x ∈ Spec.names, (0 : UInt8) ∉ x.2 := by decide
  unfold Spec.byName
  dsimp only
  split
  · rename_i x hx
    simp only [List.mem_append, str_dec_clean, h0, h3, hn x (List.mem_of_find?_eq_some hx), or_self, not_false_eq_true]
  · simp only [List.mem_append, str_dec_clean, h0, h1, h2, h3, or_self, not_false_eq_true]

theorem option_clean (varInt : List UInt8 → Option UInt32) (n : Nat) (data : List UInt8) :
    (0 : UInt8) ∉ Spec.option varInt n data := by
  have h1 : (0 : UInt8) ∉ str ", Uri-Path: " := by decide
  have h2 : (0 : UInt8) ∉ str ", Uri-Host: " := by decide
  have h3 : (0 : UInt8) ∉ str ", Uri-Port: " := by decide
  have h4 : (0 : UInt8) ∉ str ", Block1: " := by decide
  have h5 : (0 : UInt8) ∉ str ", Block2: " := by decide
  have hw := takeWhile_clean data
  unfold Spec.option
  split
  · simp only [List.mem_append, h1, hw, or_self, not_false_eq_true]
  · split
    · simp only [List.mem_append, h2, hw, or_self, not_false_eq_true]
    · split
      · rename_i t ht
        cases hv : varInt data with
        | none => rw [hv] at ht; cases ht
        | some v =>
          rw [hv] at ht
          simp only [Option.bind_some, Spec.numeric] at ht
          split_ifs at ht <;> cases ht <;>
            simp only [List.mem_append, str_dec_clean, block_clean, h3, h4, h5, or_self, not_false_eq_true]
      · exact byName_clean n data

/-! ## The block of memory -/

/-- `text` was written so far: it is in memory, followed by a zero, as far as it fits. -/
structure Held (o : Out) (text : Text) : Prop where
  size : o.mem.length = 1024
  here : ∀ p, o.ptr = some p → p = text.length ∧ ∃ rest, o.mem = text.take 1022 ++ 0 :: rest
  gone : o.ptr = none → 1023 < text.length
  tame : o.wild = true → 1024 < text.length

theorem Held.start : Held { mem := List.replicate bufferLength 0, ptr := some 0, wild := false } [] :=
  { size := List.length_replicate,
    here := fun p hp => by
      cases hp
      exact ⟨rfl, List.replicate 1023 0, rfl⟩
    gone := fun h => (by cases h),
    tame := fun h => (by cases h) }

/-- A write succeeds, and afterwards the pointer is null exactly when more than 1023 bytes had been written before. -/
theorem Held.write {o : Out} {text : Text} (h : Held o text) (t : Text) :
    ∃ o', safeWrite o t = some o' ∧ Held o' (text ++ t) ∧ (o'.ptr = none ↔ 1023 < text.length) := by
  unfold safeWrite
  cases hp : o.ptr with
  | none =>
    have := h.gone hp
    refine ⟨o, rfl, { size := h.size, here := fun p hc => ?_, gone := fun _ => ?_, tame := fun hw => ?_ }, ?_⟩
    · rw [hp] at hc; cases hc
    · rw [List.length_append]; omega
    · have := h.tame hw; rw [List.length_append]; omega
    · exact ⟨fun _ => this, fun _ => hp⟩
  | some p =>
    obtain ⟨hlen, rest, hmem⟩ := h.here p hp
    dsimp only
    split
    · rename_i hbig
      have hb : 1023 < p := hbig
      refine ⟨_, rfl, { size := h.size, here := fun p hc => ?_, gone := fun _ => ?_, tame := fun hw => ?_ }, ?_⟩
      · cases hc
      · rw [List.length_append]; omega
      · have := h.tame hw; rw [List.length_append]; omega
      · exact ⟨fun _ => by omega, fun _ => rfl⟩
    · rename_i hbig
      have hb : p ≤ 1023 := by
        have : ¬ 1023 < p := hbig
        omega
      have he : endIdx - p = 1023 - p := rfl
      rw [he]
      unfold vsnprintf
      by_cases h0 : 1023 - p = 0
      · rw [if_pos h0]
        refine ⟨_, rfl, { size := h.size, here := fun q hc => ?_, gone := fun hc => (by cases hc), tame := fun hw => ?_ }, ?_⟩
        · cases hc
          refine ⟨by rw [List.length_append, hlen], rest, ?_⟩
          rw [List.take_append_of_le_length (by omega)]
          exact hmem
        · rw [Bool.or_eq_true, decide_eq_true_eq] at hw
          rw [List.length_append]
          rcases hw with hw | hw
          · have := h.tame hw; omega
          · have : 1024 < p + t.length := hw
            omega
        · exact ⟨fun hc => (by cases hc), fun hc => (by omega)⟩
      · rw [if_neg h0]
        have hp2 : text.length ≤ 1022 := by omega
        have hm : o.mem.take p = text := by
          rw [hmem, List.take_of_length_le hp2, hlen, List.take_left']
          rfl
        have hbl : (t.take (1023 - p - 1) ++ [0]).length ≤ 1023 - p := by
          rw [List.length_append, List.length_take, List.length_singleton]
          omega
        have hput : put o.mem p (t.take (1023 - p - 1) ++ [0]) =
            some (text ++ (t.take (1023 - p - 1) ++ [0]) ++ o.mem.drop (p + (t.take (1023 - p - 1) ++ [0]).length)) := by
          unfold put
          rw [if_pos (by rw [h.size]; omega), hm]
        rw [hput]
        refine ⟨_, rfl, { size := ?_, here := fun q hc => ?_, gone := fun hc => (by cases hc), tame := fun hw => ?_ }, ?_⟩
        · simp only [List.length_append, List.length_drop, h.size, List.length_take, List.length_singleton]
          omega
        · cases hc
          refine ⟨by rw [List.length_append, hlen], o.mem.drop (p + (t.take (1023 - p - 1) ++ [0]).length), ?_⟩
          have ht : (text ++ t).take 1022 = text ++ t.take (1023 - p - 1) := by
            rw [List.take_append, List.take_of_length_le hp2]
            congr 2
            omega
          rw [ht]
          simp only [List.append_assoc, List.singleton_append]
        · rw [Bool.or_eq_true, decide_eq_true_eq] at hw
          rw [List.length_append]
          rcases hw with hw | hw
          · have := h.tame hw; omega
          · have : 1024 < p + t.length := hw
            omega
        · exact ⟨fun hc => (by cases hc), fun hc => (by omega)⟩

theorem Held.options (varInt : List UInt8 → Option UInt32) (l : List (UInt16 × List UInt8)) {o : Out} {text : Text}
    (h : Held o text) :
    ∃ o', writeOptions varInt o l = some o' ∧ Held o' (text ++ (l.map fun x => Spec.option varInt x.1.toNat x.2).flatten) := by
  induction l generalizing o text with
  | nil => exact ⟨o, rfl, by simpa using h⟩
  | cons x rest ih =>
    obtain ⟨o1, hw, h1, _⟩ := h.write (Spec.option varInt x.1.toNat x.2)
    obtain ⟨o2, hr, h2⟩ := ih h1
    refine ⟨o2, ?_, ?_⟩
    · unfold writeOptions
      rw [optionText_eq]
      dsimp only
      rw [hw]
      exact hr
    · simpa [List.append_assoc] using h2

/-- What is written for a packet. -/
theorem Held.packet (varInt : List UInt8 → Option UInt32) (header : Text) (p : Option Message)
    (htok : ∀ m, p = some m → m.token.length ≤ 8) {o : Out} (h : Held o header) :
    ∃ o', writePacket varInt o p = some o' ∧
      Held o' (Spec.full varInt header p) ∧ (o'.ptr = none ↔ 1023 < (Spec.pieces varInt header p).1.flatten.length) := by
  cases p with
  | none =>
    obtain ⟨o', hw, h1, h2⟩ := h.write (str "Invalid packet")
    exact ⟨o', hw, by simpa [Spec.full, Spec.pieces] using h1, by simpa [Spec.pieces] using h2⟩
  | some m =>
    obtain ⟨o1, w1, h1, _⟩ := h.write _
    have hh := headText_eq (htok m rfl)
    obtain ⟨o2, w2, h2, _⟩ := h1.write (str ", Options:")
    obtain ⟨o3, w3, h3⟩ := h2.options varInt m.options
    obtain ⟨o4, w4, h4, h5⟩ := h3.write (str ", Payload Length: " ++ dec m.payloadLength)
    refine ⟨o4, ?_, ?_, ?_⟩
    · show writeMessage varInt o m = some o4
      unfold writeMessage
      rw [hh]
      dsimp only
      rw [w1]
      dsimp only
      rw [w2]
      dsimp only
      rw [w3]
      exact w4
    · simpa only [Spec.full, Spec.pieces, List.flatten_append, List.flatten_cons, List.flatten_nil, List.append_nil,
        List.append_assoc] using h4
    · rw [h5]
      simp only [Spec.pieces, List.flatten_append, List.flatten_cons, List.flatten_nil, List.append_nil, List.append_assoc]

/-! ## The pointer leaves the block -/

theorem safeWrite_wild {o o' : Out} {t : Text} (h : safeWrite o t = some o') (hw : o.wild = true) : o'.wild = true := by
  unfold safeWrite at h
  split at h
  · cases h; exact hw
  · split at h
    · cases h; exact hw
    · split at h
      · cases h
      · cases h; rw [hw]; rfl

theorem writeOptions_wild {varInt : List UInt8 → Option UInt32} (l : List (UInt16 × List UInt8)) {o o' : Out}
    (h : writeOptions varInt o l = some o') (hw : o.wild = true) : o'.wild = true := by
  induction l generalizing o with
  | nil => cases h; exact hw
  | cons x rest ih =>
    unfold writeOptions at h
    rw [optionText_eq] at h
    dsimp only at h
    split at h
    · cases h
    · rename_i o1 h1
      exact ih h (safeWrite_wild h1 hw)

theorem writeOptions_append (varInt : List UInt8 → Option UInt32) (a b : List (UInt16 × List UInt8)) (o : Out) :
    writeOptions varInt o (a ++ b) = (writeOptions varInt o a).bind fun o' => writeOptions varInt o' b := by
  induction a generalizing o with
  | nil => rfl
  | cons x rest ih =>
    simp only [List.cons_append, writeOptions, optionText_eq]
    cases safeWrite o (Spec.option varInt x.1.toNat x.2) with
    | none => rfl
    | some o1 => exact ih o1

/-- A write which begins in the block and ends behind it. -/
theorem Held.leaves {o o' : Out} {text t : Text} (h : Held o text) (hb : text.length ≤ 1023) (he : 1024 < text.length + t.length)
    (hw : safeWrite o t = some o') : o'.wild = true := by
  cases hp : o.ptr with
  | none => have := h.gone hp; omega
  | some p =>
    obtain ⟨hl, -⟩ := h.here p hp
    unfold safeWrite at hw
    rw [hp] at hw
    dsimp only at hw
    rw [if_neg (show ¬ endIdx < p by
      intro hc
      have : 1023 < p := hc
      omega)] at hw
    split at hw
    · cases hw
    · cases hw
      rw [Bool.or_eq_true, decide_eq_true_eq]
      refine Or.inr ?_
      show 1024 < p + t.length
      omega

theorem full_clean (varInt : List UInt8 → Option UInt32) (header : Text) (p : Option Message) (hh : (0 : UInt8) ∉ header) :
    (0 : UInt8) ∉ Spec.full varInt header p := by
  cases p with
  | none =>
    have h1 : (0 : UInt8) ∉ str "Invalid packet" := by decide
    simp [Spec.full, Spec.pieces, hh, h1]
  | some m =>
    have h1 : (0 : UInt8) ∉ str "Type: " := by decide
    have h2 : (0 : UInt8) ∉ str ", Code: " := by decide
    have h3 : (0 : UInt8) ∉ str ", MessageId: " := by decide
    have h4 : (0 : UInt8) ∉ str ", Token: " := by decide
    have h5 : (0 : UInt8) ∉ str ", Options:" := by decide
    have h6 : (0 : UInt8) ∉ str ", Payload Length: " := by decide
    have h7 : (0 : UInt8) ∉ str (Spec.kind m.kind) := by cases m.kind <;> decide
    have h8 : ∀ x : UInt16 × List UInt8, (0 : UInt8) ∉ Spec.option varInt x.1.toNat x.2 := fun x => option_clean _ _ _
    simp [Spec.full, Spec.pieces, hh, h1, h2, h3, h4, h5, h6, h7, code_clean, token_clean, str_dec_clean]
    exact fun a b _ => h8 (a, b)

theorem takeWhile_held {t : Text} (h : (0 : UInt8) ∉ t) (rest : List UInt8) : (t ++ 0 :: rest).takeWhile (· ≠ 0) = t := by
  rw [List.takeWhile_append_of_pos (by
    intro a ha
    simp only [decide_eq_true_eq]
    rintro rfl
    exact h ha)]
  simp

end Verif.Coap.Printer
