import Verif.Util.Hex

/-!
# Hex encoding — property theorems (C34)
-/

namespace Verif.Util.Hex

open Spec

/-! ### Helpers -/

theorem digit_table : ∀ n : Fin 256, ∀ v : Fin 16,
    digit (UInt8.ofNat n) = some (UInt8.ofNat v) ↔
      ((lower[v.val]?.map Char.toNat = some n.val) ∨ (upper[v.val]?.map Char.toNat = some n.val)) := by
  decide +kernel

theorem digit_lt_table : ∀ n : Fin 256, ∀ v, digit (UInt8.ofNat n) = some v → v.toNat < 16 := by
  intro n
  have : ∀ n : Fin 256, (match digit (UInt8.ofNat n) with | none => true | some v => decide (v.toNat < 16)) = true := by
    decide +kernel
  have h := this n
  intro v hv
  rw [hv] at h
  simpa using h

theorem u8_ofNat (c : UInt8) : UInt8.ofNat ((⟨c.toNat, c.toNat_lt⟩ : Fin 256) : Nat) = c := by
  simp

theorem digit_lt {c v : UInt8} (h : digit c = some v) : v.toNat < 16 := by
  have := digit_lt_table ⟨c.toNat, c.toNat_lt⟩ v
  rw [u8_ofNat] at this
  exact this h

theorem lower_length : lower.length = 16 := by decide +kernel
theorem upper_length : upper.length = 16 := by decide +kernel

theorem toNat_small {v : Nat} (h : v < 16) : (UInt8.ofNat v).toNat = v := by
  have h' : v < UInt8.size := by have : UInt8.size = 256 := rfl; omega
  exact UInt8.toNat_ofNat_of_lt' h'

theorem isDigit_lt {c : UInt8} {v : Nat} (h : IsDigit c v) : v < 16 := by
  rcases h with ⟨ch, h, _⟩ | ⟨ch, h, _⟩
  · have := (List.getElem?_eq_some_iff.mp h).1
    rwa [lower_length] at this
  · have := (List.getElem?_eq_some_iff.mp h).1
    rwa [upper_length] at this

theorem digit_iff (c v : UInt8) : digit c = some v ↔ IsDigit c v.toNat := by
  have key : ∀ h : v.toNat < 16, digit c = some v ↔ IsDigit c v.toNat := by
    intro h
    have := digit_table ⟨c.toNat, c.toNat_lt⟩ ⟨v.toNat, h⟩
    simp only [UInt8.ofNat_toNat] at this
    rw [this]
    simp only [IsDigit, Option.map_eq_some_iff]
  constructor
  · intro h; exact (key (digit_lt h)).mp h
  · intro h; exact (key (isDigit_lt h)).mpr h

theorem digit_none_iff (c : UInt8) : digit c = none ↔ ¬ ∃ v, IsDigit c v := by
  constructor
  · rintro h ⟨v, hv⟩
    have hlt := isDigit_lt hv
    have : digit c = some (UInt8.ofNat v) := by
      rw [digit_iff]
      rwa [toNat_small hlt]
    rw [h] at this; cases this
  · intro h
    cases hd : digit c with
    | none => rfl
    | some v => exact absurd ⟨_, (digit_iff c v).mp hd⟩ h

/-- Bytes as digits in base 256. -/
def bytes (d : List UInt8) : List Nat := d.map UInt8.toNat

theorem value_lt (b : Nat) (ds : List Nat) (h : ∀ d ∈ ds, d < b) : value b ds < b ^ ds.length := by
  induction ds with
  | nil => simp [value]
  | cons d ds ih =>
    have h1 := ih (fun x hx => h x (List.mem_cons_of_mem _ hx))
    have h2 := h d (List.mem_cons_self ..)
    simp only [value, List.length_cons, Nat.pow_succ]
    have : (d + 1) * b ^ ds.length ≤ b * b ^ ds.length := Nat.mul_le_mul_right _ h2
    rw [Nat.add_mul] at this
    rw [Nat.mul_comm (b ^ ds.length) b]
    omega

theorem value_inj (b : Nat) : ∀ (xs ys : List Nat), xs.length = ys.length → (∀ d ∈ xs, d < b) → (∀ d ∈ ys, d < b) →
    value b xs = value b ys → xs = ys := by
  intro xs
  induction xs with
  | nil => intro ys h _ _ _; cases ys with
    | nil => rfl
    | cons => cases h
  | cons x xs ih =>
    intro ys hl hx hy hv
    cases ys with
    | nil => cases hl
    | cons y ys =>
      simp only [List.length_cons, Nat.add_right_cancel_iff] at hl
      have h1 := value_lt b xs (fun d hd => hx d (List.mem_cons_of_mem _ hd))
      have h2 := value_lt b ys (fun d hd => hy d (List.mem_cons_of_mem _ hd))
      simp only [value, hl] at hv
      rw [hl] at h1
      have hpos : 0 < b ^ ys.length := by omega
      have hxy : x = y := by
        have e1 : (x * b ^ ys.length + value b xs) / b ^ ys.length = x := by
          rw [Nat.mul_comm, Nat.mul_add_div hpos, Nat.div_eq_of_lt h1]; rfl
        have e2 : (y * b ^ ys.length + value b ys) / b ^ ys.length = y := by
          rw [Nat.mul_comm, Nat.mul_add_div hpos, Nat.div_eq_of_lt h2]; rfl
        rw [← e1, ← e2, hv]
      subst hxy
      have := ih ys hl (fun d hd => hx d (List.mem_cons_of_mem _ hd)) (fun d hd => hy d (List.mem_cons_of_mem _ hd))
        (by omega)
      rw [this]

theorem value_set (b : Nat) (ds : List Nat) (i : Nat) (x v : Nat) (h : ds[i]? = some x) :
    value b (ds.set i (x + v)) = value b ds + v * b ^ (ds.length - 1 - i) := by
  induction ds generalizing i with
  | nil => cases h
  | cons d ds ih =>
    cases i with
    | zero =>
      simp only [List.getElem?_cons_zero, Option.some.injEq] at h
      subst h
      simp only [List.set_cons_zero, value, List.length_cons, Nat.add_mul, Nat.sub_zero, Nat.add_sub_cancel]
      omega
    | succ i =>
      simp only [List.getElem?_cons_succ] at h
      simp only [List.set_cons_succ, value, List.length_set, List.length_cons, ih i h]
      have : ds.length + 1 - 1 - (i + 1) = ds.length - 1 - i := by omega
      rw [this]; omega

theorem value_replicate (b n : Nat) : value b (List.replicate n 0) = 0 := by
  induction n with
  | zero => rfl
  | succ n ih => simp [List.replicate_succ, value, ih]

theorem spells_iff {cs : List UInt8} : (∀ c ∈ cs, ∃ v, IsDigit c v) ↔ ∃ vs, Spells cs vs := by
  constructor
  · intro h
    induction cs with
    | nil => exact ⟨[], .nil⟩
    | cons c cs ih =>
      obtain ⟨v, hv⟩ := h c (List.mem_cons_self ..)
      obtain ⟨vs, hvs⟩ := ih (fun x hx => h x (List.mem_cons_of_mem _ hx))
      exact ⟨v :: vs, .cons hv hvs⟩
  · rintro ⟨vs, h⟩
    induction h with
    | nil => intro c hc; cases hc
    | cons hd _ ih =>
      intro c hc
      rcases List.mem_cons.mp hc with h | h
      · exact ⟨_, h ▸ hd⟩
      · exact ih c h

theorem spells_length {cs : List UInt8} {vs : List Nat} (h : Spells cs vs) : vs.length = cs.length := by
  induction h with
  | nil => rfl
  | cons _ _ ih => simp [ih]

/-- State of the loop before position `index`: later bytes are zero, a half written byte is a multiple
of 16. -/
def Fresh (data : List UInt8) (index : Nat) : Prop :=
  (∀ j b, index ≤ 2 * j → data[j]? = some b → b = 0) ∧
  (∀ b, index % 2 = 1 → data[index / 2]? = some b → b.toNat % 16 = 0)

theorem loop_spec : ∀ (cs : List UInt8) (index : Nat) (data : List UInt8), Fresh data index →
    cs.length + index = 2 * data.length →
    (∀ vs, Spells cs vs → ∃ d, loop cs index data = .ok d ∧ d.length = data.length ∧
      value 256 (bytes d) = value 256 (bytes data) + value 16 vs) ∧
    ((¬ ∃ vs, Spells cs vs) → loop cs index data = .reject) := by
  intro cs
  induction cs with
  | nil =>
    intro index data _ _
    refine ⟨?_, fun h => absurd ⟨[], .nil⟩ h⟩
    rintro vs ⟨⟩
    exact ⟨data, rfl, rfl, by simp [value]⟩
  | cons c cs ih =>
    intro index data hf hlen
    simp only [List.length_cons] at hlen
    have hi : index / 2 < data.length := by omega
    have hb : data[index / 2]? = some data[index / 2] := List.getElem?_eq_getElem hi
    cases hd : digit c with
    | none =>
      have hno := (digit_none_iff c).mp hd
      refine ⟨?_, fun _ => by simp [loop, hd]⟩
      intro vs hs
      cases hs with
      | cons h _ => exact absurd ⟨_, h⟩ hno
    | some v =>
      have hv := digit_lt hd
      generalize hm : (if (index + 1) % 2 = 1 then 16 else 1 : UInt8) = m
      have hstep : loop (c :: cs) index data =
          loop cs (index + 1) (data.set (index / 2) (data[index / 2] + v * m)) := by
        simp only [loop, hd, addAt, hb, hm]
      -- no overflow in the byte
      have hbyte : (data[index / 2] + v * m).toNat = data[index / 2].toNat + v.toNat * m.toNat ∧
          (index % 2 = 0 → data[index / 2].toNat = 0 ∧ m.toNat = 16) ∧ (index % 2 = 1 → m.toNat = 1) := by
        by_cases hpar : index % 2 = 0
        · have h0 : data[index / 2] = 0 := hf.1 _ _ (by omega) hb
          rw [if_pos (by omega)] at hm
          subst hm
          rw [h0]
          refine ⟨?_, fun _ => ⟨rfl, rfl⟩, fun h => by omega⟩
          rw [UInt8.toNat_add, UInt8.toNat_mul]
          have : (16 : UInt8).toNat = 16 := rfl
          have h0' : (0 : UInt8).toNat = 0 := rfl
          rw [this, h0']
          omega
        · rw [if_neg (by omega)] at hm
          subst hm
          have h16 := hf.2 _ (by omega) hb
          have hlt := data[index / 2].toNat_lt
          refine ⟨?_, fun h => by omega, fun _ => rfl⟩
          rw [UInt8.toNat_add, UInt8.toNat_mul]
          have : (1 : UInt8).toNat = 1 := rfl
          rw [this]
          omega
      have hfresh : Fresh (data.set (index / 2) (data[index / 2] + v * m)) (index + 1) := by
        constructor
        · intro j b hj hjb
          rw [List.getElem?_set_ne (by omega)] at hjb
          exact hf.1 j b (by omega) hjb
        · intro b hpar hjb
          have he : (index + 1) / 2 = index / 2 := by omega
          rw [he, List.getElem?_set_self hi, Option.some.injEq] at hjb
          obtain ⟨h1, h2, _⟩ := hbyte
          obtain ⟨h3, h4⟩ := h2 (by omega)
          rw [← hjb, h1, h3, h4]
          omega
      have hval : value 256 (bytes (data.set (index / 2) (data[index / 2] + v * m))) =
          value 256 (bytes data) + v.toNat * 16 ^ cs.length := by
        have hbs : bytes (data.set (index / 2) (data[index / 2] + v * m)) =
            (bytes data).set (index / 2) (data[index / 2].toNat + v.toNat * m.toNat) := by
          simp only [bytes, List.map_set, hbyte.1]
        rw [hbs, value_set 256 (bytes data) (index / 2) data[index / 2].toNat _ (by simp [bytes, hb])]
        congr 1
        rw [Nat.mul_assoc]
        congr 1
        have hl : (bytes data).length = data.length := by simp [bytes]
        rw [hl, show (256 : Nat) = 16 ^ 2 from rfl, ← Nat.pow_mul]
        by_cases hpar : index % 2 = 0
        · rw [(hbyte.2.1 hpar).2, ← Nat.pow_succ']
          congr 1; omega
        · rw [hbyte.2.2 (by omega), Nat.one_mul]
          congr 1; omega
      obtain ⟨ih1, ih2⟩ := ih (index + 1) _ hfresh (by rw [List.length_set]; omega)
      rw [hstep]
      refine ⟨?_, ?_⟩
      · intro vs hs
        cases hs with
        | cons h hs =>
          rename_i v' vs
          obtain ⟨d, h1, h2, h3⟩ := ih1 vs hs
          refine ⟨d, h1, by rw [h2, List.length_set], ?_⟩
          have hvv : v' = v.toNat := by
            have : digit c = some (UInt8.ofNat v') := by
              rw [digit_iff]
              rwa [toNat_small (isDigit_lt h)]
            rw [hd, Option.some.injEq] at this
            rw [this, toNat_small (isDigit_lt h)]
          rw [h3, hval, hvv]
          simp only [value, spells_length hs]
          omega
      · intro hno
        apply ih2
        rintro ⟨vs, hs⟩
        exact hno ⟨_, .cons ((digit_iff c v).mp hd) hs⟩

theorem fresh_zero (n i : Nat) : Fresh (List.replicate n 0) i := by
  have : ∀ (j : Nat) (b : UInt8), (List.replicate n (0 : UInt8))[j]? = some b → b = 0 := by
    intro j b h
    have := List.mem_of_getElem? h
    exact (List.mem_replicate.mp this).2
  exact ⟨fun j b _ h => this j b h, fun b _ h => by rw [this _ b h]; rfl⟩

/-- A length that can be passed: strings shorter than 2^64 - 1 characters, arrays of at most 2^63 bytes. -/
def Sane (hex : List UInt8) (n : Nat) : Prop := hex.length < 2 ^ 64 - 1 ∧ n < 2 ^ 63

theorem lengthCond {hex : List UInt8} {n : Nat} (h : Sane hex n) :
    (hex.length = n * 2 ∨ hex.length = (n * 2 + (2 ^ 64 - 1)) % 2 ^ 64) ↔
    (hex.length = 2 * n ∨ hex.length + 1 = 2 * n) := by
  obtain ⟨h1, h2⟩ := h
  cases n with
  | zero => omega
  | succ n => omega

theorem hexToData_spec (hex : List UInt8) (n : Nat) (hs : Sane hex n) :
    ((hex.length = 2 * n ∨ hex.length + 1 = 2 * n) →
      (∀ vs, Spells hex vs → ∃ d, hexToData hex n = .ok d ∧ d.length = n ∧ value 256 (bytes d) = value 16 vs) ∧
      ((¬ ∃ vs, Spells hex vs) → hexToData hex n = .reject)) ∧
    (¬ (hex.length = 2 * n ∨ hex.length + 1 = 2 * n) → hexToData hex n = .reject) := by
  constructor
  · intro h
    have hc := (lengthCond hs).mpr h
    have hcase : hexToData hex n =
        loop hex (if hex.length % 2 = 1 then 1 else 0) (List.replicate n 0) := by
      unfold hexToData; rw [if_pos hc]
    rw [hcase]
    have := loop_spec hex (if hex.length % 2 = 1 then 1 else 0) (List.replicate n 0) (fresh_zero _ _)
      (by rw [List.length_replicate]; split <;> omega)
    refine ⟨?_, this.2⟩
    intro vs hv
    obtain ⟨d, h1, h2, h3⟩ := this.1 vs hv
    refine ⟨d, h1, by rw [h2, List.length_replicate], ?_⟩
    rw [h3, bytes, List.map_replicate]
    have h0 : UInt8.toNat 0 = 0 := rfl
    rw [h0, value_replicate]; omega
  · intro h
    unfold hexToData
    rw [if_neg (fun hc => h ((lengthCond hs).mp hc))]

theorem value_pair (b : UInt8) : ∃ hi lo : Nat,
    IsDigit (encodeChar ((b >>> 4) &&& 0xF)) hi ∧ IsDigit (encodeChar (b &&& 0xF)) lo ∧ hi * 16 + lo = b.toNat := by
  have : ∀ n : Fin 256, ∃ hi lo : Fin 16,
      digit (encodeChar (((UInt8.ofNat n) >>> 4) &&& 0xF)) = some (UInt8.ofNat hi) ∧
      digit (encodeChar ((UInt8.ofNat n) &&& 0xF)) = some (UInt8.ofNat lo) ∧ hi.val * 16 + lo.val = n.val := by
    intro n
    have key : ∀ n : Fin 256,
        digit (encodeChar (((UInt8.ofNat n) >>> 4) &&& 0xF)) = some (UInt8.ofNat (n.val / 16)) ∧
        digit (encodeChar ((UInt8.ofNat n) &&& 0xF)) = some (UInt8.ofNat (n.val % 16)) := by decide +kernel
    exact ⟨⟨n.val / 16, by omega⟩, ⟨n.val % 16, by omega⟩, (key n).1, (key n).2, by simp only; omega⟩
  obtain ⟨hi, lo, h1, h2, h3⟩ := this ⟨b.toNat, b.toNat_lt⟩
  rw [u8_ofNat] at h1 h2
  rw [digit_iff, toNat_small (Fin.isLt _)] at h1 h2
  exact ⟨hi, lo, h1, h2, h3⟩

theorem dataToHex_length (d : List UInt8) : (dataToHex d).length = 2 * d.length := by
  induction d with
  | nil => rfl
  | cons b bs ih => simp only [dataToHex, List.length_cons, ih]; omega

theorem dataToHex_spells (d : List UInt8) : ∃ vs, Spells (dataToHex d) vs ∧ value 16 vs = value 256 (bytes d) := by
  induction d with
  | nil => exact ⟨[], .nil, rfl⟩
  | cons b bs ih =>
    obtain ⟨vs, h1, h2⟩ := ih
    obtain ⟨hi, lo, h3, h4, h5⟩ := value_pair b
    refine ⟨hi :: lo :: vs, .cons h3 (.cons h4 h1), ?_⟩
    have hl : vs.length = 2 * bs.length := by rw [spells_length h1, dataToHex_length]
    simp only [value, bytes, List.map_cons, List.length_cons, List.length_map] at h2 ⊢
    rw [hl, h2, ← h5, Nat.pow_succ, Nat.pow_mul, Nat.add_mul]
    have : hi * ((16 ^ 2) ^ bs.length * 16) = hi * 16 * 256 ^ bs.length := by
      rw [Nat.mul_comm ((16 ^ 2) ^ bs.length) 16, ← Nat.mul_assoc]
    rw [this]
    simp only [show (16 ^ 2 : Nat) = 256 from rfl]
    omega

/-! ## C34 -/

/-- C34: decoding never writes outside the output, and accepts exactly the strings of hex digits whose
length is twice the output length, or one less (implicit leading zero). -/
theorem C34_accepts_exactly_hex (hex : List UInt8) (n : Nat) (hs : Sane hex n) :
    hexToData hex n ≠ .ub ∧
    ((∃ d, hexToData hex n = .ok d) ↔
      (hex.length = 2 * n ∨ hex.length + 1 = 2 * n) ∧ ∀ c ∈ hex, ∃ v, IsDigit c v) := by
  obtain ⟨h1, h2⟩ := hexToData_spec hex n hs
  by_cases hl : hex.length = 2 * n ∨ hex.length + 1 = 2 * n
  · obtain ⟨h3, h4⟩ := h1 hl
    by_cases hd : ∃ vs, Spells hex vs
    · obtain ⟨vs, hv⟩ := hd
      obtain ⟨d, hd, _⟩ := h3 vs hv
      refine ⟨by rw [hd]; simp, ?_⟩
      exact ⟨fun _ => ⟨hl, spells_iff.mpr ⟨vs, hv⟩⟩, fun _ => ⟨d, hd⟩⟩
    · have := h4 hd
      refine ⟨by rw [this]; simp, ?_⟩
      constructor
      · rintro ⟨d, he⟩; rw [this] at he; cases he
      · rintro ⟨_, h⟩; exact absurd (spells_iff.mp h) hd
  · have := h2 hl
    refine ⟨by rw [this]; simp, ?_⟩
    constructor
    · rintro ⟨d, he⟩; rw [this] at he; cases he
    · rintro ⟨h, _⟩; exact absurd h hl

/-- C34: what is accepted fills the whole output, and the output spells, in base 256, the number the text
spells in base 16. -/
theorem C34_decodes_the_value (hex d : List UInt8) (n : Nat) (hs : Sane hex n) (h : hexToData hex n = .ok d) :
    d.length = n ∧ ∃ vs, Spells hex vs ∧ value 256 (d.map UInt8.toNat) = value 16 vs := by
  obtain ⟨hl, hd⟩ := (C34_accepts_exactly_hex hex n hs).2.mp ⟨d, h⟩
  obtain ⟨vs, hv⟩ := spells_iff.mp hd
  obtain ⟨d', h1, h2, h3⟩ := ((hexToData_spec hex n hs).1 hl).1 vs hv
  rw [h, Res.ok.injEq] at h1
  subst h1
  exact ⟨h2, vs, hv, h3⟩

/-- C34: decoding an encoding gives the data back, for every byte string. -/
theorem C34_round_trip (d : List UInt8) (hd : d.length < 2 ^ 62) : hexToData (dataToHex d) d.length = .ok d := by
  have hs : Sane (dataToHex d) d.length := by
    constructor
    · rw [dataToHex_length]; omega
    · omega
  obtain ⟨vs, h1, h2⟩ := dataToHex_spells d
  obtain ⟨d', h3, h4, h5⟩ := ((hexToData_spec _ _ hs).1 (.inl (dataToHex_length d))).1 vs h1
  rw [h3]
  have hb : ∀ x : List UInt8, ∀ y ∈ bytes x, y < 256 := by
    intro x y hy
    obtain ⟨z, _, rfl⟩ := List.mem_map.mp hy
    exact z.toNat_lt
  have := value_inj 256 (bytes d') (bytes d) (by simp [bytes, h4]) (hb d') (hb d) (by rw [h5, h2])
  congr 1
  have hinj : ∀ (x y : List UInt8), bytes x = bytes y → x = y := by
    intro x y hxy
    exact (List.map_inj_right (fun a b hab => UInt8.toNat_inj.mp hab)).mp hxy
  exact hinj _ _ this

/-- C34: different data have different encodings. -/
theorem C34_encoding_injective (d e : List UInt8) (hd : d.length < 2 ^ 62) (he : e.length < 2 ^ 62)
    (h : dataToHex d = dataToHex e) : d = e := by
  have h1 := C34_round_trip d hd
  have h2 := C34_round_trip e he
  have hl : d.length = e.length := by
    have := congrArg List.length h
    rw [dataToHex_length, dataToHex_length] at this
    omega
  rw [h, hl, h2, Res.ok.injEq] at h1
  exact h1.symm

example : hexToData "0aFf".toUTF8.toList 2 = .ok [10, 255] ∧ hexToData "aFf".toUTF8.toList 2 = .ok [10, 255] ∧
    hexToData "0ag0".toUTF8.toList 2 = .reject ∧ hexToData "0a".toUTF8.toList 2 = .reject ∧
    dataToHex [10, 255] = "0aff".toUTF8.toList := by decide +kernel

end Verif.Util.Hex
