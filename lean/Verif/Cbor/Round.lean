import Verif.Cbor.Head

/-!
# tinycbor parser on well formed input, lemmas
-/

namespace Verif.Cbor

/-- The value which is in front of an item. -/
def Item.flags : Item → Value → Value
  | .uint n, u => u.setHead .int n false
  | .nint n, u => u.setHead .int n true
  | .bytes b, u => u.setHead .bytes b.length false
  | .text b, u => u.setHead .text b.length false
  | .chunks t _, u =>
    { u with type := if t then .text else .bytes, extra := 31, is64 := false, large := false, bit4 := false, unknown := true }
  | .arr false l, u => u.setHead .arr l.length false
  | .arr true _, u => { u with type := .arr, extra := 31, is64 := false, large := false, bit4 := false, unknown := true }
  | .map false l, u => u.setHead .map l.length false
  | .map true _, u => { u with type := .map, extra := 31, is64 := false, large := false, bit4 := false, unknown := true }
  | .tag n _, u => u.setHead .tag n false
  | .bool b, u =>
    { u with type := .bool, extra := if b then 21 else 0, is64 := false, large := false, bit4 := false, unknown := false }
  | .null, u => { u with type := .null, extra := 22, is64 := false, large := false, bit4 := false, unknown := false }
  | .undef, u => { u with type := .undef, extra := 23, is64 := false, large := false, bit4 := false, unknown := false }
  | .half n, u => { u with type := .half, extra := n, is64 := false, large := false, bit4 := false, unknown := false }
  | .float _, u => { u with type := .float, extra := 0, is64 := false, large := true, bit4 := false, unknown := false }
  | .double _, u => { u with type := .double, extra := 0, is64 := true, large := true, bit4 := false, unknown := false }

theorem flags_idem (i : Item) (u : Value) : i.flags (i.flags u) = i.flags u := by
  cases i <;> (try cases ‹Bool›) <;> rfl

theorem flags_rest (i : Item) (u : Value) : (i.flags u).rest = u.rest := by cases i <;> (try cases ‹Bool›) <;> rfl
theorem flags_remaining (i : Item) (u : Value) : (i.flags u).remaining = u.remaining := by
  cases i <;> (try cases ‹Bool›) <;> rfl
theorem flags_isMap (i : Item) (u : Value) : (i.flags u).isMap = u.isMap := by cases i <;> (try cases ‹Bool›) <;> rfl
theorem flags_key (i : Item) (u : Value) : (i.flags u).nextIsKey = u.nextIsKey := by
  cases i <;> (try cases ‹Bool›) <;> rfl
theorem flags_ne (i : Item) (u : Value) : (i.flags u).type ≠ .invalid := by
  cases i <;> (try cases ‹Bool›) <;> simp [Item.flags, Value.setHead]

theorem preparse_indef {u : Value} {b : UInt8} {t : Bytes} (hr : u.rest = b :: t) (h31 : small b = 31)
    (hf : isFixed (tyOf b) = false) :
    preparse u = .ok { u with type := tyOf b, extra := 31, is64 := false, large := false, bit4 := false, unknown := true } := by
  unfold preparse
  rw [hr]
  simp only
  rw [if_pos (by omega), if_neg (by omega), if_neg (by simp [hf])]
  simp [fresh, h31, hr]

theorem preparse_float {u : Value} {b : UInt8} {n k : Nat} {t : Bytes} (hr : u.rest = b :: (be k n ++ t))
    (hs : small b = 24 + (if k = 2 then 1 else if k = 4 then 2 else 3)) (hk : k = 2 ∨ k = 4 ∨ k = 8)
    (hb : tyOf b = .simple) (hn : ¬ (0x20 ≤ b ∧ b < 0x40)) (h16 : k = 2 → n < 2 ^ 16) :
    preparse u = .ok { u with
      type := if k = 2 then .half else if k = 4 then .float else .double, extra := if k = 2 then n else 0
      is64 := decide (k = 8), large := decide (k ≠ 2), bit4 := false, unknown := false } := by
  have hl := be_length k n
  have hr' : (fresh u b).rest = b :: (be k n ++ t) := hr
  unfold preparse
  rw [hr]
  simp only
  rcases hk with rfl | rfl | rfl
  · simp at hs
    rw [if_neg (by omega), if_neg (by simp [Value.canRead, hr, hs, numBytes, hl])]
    have hr2 : readExtra (fresh u b) (small b) = .ok { fresh u b with extra := n } := by
      simp only [readExtra, hs, numBytes, Value.read, hr']
      simp [hl]
      have := beNat_be 2 n
      rw [Nat.mod_eq_of_lt (h16 rfl)] at this
      have ht : List.take 2 (be 2 n ++ t) = be 2 n := List.take_left' hl
      first | rw [ht, this] | exact this
    rw [hr2]
    simp only [R.bind_eq, R.bind]
    unfold classify
    rw [if_neg hn, if_pos hb]
    simp [preparseSimple, hs, fresh, hr]
  · simp at hs
    rw [if_neg (by omega), if_neg (by simp [Value.canRead, hr, hs, numBytes, hl])]
    have hr2 : readExtra (fresh u b) (small b) = .ok { fresh u b with extra := 0, is64 := false, large := true } := by
      simp [readExtra, hs, numBytes]
    rw [hr2]
    simp only [R.bind_eq, R.bind]
    unfold classify
    rw [if_neg hn, if_pos hb]
    simp [preparseSimple, hs, fresh, hr]
  · simp at hs
    rw [if_neg (by omega), if_neg (by simp [Value.canRead, hr, hs, numBytes, hl])]
    have hr2 : readExtra (fresh u b) (small b) = .ok { fresh u b with extra := 0, is64 := true, large := true } := by
      simp [readExtra, hs, numBytes]
    rw [hr2]
    simp only [R.bind_eq, R.bind]
    unfold classify
    rw [if_neg hn, if_pos hb]
    simp [preparseSimple, hs, fresh, hr]

theorem preparse_simple {u : Value} {b : UInt8} {t : Bytes} (hr : u.rest = b :: t) (hs : small b < 24)
    (hb : tyOf b = .simple) (hn : ¬ (0x20 ≤ b ∧ b < 0x40)) : preparse u = preparseSimple (fresh u b) (small b) := by
  unfold preparse
  rw [hr]
  simp only
  have h0 : numBytes (small b) = 0 := by simp [numBytes, hs]
  rw [if_neg (by omega), if_neg (by simp [h0])]
  simp only [readExtra, h0, if_true, R.bind_eq, R.bind, classify]
  rw [if_neg hn, if_pos hb]

/-- The parser reads the head of an item. -/
theorem preparse_enc {i : Item} (hf : i.Fits) {u : Value} {t : Bytes} (hr : u.rest = i.enc ++ t) :
    preparse u = .ok (i.flags u) := by
  cases i with
  | uint n => simp only [Item.enc] at hr; exact preparse_head (by omega) hf hr
  | nint n => simp only [Item.enc] at hr; exact preparse_head (by omega) hf hr
  | bytes b => simp only [Item.enc, List.append_assoc] at hr; exact preparse_head (m := 2) (by omega) hf hr
  | text b => simp only [Item.enc, List.append_assoc] at hr; exact preparse_head (m := 3) (by omega) hf hr
  | chunks b l =>
    simp only [Item.enc, List.cons_append] at hr
    cases b
    · exact preparse_indef hr (by decide) (by decide)
    · exact preparse_indef hr (by decide) (by decide)
  | arr ind l =>
    simp only [Item.Fits] at hf
    cases ind
    · simp only [Item.enc, List.append_assoc] at hr; exact preparse_head (m := 4) (by omega) (by omega) hr
    · simp only [Item.enc, List.cons_append] at hr; exact preparse_indef hr (by decide) (by decide)
  | map ind l =>
    simp only [Item.Fits] at hf
    cases ind
    · simp only [Item.enc, List.append_assoc] at hr; exact preparse_head (m := 5) (by omega) (by omega) hr
    · simp only [Item.enc, List.cons_append] at hr; exact preparse_indef hr (by decide) (by decide)
  | tag n j =>
    simp only [Item.Fits] at hf
    simp only [Item.enc, List.append_assoc] at hr; exact preparse_head (m := 6) (by omega) hf.1 hr
  | bool b =>
    cases b
    · simp only [Item.enc] at hr; rw [preparse_simple hr (by decide) (by decide) (by decide)]; rfl
    · simp only [Item.enc] at hr; rw [preparse_simple hr (by decide) (by decide) (by decide)]; rfl
  | null => simp only [Item.enc] at hr; rw [preparse_simple hr (by decide) (by decide) (by decide)]; rfl
  | undef => simp only [Item.enc] at hr; rw [preparse_simple hr (by decide) (by decide) (by decide)]; rfl
  | half n =>
    simp only [Item.enc, List.cons_append] at hr
    exact preparse_float hr (by decide) (by omega) (by decide) (by decide) (fun _ => hf)
  | float n =>
    simp only [Item.enc, List.cons_append] at hr
    exact preparse_float hr (by decide) (by omega) (by decide) (by decide) (fun h => by omega)
  | double n =>
    simp only [Item.enc, List.cons_append] at hr
    exact preparse_float hr (by decide) (by omega) (by decide) (by decide) (fun h => by omega)

theorem ofNat_ne_brk : ∀ m < 7, ∀ k < 28, UInt8.ofNat (m * 32 + k) ≠ 0xff := by decide +kernel

theorem head_first {m n : Nat} (hm : m < 7) (t : Bytes) : (head m n ++ t).head? ≠ some 0xff := by
  rw [head_eq]
  have := ofNat_ne_brk m hm (addl n) (by have := addl_le n; omega)
  simpa using this

theorem enc_first (i : Item) (t : Bytes) : (i.enc ++ t).head? ≠ some 0xff := by
  cases i with
  | uint n => simp only [Item.enc]; exact head_first (by omega) t
  | nint n => simp only [Item.enc]; exact head_first (by omega) t
  | bytes b => simp only [Item.enc, List.append_assoc]; exact head_first (by omega) _
  | text b => simp only [Item.enc, List.append_assoc]; exact head_first (by omega) _
  | chunks b l => cases b <;> simp [Item.enc, headIndef]
  | arr ind l =>
    cases ind
    · simp only [Item.enc, List.append_assoc]; exact head_first (by omega) _
    · simp [Item.enc, headIndef]
  | map ind l =>
    cases ind
    · simp only [Item.enc, List.append_assoc]; exact head_first (by omega) _
    · simp [Item.enc, headIndef]
  | tag n j => simp only [Item.enc, List.append_assoc]; exact head_first (by omega) _
  | bool b => cases b <;> simp [Item.enc]
  | null => simp [Item.enc]
  | undef => simp [Item.enc]
  | half n => simp [Item.enc]
  | float n => simp [Item.enc]
  | double n => simp [Item.enc]

theorem enc_pos (i : Item) : 0 < i.enc.length := by
  have hh (m n) : 0 < (head m n).length := by rw [head_eq]; simp
  cases i with
  | arr ind l => cases ind <;> simp [Item.enc] <;> (have := hh 4 l.length; omega)
  | map ind l => cases ind <;> simp [Item.enc] <;> (have := hh 5 l.length; omega)
  | bytes b => have := hh 2 b.length; simp [Item.enc]; omega
  | text b => have := hh 3 b.length; simp [Item.enc]; omega
  | tag n j => have := hh 6 n; simp [Item.enc]; omega
  | _ => simp [Item.enc, hh]

/-- What is in the buffer after the items of a container. -/
def term (ind : Bool) (tl : Bytes) : Bytes := if ind then brk :: tl else tl

/-- The iterator of a container with `k` items left. -/
structure Ctx (ind m : Bool) (k : Nat) (v : Value) : Prop where
  rem : v.remaining = if ind then u32max else k
  lt : ind = false → k < u32max
  isMap : v.isMap = m
  key : m = true → v.nextIsKey = decide (k % 2 = 1)

/-- The iterator of a container which is in front of items. -/
def AtL (ind m : Bool) (tl : Bytes) : List Item → Value → Prop
  | [], v => v.rest = term ind tl ∧ v.type = .invalid ∧ v.remaining = 0 ∧ v.unknown = ind
  | i :: l, v => v.rest = Item.encs (i :: l) ++ term ind tl ∧ Ctx ind m (l.length + 1) v ∧ v = i.flags v

theorem Ctx.flags {ind m k v} (h : Ctx ind m k v) (i : Item) : Ctx ind m k (i.flags v) :=
  ⟨by rw [flags_remaining]; exact h.rem, h.lt, by rw [flags_isMap]; exact h.isMap, by rw [flags_key]; exact h.key⟩

theorem nextNoDec_cons {ind m i l tl} {u : Value} (hf : i.Fits) (hr : u.rest = Item.encs (i :: l) ++ term ind tl)
    (hc : Ctx ind m (l.length + 1) u) : ∃ v, nextNoDec u = .ok v ∧ AtL ind m tl (i :: l) v := by
  have hr' : u.rest = i.enc ++ (Item.encs l ++ term ind tl) := by rw [hr]; simp [Item.encs]
  refine ⟨i.flags u, ?_, by rw [flags_rest]; exact hr, hc.flags i, (flags_idem i u).symm⟩
  unfold nextNoDec
  rw [if_neg (by rw [hr']; exact fun h => enc_first i _ h.2)]
  exact preparse_enc hf hr'

theorem next_at {ind m l tl} {u : Value} (hf : Item.Fitss l) (hr : u.rest = Item.encs l ++ term ind tl)
    (hc : Ctx ind m (l.length + 1) u) (ht : u.type ≠ .tag) : ∃ v, next u = .ok v ∧ AtL ind m tl l v := by
  unfold next
  rw [if_neg ht]
  cases ind with
  | false =>
    have hrem := hc.rem
    have hlt := hc.lt rfl
    simp only [Bool.false_eq_true, if_false] at hrem
    rw [if_pos (by omega)]
    have e : (u.remaining + u32max) % (u32max + 1) = l.length := by rw [hrem]; unfold u32max at *; omega
    rw [e]
    cases l with
    | nil =>
      rw [if_pos (by rfl)]
      exact ⟨_, rfl, by simpa [Item.encs] using hr, rfl, rfl, rfl⟩
    | cons i l =>
      rw [if_neg (by simp)]
      refine nextNoDec_cons hf.1 hr ⟨rfl, fun _ => (by simp at hlt ⊢; omega), hc.isMap, fun h => ?_⟩
      have := hc.key h
      simp only [this, List.length_cons]
      by_cases hp : (l.length + 1) % 2 = 1
      · have : ¬ (l.length + 1 + 1) % 2 = 1 := by omega
        simp [hp, this]
      · have : (l.length + 1 + 1) % 2 = 1 := by omega
        simp [hp, this]
  | true =>
    have hrem := hc.rem
    simp only [if_true] at hrem
    rw [if_neg (by simp [hrem])]
    cases l with
    | nil =>
      unfold nextNoDec
      have hr' : u.rest = 0xff :: tl := by rw [hr]; rfl
      rw [if_pos ⟨hrem, by simp [hr']⟩, if_neg]
      · exact ⟨_, rfl, by simp [hr', term, brk], rfl, rfl, rfl⟩
      · rintro (⟨h1, h2⟩ | h)
        · have := hc.key (hc.isMap ▸ h1)
          simp [this] at h2
        · exact ht h
    | cons i l =>
      refine nextNoDec_cons hf.1 hr ⟨hrem, fun h => (by cases h), hc.isMap, fun h => ?_⟩
      have := hc.key h
      simp only [this, List.length_cons]
      by_cases hp : (l.length + 1) % 2 = 1
      · have : ¬ (l.length + 1 + 1) % 2 = 1 := by omega
        simp [hp, this]
      · have : (l.length + 1 + 1) % 2 = 1 := by omega
        simp [hp, this]

theorem next_tag_at {ind m i l tl} {u : Value} (hf : i.Fits) (hr : u.rest = Item.encs (i :: l) ++ term ind tl)
    (hc : Ctx ind m (l.length + 1) u) (ht : u.type = .tag) : ∃ v, next u = .ok v ∧ AtL ind m tl (i :: l) v := by
  unfold next
  rw [if_pos ht]
  exact nextNoDec_cons hf hr hc

/-! ## Strings -/

theorem chunk_head {it : Value} {m : Nat} {c t : Bytes} (hm : m = 2 ∨ m = 3) (hc : c.length < 2 ^ 64)
    (hr : it.rest = head m c.length ++ (c ++ t)) (ht : it.type = majorTy m) (hb : it.unknown = true ∨ it.bit4 = true) :
    chunk it = .ok (c, { it with rest := t, bit4 := false }) := by
  have hk := addl_le c.length
  have hs := small_ofNat (m := m) (k := addl c.length) (by omega)
  have hty := tyOf_ofNat m (by omega) (addl c.length) (by omega)
  have hne := ofNat_ne_brk m (by omega) (addl c.length) (by omega)
  have hl := argBytes_length c.length
  have hcs : chunkSize it = .ok (1 + numBytes (addl c.length), c.length) := by
    rw [head_eq] at hr
    generalize UInt8.ofNat (m * 32 + addl c.length) = b at *
    unfold chunkSize
    rw [if_neg (by rcases hb with h | h <;> simp [h]), hr]
    simp only [List.cons_append]
    rw [if_neg hne, if_neg (by rw [hty, ht]; simp)]
    by_cases h24 : c.length < 24
    · have : addl c.length = c.length := by simp [addl, h24]
      rw [if_pos (by omega), hs, this]
      simp [numBytes, h24]
    · have h24' : 24 ≤ addl c.length := by unfold addl; grind
      rw [if_neg (by omega), if_neg (by omega), if_neg (by simp [Value.canRead, hr, hs]; omega), hs]
      unfold Value.read
      rw [hr, if_pos (by simp; omega)]
      have : List.take (numBytes (addl c.length)) (List.drop 1 (b :: argBytes c.length ++ (c ++ t))) = argBytes c.length := by
        rw [← hl]; simp
      rw [this]
      simp [argBytes_nat (by omega : 24 ≤ c.length) hc]
  unfold chunk
  rw [hcs]
  have hd : List.drop (1 + numBytes (addl c.length)) it.rest = c ++ t := by
    rw [hr, head_eq, ← hl, Nat.add_comm]; simp
  have hle : 1 + numBytes (addl c.length) ≤ it.rest.length := by
    rw [hr, head_eq, ← hl]; simp; omega
  simp only [R.bind_eq, R.bind, Value.skip]
  rw [if_pos hle]
  simp only [hd, Value.canRead]
  simp [Value.read, R.bind]

theorem chunk_brk {it : Value} {t : Bytes} (hr : it.rest = brk :: t) : chunk it = .err .noMoreChunks := by
  unfold chunk chunkSize
  split
  · rfl
  · simp [hr, brk, R.bind]

theorem chunk_done {it : Value} (h1 : it.unknown = false) (h2 : it.bit4 = false) : chunk it = .err .noMoreChunks := by
  unfold chunk chunkSize
  simp [h1, h2, R.bind]

/-- What a function does with the chunks of a string: `Q` holds for the part of the string which has been accepted. -/
structure Fun (func : Nat → Bytes → R Bool) (buflen : Nat) (Q : Bytes → Bool) (f : Nat → Bytes → Bool) : Prop where
  call : ∀ o c, o + c.length ≤ buflen → func o c = .ok (f o c)
  start : Q [] = true
  step : ∀ acc c, Q (acc ++ c) = (Q acc && decide (acc.length + c.length ≤ buflen) && f acc.length c)

theorem Fun.apply {func buflen Q f} (h : Fun func buflen Q f) (acc c : Bytes) :
    (if Q acc = true ∧ acc.length + c.length ≤ buflen then func acc.length c else pure false : R Bool) =
      .ok (Q (acc ++ c)) := by
  rw [h.step]
  split
  · rename_i hh; rw [h.call _ _ hh.2]; simp [hh]
  · rename_i hh
    simp only [R.pure_eq]
    congr 1
    cases hq : Q acc
    · rfl
    · simp [hq] at hh; simp; omega

theorem Fun.apply' {func buflen Q f} (h : Fun func buflen Q f) (acc c : Bytes) {β} (g : Bool → R β) :
    (if Q acc = true ∧ acc.length + c.length ≤ buflen then func acc.length c >>= g else pure false >>= g : R β) =
      g (Q (acc ++ c)) := by
  have := h.apply acc c
  split
  · rename_i hh; rw [if_pos hh] at this; rw [this]; rfl
  · rename_i hh; rw [if_neg hh] at this; rw [this]; rfl

theorem chunkLoop_chunks {func buflen Q f} (h : Fun func buflen Q f) {m : Nat} (hm : m = 2 ∨ m = 3) (l : List Bytes)
    (hl : ∀ c ∈ l, c.length < 2 ^ 64) {t : Bytes} (n : Nat) {it : Value} (acc : Bytes) (hn : l.length < n)
    (hr : it.rest = encChunks m l ++ t) (ht : it.type = majorTy m) (hu : it.unknown = true) :
    ∃ b, chunkLoop func buflen n it (Q acc) acc =
      .ok (Q (acc ++ l.flatten), acc ++ l.flatten, { it with rest := brk :: t, bit4 := b }) := by
  induction l generalizing n it acc with
  | nil =>
    cases n with
    | zero => simp at hn
    | succ n =>
      have hr' : it.rest = brk :: t := hr
      unfold chunkLoop
      rw [chunk_brk hr']
      refine ⟨it.bit4, ?_⟩
      simp [← hr']
  | cons c l ih =>
    cases n with
    | zero => simp at hn
    | succ n =>
      unfold chunkLoop
      rw [chunk_head hm (hl c (by simp)) (t := encChunks m l ++ t) (by rw [hr]; simp [encChunks]) ht (.inl hu)]
      simp only
      rw [h.apply' acc c]
      obtain ⟨b, hb⟩ := ih (fun c hc => hl c (by simp [hc])) n (acc ++ c) (by simp at hn; omega)
        (it := { it with rest := encChunks m l ++ t, bit4 := false }) rfl ht hu
      exact ⟨b, by rw [hb]; simp⟩

theorem chunkLoop_one {func buflen Q f} (h : Fun func buflen Q f) {m : Nat} (hm : m = 2 ∨ m = 3) {c t : Bytes}
    (hc : c.length < 2 ^ 64) (n : Nat) {it : Value} (hn : 1 < n) (hr : it.rest = head m c.length ++ (c ++ t))
    (ht : it.type = majorTy m) (hu : it.unknown = false) (hb : it.bit4 = true) :
    chunkLoop func buflen n it (Q []) [] = .ok (Q c, c, { it with rest := t, bit4 := false }) := by
  obtain ⟨n, rfl⟩ : ∃ k, n = k + 2 := ⟨n - 2, by omega⟩
  unfold chunkLoop
  rw [chunk_head hm hc hr ht (.inr hb)]
  simp only
  rw [h.apply' [] c]
  unfold chunkLoop
  rw [chunk_done (by exact hu) rfl]
  simp

/-- The content of a string. -/
def Item.str : Item → Option Bytes
  | .bytes b => some b
  | .text b => some b
  | .chunks _ l => some l.flatten
  | _ => none

theorem encChunks_length (m : Nat) (l : List Bytes) : l.length < (encChunks m l).length := by
  induction l with
  | nil => simp [encChunks]
  | cons c l ih => rw [encChunks, head_eq]; simp; omega

/-- The result of `iterate` for a string. -/
def Fun.fin (buflen : Nat) (Q : Bytes → Bool) (f : Nat → Bytes → Bool) (s : Bytes) : Bool :=
  if Q s = true ∧ buflen > s.length then f s.length [0] else Q s

theorem Fun.last {func buflen Q f} (h : Fun func buflen Q f) (s : Bytes) {β} (g : Bool → R β) :
    (if Q s = true ∧ buflen > s.length then func s.length [0] >>= g else pure (Q s) >>= g : R β) =
      g (Fun.fin buflen Q f s) := by
  unfold Fun.fin
  split
  · rename_i hh; rw [h.call _ _ (by simp; omega)]; rfl
  · rfl

theorem iterate_at {func buflen Q f} (h : Fun func buflen Q f) {ind m tl i l s} {v : Value} (hs : i.str = some s)
    (hi : i.Fits) (hl : Item.Fitss l) (hv : AtL ind m tl (i :: l) v) :
    ∃ w, iterate func buflen v = .ok (Fun.fin buflen Q f s, s, w) ∧ AtL ind m tl l w := by
  obtain ⟨hr, hc, hfl⟩ := hv
  -- a string of definite length
  have one (mt : Nat) (hm : mt = 2 ∨ mt = 3) (hs64 : s.length < 2 ^ 64)
      (hr : v.rest = head mt s.length ++ (s ++ (Item.encs l ++ term ind tl)))
      (hfl : v = v.setHead (majorTy mt) s.length false) :
      ∃ w, iterate func buflen v = .ok (Fun.fin buflen Q f s, s, w) ∧ AtL ind m tl l w := by
    have ht : v.type = majorTy mt := by rw [hfl]; rfl
    have hu : v.unknown = false := by rw [hfl]; rfl
    obtain ⟨w, hw, ha⟩ := next_at (u := { v with rest := Item.encs l ++ term ind tl, bit4 := false }) hl rfl
      ⟨hc.rem, hc.lt, hc.isMap, hc.key⟩ (by simp only [ht]; rcases hm with rfl | rfl <;> simp [majorTy])
    refine ⟨w, ?_, ha⟩
    unfold iterate
    rw [if_neg (by rw [ht]; rcases hm with rfl | rfl <;> simp [majorTy])]
    have hbeg : beginString v = .ok { v with bit4 := true } := by simp [beginString, hu]
    have hlp := chunkLoop_one h hm hs64 (v.rest.length + 2) (it := { v with bit4 := true }) (by omega) hr ht hu rfl
    rw [h.start] at hlp
    simp only [R.bind_eq, hbeg, R.bind, hlp]
    refine (h.last s (fun res => (finishString { v with rest := Item.encs l ++ term ind tl, bit4 := false }).bind
      fun it => .ok (res, s, it))).trans ?_
    have : finishString { v with rest := Item.encs l ++ term ind tl, bit4 := false } = .ok w := by
      rw [← hw]; simp [finishString, hu]
    rw [this]
    rfl
  cases i with
  | bytes b =>
    simp only [Item.str, Option.some.injEq] at hs; subst hs
    exact one 2 (.inl rfl) hi (by rw [hr]; simp [Item.encs, Item.enc]) hfl
  | text b =>
    simp only [Item.str, Option.some.injEq] at hs; subst hs
    exact one 3 (.inr rfl) hi (by rw [hr]; simp [Item.encs, Item.enc]) hfl
  | chunks b cs =>
    simp only [Item.str, Option.some.injEq] at hs; subst hs
    obtain ⟨mt, hmt, hm⟩ : ∃ mt, (if b then 3 else 2) = mt ∧ (mt = 2 ∨ mt = 3) := ⟨_, rfl, by cases b <;> simp⟩
    have ht : v.type = majorTy mt := by rw [hfl, ← hmt]; cases b <;> rfl
    have hu : v.unknown = true := by rw [hfl]; rfl
    have hr : v.rest = headIndef mt :: (encChunks mt cs ++ (Item.encs l ++ term ind tl)) := by
      rw [hr]; simp [Item.encs, Item.enc, hmt]
    have hbeg : beginString v = .ok { v with bit4 := true, rest := encChunks mt cs ++ (Item.encs l ++ term ind tl) } := by
      simp [beginString, hu, Value.skip, hr]
    obtain ⟨b4, hlp⟩ := chunkLoop_chunks h hm cs hi
      ((encChunks mt cs ++ (Item.encs l ++ term ind tl)).length + 2)
      (it := { v with bit4 := true, rest := encChunks mt cs ++ (Item.encs l ++ term ind tl) }) []
      (by have := encChunks_length mt cs; simp; omega) rfl ht hu
    obtain ⟨w, hw, ha⟩ := next_at (u := { v with rest := Item.encs l ++ term ind tl, bit4 := b4 }) hl rfl
      ⟨hc.rem, hc.lt, hc.isMap, hc.key⟩ (by simp only [ht]; rcases hm with rfl | rfl <;> simp [majorTy])
    refine ⟨w, ?_, ha⟩
    unfold iterate
    rw [if_neg (by rw [ht]; rcases hm with rfl | rfl <;> simp [majorTy])]
    rw [h.start] at hlp
    simp only [R.bind_eq, hbeg, R.bind, hlp]
    simp only [List.nil_append]
    refine (h.last cs.flatten (fun res => (finishString
      { v with rest := brk :: (Item.encs l ++ term ind tl), bit4 := b4 }).bind
      fun it => .ok (res, cs.flatten, it))).trans ?_
    have : finishString { v with rest := brk :: (Item.encs l ++ term ind tl), bit4 := b4 } = .ok w := by
      rw [← hw]; simp [finishString, hu, Value.skip]
    rw [this]
    rfl
  | _ => simp [Item.str] at hs

end Verif.Cbor
