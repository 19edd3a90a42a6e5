import Verif.Cbor.Parser

/-!
# tinycbor parser: memory safety, lemmas
-/

namespace Verif.Cbor

/-- The result is not undefined, and a value satisfies `P`. -/
def R.Sat {α} (P : α → Prop) : R α → Prop
  | .ok a => P a
  | .err _ => True
  | .ub => False

@[simp] theorem R.pure_eq {α} (a : α) : (pure a : R α) = .ok a := rfl
@[simp] theorem R.bind_eq {α β} (x : R α) (f : α → R β) : x >>= f = x.bind f := rfl
@[simp] theorem R.sat_ok {α} (P : α → Prop) (a : α) : R.Sat P (.ok a) = P a := rfl
@[simp] theorem R.sat_err {α} (P : α → Prop) (e) : R.Sat P (.err e) = True := rfl
@[simp] theorem R.sat_ub {α} (P : α → Prop) : R.Sat P .ub = False := rfl

theorem R.Sat.bind {α β} {P : α → Prop} {Q : β → Prop} {x : R α} {f : α → R β} (h : x.Sat P)
    (hf : ∀ a, P a → (f a).Sat Q) : (x.bind f).Sat Q := by
  cases x with
  | ok a => exact hf a h
  | err e => trivial
  | ub => exact h.elim

theorem R.Sat.imp {α} {P Q : α → Prop} {x : R α} (h : x.Sat P) (hf : ∀ a, P a → Q a) : x.Sat Q := by
  cases x with
  | ok a => exact hf a h
  | err e => trivial
  | ub => exact h.elim

theorem R.Sat.ite {α β} {P : α → Prop} {Q : β → Prop} {c : Prop} [Decidable c] {x y : R α} {f : α → R β}
    (h : (if c then x else y : R α).Sat P) (hf : ∀ a, P a → (f a).Sat Q) :
    (if c then x >>= f else y >>= f : R β).Sat Q := by
  by_cases hc : c
  · rw [if_pos hc] at h ⊢; exact h.bind hf
  · rw [if_neg hc] at h ⊢; exact h.bind hf

theorem R.Sat.ne_ub {α} {P : α → Prop} {x : R α} (h : x.Sat P) : x ≠ .ub := by
  rintro rfl; exact h

/-- A `CborValue` of which the descriptor has been read: at the end of a container, or in front of an item whose head is in
the buffer. -/
structure Good0 (it : Value) : Prop where
  le : it.remaining ≤ u32max
  fin : it.type = .invalid → it.remaining = 0 ∧ (it.unknown = true → it.rest ≠ [])
  pos : it.type ≠ .invalid → 0 < it.remaining
  hd : it.type ≠ .invalid → ∃ b r, it.rest = b :: r ∧ (isFixed it.type = false → tyOf b = it.type) ∧
    (it.unknown = true → isFixed it.type = false) ∧
    (it.unknown = false → small b ≤ 27 ∧ numBytes (small b) ≤ r.length ∧
      (it.is64 = true → small b = 27) ∧ (it.large = true → 26 ≤ small b))

/-- As `Good0`, and reading the descriptor again changes nothing. -/
structure Good (it : Value) : Prop extends Good0 it where
  pre : it.type ≠ .invalid → preparse it = .ok it

theorem ty_cases (b : UInt8) : tyOf b = .int ∨ tyOf b = .bytes ∨ tyOf b = .text ∨ tyOf b = .arr ∨ tyOf b = .map ∨
    tyOf b = .tag ∨ tyOf b = .simple := by
  unfold tyOf; grind

/-- What `preparse` keeps. -/
structure Same (it it' : Value) : Prop where
  rest : it'.rest = it.rest
  isMap : it'.isMap = it.isMap
  key : it'.nextIsKey = it.nextIsKey

/-- A value in front of `b :: r` whose argument has been read. -/
structure Mid (it : Value) (b : UInt8) (r : Bytes) : Prop where
  rest : it.rest = b :: r
  le : small b ≤ 27
  len : numBytes (small b) ≤ r.length
  l64 : it.is64 = true → small b = 27
  large : it.large = true → 26 ≤ small b
  unknown : it.unknown = false

theorem Mid.good {it : Value} {b r} (m : Mid it b r) (h : 0 < it.remaining) (hle : it.remaining ≤ u32max)
    (ht : it.type ≠ .invalid) (hf : isFixed it.type = false → tyOf b = it.type) : Good0 it :=
  ⟨hle, fun h => absurd h ht, fun _ => h, fun _ => ⟨b, r, m.rest, hf, fun h => by simp [m.unknown] at h,
    fun _ => ⟨m.le, m.len, m.l64, m.large⟩⟩⟩

/-- What reading the argument and the type keeps. -/
def Kept (it it' : Value) : Prop :=
  Same it it' ∧ it'.remaining = it.remaining

theorem num_cases {b : UInt8} (h27 : small b ≤ 27) : numBytes (small b) = 0 ∧ small b < 24 ∨
    numBytes (small b) = 1 ∧ small b = 24 ∨ numBytes (small b) = 2 ∧ small b = 25 ∨
    numBytes (small b) = 4 ∧ small b = 26 ∨ numBytes (small b) = 8 ∧ small b = 27 := by
  unfold numBytes
  have : small b < 24 ∨ small b = 24 ∨ small b = 25 ∨ small b = 26 ∨ small b = 27 := by omega
  rcases this with h | h | h | h | h
  · simp [h]
  all_goals simp [h]

theorem readExtra_sat {it : Value} {b r} (m : Mid it b r) :
    (readExtra it (small b)).Sat (fun v => Mid v b r ∧ Kept it v ∧ v.type = it.type) := by
  unfold readExtra Value.read
  have hr := m.rest
  have hl := m.len
  have hc := num_cases m.le
  split
  · exact ⟨m, ⟨⟨rfl, rfl, rfl⟩, rfl⟩, rfl⟩
  · split
    · rw [if_pos (by simp only [hr, List.length_cons]; omega)]
      exact ⟨⟨m.rest, m.le, m.len, m.l64, m.large, m.unknown⟩, ⟨⟨rfl, rfl, rfl⟩, rfl⟩, rfl⟩
    · refine ⟨⟨m.rest, m.le, m.len, ?_, ?_, m.unknown⟩, ⟨⟨rfl, rfl, rfl⟩, rfl⟩, rfl⟩
      · intro h; simpa using h
      · intro _; omega

theorem classify_sat {it : Value} {b r} (m : Mid it b r) (h : 0 < it.remaining) (hle : it.remaining ≤ u32max)
    (ht : it.type = tyOf b) : (classify it b).Sat (fun v => Good0 v ∧ v.type ≠ .invalid ∧ Kept it v) := by
  have hty := ty_cases b
  have hinv : tyOf b ≠ .invalid := by rcases hty with h | h | h | h | h | h | h <;> rw [h] <;> simp
  have key : ∀ v : Value, Mid v b r → Kept it v → (v.type = tyOf b ∨ (isFixed v.type = true ∧ v.type ≠ .invalid)) →
      Good0 v ∧ v.type ≠ .invalid ∧ Kept it v := by
    intro v mv hk hv
    have hv' : v.type ≠ .invalid := by
      rcases hv with hv | hv
      · rw [hv]; exact hinv
      · exact hv.2
    refine ⟨mv.good (hk.2 ▸ h) (hk.2 ▸ hle) hv' ?_, hv', hk⟩
    rcases hv with hv | hv
    · intro; exact hv.symm
    · intro h; simp [hv.1] at h
  unfold classify
  split
  · exact key _ ⟨m.rest, m.le, m.len, m.l64, m.large, m.unknown⟩ ⟨⟨rfl, rfl, rfl⟩, rfl⟩ (.inl ht)
  · split
    · rename_i hs
      unfold preparseSimple
      by_cases h20 : small b = 20
      · rw [if_pos h20]
        exact key _ ⟨m.rest, m.le, m.len, m.l64, m.large, m.unknown⟩ ⟨⟨rfl, rfl, rfl⟩, rfl⟩ (.inr (by simp [isFixed]))
      rw [if_neg h20]
      by_cases h21 : small b = 21
      · rw [if_pos h21]
        exact key _ ⟨m.rest, m.le, m.len, m.l64, m.large, m.unknown⟩ ⟨⟨rfl, rfl, rfl⟩, rfl⟩ (.inr (by simp [isFixed]))
      rw [if_neg h21]
      by_cases h22 : small b = 22
      · rw [if_pos h22]
        exact key _ ⟨m.rest, m.le, m.len, m.l64, m.large, m.unknown⟩ ⟨⟨rfl, rfl, rfl⟩, rfl⟩ (.inr (by simp [isFixed]))
      rw [if_neg h22]
      by_cases h23 : small b = 23
      · rw [if_pos h23]
        exact key _ ⟨m.rest, m.le, m.len, m.l64, m.large, m.unknown⟩ ⟨⟨rfl, rfl, rfl⟩, rfl⟩ (.inr (by simp [isFixed]))
      rw [if_neg h23]
      by_cases h24 : small b = 24
      · rw [if_pos h24]
        split
        · trivial
        · exact key _ m ⟨⟨rfl, rfl, rfl⟩, rfl⟩ (.inl ht)
      rw [if_neg h24]
      by_cases h25 : small b = 25
      · rw [if_pos h25]
        exact key _ ⟨m.rest, m.le, m.len, m.l64, m.large, m.unknown⟩ ⟨⟨rfl, rfl, rfl⟩, rfl⟩ (.inr (by simp [isFixed]))
      rw [if_neg h25]
      by_cases h26 : small b = 26
      · rw [if_pos h26]
        exact key _ ⟨m.rest, m.le, m.len, m.l64, fun _ => by omega, m.unknown⟩ ⟨⟨rfl, rfl, rfl⟩, rfl⟩
          (.inr (by simp [isFixed]))
      rw [if_neg h26]
      by_cases h27 : small b = 27
      · rw [if_pos h27]
        exact key _ ⟨m.rest, m.le, m.len, fun _ => h27, fun _ => by omega, m.unknown⟩ ⟨⟨rfl, rfl, rfl⟩, rfl⟩
          (.inr (by simp [isFixed]))
      rw [if_neg h27]
      exact key _ m ⟨⟨rfl, rfl, rfl⟩, rfl⟩ (.inl ht)
    · exact key _ m ⟨⟨rfl, rfl, rfl⟩, rfl⟩ (.inl ht)

theorem preparse_sat0 (it : Value) (h : 0 < it.remaining) (hle : it.remaining ≤ u32max) :
    (preparse it).Sat (fun v => Good0 v ∧ v.type ≠ .invalid ∧ Kept it v) := by
  unfold preparse
  cases hr : it.rest with
  | nil => trivial
  | cons b r =>
    have ht := ty_cases b
    have hinv : tyOf b ≠ .invalid := by rcases ht with h | h | h | h | h | h | h <;> rw [h] <;> simp
    simp only
    split
    · split
      · trivial
      · split
        · trivial
        · rename_i hf
          refine ⟨⟨hle, fun h => absurd h hinv, fun _ => h, fun _ => ⟨b, r, hr, ?_, ?_, ?_⟩⟩, hinv, ⟨rfl, rfl, rfl⟩, rfl⟩
          · intro; rfl
          · intro; simpa [fresh] using hf
          · intro h; cases h
    · split
      · trivial
      · rename_i h27 hc
        have hlen : numBytes (small b) ≤ r.length := by
          by_cases h0 : numBytes (small b) = 0
          · omega
          · simp only [Value.canRead, hr, List.length_cons] at hc
            grind
        have m : Mid (fresh it b) b r := ⟨hr, by omega, hlen, by simp [fresh], by simp [fresh], rfl⟩
        refine (readExtra_sat m).bind fun v ⟨mv, hk, hv⟩ => ?_
        refine (classify_sat mv (by rw [hk.2]; exact h) (by rw [hk.2]; exact hle) hv).imp fun w ⟨hg, hw, hk2⟩ => ?_
        exact ⟨hg, hw, ⟨hk2.1.rest.trans hk.1.rest, hk2.1.isMap.trans hk.1.isMap, hk2.1.key.trans hk.1.key⟩,
          hk2.2.trans hk.2⟩

theorem preparse_congr {it v : Value} (h : Kept it v) : preparse v = preparse it := by
  have hf (b) : fresh v b = fresh it b := by
    unfold fresh
    rw [h.1.rest, h.2, h.1.isMap, h.1.key]
  unfold preparse Value.canRead
  simp only [hf, h.1.rest]

theorem preparse_sat (it : Value) (h : 0 < it.remaining) (hle : it.remaining ≤ u32max) :
    (preparse it).Sat (fun v => Good v ∧ v.type ≠ .invalid ∧ Kept it v) := by
  have := preparse_sat0 it h hle
  cases hp : preparse it with
  | err e => trivial
  | ub => rw [hp] at this; exact this
  | ok v =>
    rw [hp] at this
    exact ⟨⟨this.1, fun _ => (preparse_congr this.2.2).trans hp⟩, this.2⟩

theorem nextNoDec_sat (it : Value) (h : 0 < it.remaining) (hle : it.remaining ≤ u32max) :
    (nextNoDec it).Sat (fun v => Good v ∧ Same it v ∧
      (v.type = .invalid → it.remaining = u32max ∧ ¬ (it.isMap = true ∧ it.nextIsKey = true) ∧ it.type ≠ .tag) ∧
      (v.type ≠ .invalid → v.remaining = it.remaining)) := by
  unfold nextNoDec
  split
  · split
    · trivial
    · rename_i hb hn
      refine ⟨⟨⟨Nat.zero_le _, fun _ => ⟨rfl, fun _ h => ?_⟩, fun h => absurd rfl h, fun h => absurd rfl h⟩,
        fun h => absurd rfl h⟩, ⟨rfl, rfl, rfl⟩,
        fun _ => ⟨hb.1, fun h => hn (.inl h), fun h => hn (.inr h)⟩, fun h => absurd rfl h⟩
      simp only at h
      simp [h] at hb
  · exact (preparse_sat it h hle).imp fun v ⟨hg, hv, hk⟩ => ⟨hg, hk.1, fun h => absurd h hv, fun _ => hk.2⟩

/-- One item further in the container. -/
structure Adv (it it' : Value) : Prop where
  good : Good it'
  isMap : it'.isMap = it.isMap
  fin : it'.type = .invalid → it.remaining = 1 ∨ it.remaining = u32max ∧ (it.isMap = true → it.nextIsKey = true)
  key : it'.type ≠ .invalid → it'.nextIsKey = !it.nextIsKey
  rem : it'.type ≠ .invalid → it'.remaining = if it.remaining = u32max then u32max else it.remaining - 1
  one : it'.type ≠ .invalid → it.remaining ≠ 1

theorem next_rest (it : Value) (h : 0 < it.remaining) (hle : it.remaining ≤ u32max) (ht : it.type ≠ .tag) :
    (next it).Sat (fun v => Adv it v ∧ v.rest = it.rest) := by
  unfold next
  rw [if_neg ht]
  split
  · rename_i hm
    have hlt : it.remaining < u32max := by omega
    have e : (it.remaining + u32max) % (u32max + 1) = it.remaining - 1 := by unfold u32max at *; omega
    rw [e]
    split
    · exact ⟨⟨⟨⟨Nat.zero_le _, fun _ => ⟨rfl, by simp⟩, fun h => absurd rfl h, fun h => absurd rfl h⟩,
        fun h => absurd rfl h⟩, rfl,
        fun _ => .inl (by omega), fun h => absurd rfl h, fun h => absurd rfl h, fun h => absurd rfl h⟩, rfl⟩
    · rename_i h1
      refine (nextNoDec_sat _ (by simp only; omega) (by simp only; omega)).imp fun v ⟨hg, hs, hf, hr⟩ => ?_
      refine ⟨⟨hg, hs.isMap, fun h => ?_, fun h => hs.key, fun h => ?_, fun _ => by omega⟩, hs.rest⟩
      · have := (hf h).1; simp only at this; omega
      · rw [hr h, if_neg hm]
  · rename_i hm
    have hm : it.remaining = u32max := by omega
    refine (nextNoDec_sat { it with nextIsKey := !it.nextIsKey } h hle).imp fun v ⟨hg, hs, hf, hr⟩ => ?_
    refine ⟨⟨hg, hs.isMap, fun h => ?_, fun h => hs.key, fun h => ?_, fun _ => by unfold u32max at *; omega⟩, hs.rest⟩
    · have := (hf h).2.1
      simp only at this
      right
      refine ⟨hm, fun hi => ?_⟩
      cases hk : it.nextIsKey
      · simp [hi, hk] at this
      · rfl
    · rw [hr h, if_pos hm]; exact hm

/-- A tag has been skipped: the same position in the container. -/
structure Tagged (it it' : Value) : Prop where
  good : Good it'
  ne : it'.type ≠ .invalid
  isMap : it'.isMap = it.isMap
  key : it'.nextIsKey = it.nextIsKey
  rem : it'.remaining = it.remaining

theorem next_tag (it : Value) (h : 0 < it.remaining) (hle : it.remaining ≤ u32max) (ht : it.type = .tag) :
    (next it).Sat (fun v => Tagged it v ∧ v.rest = it.rest) := by
  unfold next
  rw [if_pos ht]
  refine (nextNoDec_sat _ h hle).imp fun v ⟨hg, hs, hf, hr⟩ => ?_
  have hv : v.type ≠ .invalid := fun h => (hf h).2.2 ht
  exact ⟨⟨hg, hv, hs.isMap, hs.key, hr hv⟩, hs.rest⟩

/-- The effect of going to the next item. -/
structure Post (it it' : Value) : Prop where
  lt : it'.rest.length < it.rest.length
  tag : it.type = .tag → Tagged it it'
  adv : it.type ≠ .tag → Adv it it'

theorem Post.good {it it'} (h : Post it it') : Good it' := by
  by_cases ht : it.type = .tag
  · exact (h.tag ht).good
  · exact (h.adv ht).good

theorem Adv.congr {a b c : Value} (h : Adv a c) (h1 : b.remaining = a.remaining) (h2 : b.isMap = a.isMap)
    (h3 : b.nextIsKey = a.nextIsKey) : Adv b c :=
  ⟨h.good, h2 ▸ h.isMap, by rw [h1, h2, h3]; exact h.fin, by rw [h3]; exact h.key, by rw [h1]; exact h.rem,
    by rw [h1]; exact h.one⟩

theorem Tagged.congr {a b c : Value} (h : Tagged a c) (h1 : b.remaining = a.remaining) (h2 : b.isMap = a.isMap)
    (h3 : b.nextIsKey = a.nextIsKey) : Tagged b c :=
  ⟨h.good, h.ne, h2 ▸ h.isMap, h3 ▸ h.key, h1 ▸ h.rem⟩

/-- Going to the next item from a value which has been moved forward. -/
theorem next_post (it v : Value) (h : 0 < it.remaining) (hle : it.remaining ≤ u32max) (h1 : v.remaining = it.remaining)
    (h2 : v.isMap = it.isMap) (h3 : v.nextIsKey = it.nextIsKey) (h4 : v.type = it.type)
    (h5 : v.rest.length < it.rest.length) : (next v).Sat (Post it) := by
  by_cases ht : it.type = .tag
  · refine (next_tag v (by omega) (by omega) (by rw [h4, ht])).imp fun w ⟨hw, hr⟩ => ?_
    exact ⟨by rw [hr]; exact h5, fun _ => hw.congr h1.symm h2.symm h3.symm, fun h => absurd ht h⟩
  · refine (next_rest v (by omega) (by omega) (by rw [h4]; exact ht)).imp fun w ⟨hw, hr⟩ => ?_
    exact ⟨by rw [hr]; exact h5, fun h => absurd h ht, fun _ => hw.congr h1.symm h2.symm h3.symm⟩

/-- Only the position has changed. -/
def Moved (it v : Value) : Prop := v = { it with rest := v.rest } ∧ v.rest.length < it.rest.length

theorem num_sat {it : Value} (hg : Good it) (ht : it.type ≠ .invalid) (hu : it.unknown = false) :
    it.num.Sat (fun _ => True) := by
  obtain ⟨b, r, hr, -, -, h3⟩ := hg.hd ht
  obtain ⟨hle, hlen, h64, hlarge⟩ := h3 hu
  have hc := num_cases hle
  unfold Value.num Value.read
  split
  · rename_i hl
    have := hlarge hl
    rw [hr, if_pos]
    · trivial
    · simp only [List.length_cons]
      cases h : it.is64
      · simp; omega
      · have := h64 h; simp; omega
  · trivial

theorem numAdvance_sat {it : Value} (hg : Good it) (ht : it.type ≠ .invalid) (hu : it.unknown = false) :
    (numAdvance it).Sat (fun p => Moved it p.2) := by
  unfold numAdvance
  refine (num_sat hg ht hu).bind fun n _ => ?_
  obtain ⟨b, r, hr, -, -, h3⟩ := hg.hd ht
  obtain ⟨hle, hlen, h64, hlarge⟩ := h3 hu
  rw [hr]
  simp only [Value.skip, hr, List.length_cons]
  rw [if_pos (by omega)]
  refine ⟨rfl, ?_⟩
  simp [hr]
  omega

theorem advanceInternal_sat {it : Value} (hg : Good it) (ht : it.type ≠ .invalid) (hf : isFixed it.type = true) :
    (advanceInternal it).Sat (Post it) := by
  have hu : it.unknown = false := by
    obtain ⟨b, r, hr, -, h2, -⟩ := hg.hd ht
    cases h : it.unknown
    · rfl
    · have := h2 h; simp [hf] at this
  unfold advanceInternal
  refine (numAdvance_sat hg ht hu).bind fun p ⟨he, hl⟩ => ?_
  obtain ⟨n, v⟩ := p
  simp only at he hl ⊢
  have h4 : v.type = it.type := by rw [he]
  rw [if_neg (by rw [h4]; intro h; rcases h with h | h <;> simp [isFixed, h] at hf)]
  exact next_post it v (hg.pos ht) hg.le (by rw [he]) (by rw [he]) (by rw [he]) h4 hl

theorem skip_sat (it : Value) (n : Nat) (h : n ≤ it.rest.length) :
    (it.skip n).Sat (fun v => v = { it with rest := it.rest.drop n }) := by
  unfold Value.skip
  rw [if_pos h]
  rfl

theorem chunkSize_sat (it : Value) : (chunkSize it).Sat (fun p => 1 ≤ p.1 ∧ p.1 ≤ it.rest.length) := by
  unfold chunkSize
  split
  · trivial
  · cases hr : it.rest with
    | nil => trivial
    | cons b r =>
      simp only
      split
      · trivial
      · split
        · trivial
        · split
          · exact ⟨Nat.le_refl _, by simp⟩
          · split
            · trivial
            · split
              · trivial
              · rename_i hc
                simp only [Value.canRead, hr, List.length_cons] at hc
                have hc : 1 + numBytes (small b) ≤ r.length + 1 := by grind
                unfold Value.read
                rw [hr, if_pos (by simpa using hc)]
                exact ⟨by simp, by simpa using hc⟩

theorem chunkSize_noMore {it : Value} (h : chunkSize it = .err .noMoreChunks) :
    (it.unknown = false ∧ it.bit4 = false) ∨ ∃ r, it.rest = 0xff :: r := by
  unfold chunkSize at h
  split at h
  · rename_i hb; left; simpa using hb
  · cases hr : it.rest with
    | nil => simp [hr] at h
    | cons b r =>
      simp only [hr] at h
      split at h
      · rename_i hb; right; exact ⟨r, by rw [hb]⟩
      · exfalso
        revert h
        unfold Value.read
        (repeat' split) <;> simp [R.bind]

theorem chunk_sat (it : Value) : (chunk it).Sat (fun p => p.2 = { it with rest := p.2.rest, bit4 := false } ∧
    p.2.rest.length < it.rest.length) := by
  unfold chunk
  refine (chunkSize_sat it).bind fun p ⟨h1, h2⟩ => ?_
  obtain ⟨o, len⟩ := p
  refine (skip_sat it o h2).bind fun v hv => ?_
  subst hv
  split
  · rename_i hr
    simp only [Value.canRead, decide_eq_true_eq] at hr
    unfold Value.read Value.skip
    rw [if_pos (by rw [Nat.zero_add]; exact hr), if_pos hr]
    refine ⟨rfl, ?_⟩
    simp only [List.length_drop]
    simp only at h1 h2
    omega
  · trivial

theorem chunk_noMore {it : Value} (h : chunk it = .err .noMoreChunks) :
    (it.unknown = false ∧ it.bit4 = false) ∨ ∃ r, it.rest = 0xff :: r := by
  unfold chunk at h
  cases hc : chunkSize it with
  | ub => simp [hc, R.bind] at h
  | err e => simp [hc, R.bind] at h; subst h; exact chunkSize_noMore hc
  | ok p =>
    exfalso
    simp only [hc, R.bind_eq, R.bind, Value.skip] at h
    by_cases h0 : p.1 ≤ it.rest.length
    · simp only [h0, if_true, Value.read] at h
      split at h
      · by_cases h1 : p.2 ≤ it.rest.length - p.1 <;> simp [h1] at h
      · simp at h
    · simp [h0] at h

theorem chunkLoop_sat {func : Nat → Bytes → R Bool} {buflen : Nat}
    (hf : ∀ o c, o + c.length ≤ buflen → (func o c).Sat (fun _ => True)) (n : Nat) (it : Value) (res : Bool) (acc : Bytes)
    (hn : it.rest.length < n) : (chunkLoop func buflen n it res acc).Sat (fun p =>
      p.2.2 = { it with rest := p.2.2.rest, bit4 := p.2.2.bit4 } ∧ p.2.2.rest.length ≤ it.rest.length ∧
      (it.bit4 = true → (∀ r, it.rest ≠ 0xff :: r) → p.2.2.rest.length < it.rest.length) ∧
      (it.unknown = true → ∃ r, p.2.2.rest = 0xff :: r)) := by
  induction n generalizing it res acc with
  | zero => omega
  | succ n ih =>
    unfold chunkLoop
    have hs := chunk_sat it
    cases hc : chunk it with
    | ub => rw [hc] at hs; exact hs
    | err e =>
      by_cases he : e = .noMoreChunks
      · subst he
        have := chunk_noMore hc
        refine ⟨rfl, Nat.le_refl _, fun hb hr => ?_, fun hu => ?_⟩
        · rcases this with h | ⟨r, h⟩
          · rw [hb] at h; cases h.2
          · exact absurd h (hr r)
        · rcases this with h | h
          · rw [hu] at h; cases h.1
          · exact h
      · cases e <;> first | trivial | exact absurd rfl he
    | ok p =>
      rw [hc] at hs
      obtain ⟨c, v⟩ := p
      obtain ⟨h1, h2⟩ := hs
      simp only at h1 h2 ⊢
      have hp : ((if (res = true ∧ acc.length + c.length ≤ buflen) then func acc.length c else pure false) : R Bool).Sat
          (fun _ => True) := by
        split
        · exact hf _ _ (‹_ ∧ _›).2
        · trivial
      refine R.Sat.ite hp fun b _ => (ih v b (acc ++ c) (by omega)).imp fun q ⟨q1, q2, q3, q4⟩ => ?_
      have e : v.unknown = it.unknown := by rw [h1]
      refine ⟨?_, by omega, fun _ _ => by omega, fun h => q4 (e ▸ h)⟩
      rw [q1, h1]

theorem iterate_sat {func : Nat → Bytes → R Bool} {buflen : Nat}
    (hf : ∀ o c, o + c.length ≤ buflen → (func o c).Sat (fun _ => True)) {it : Value} (hg : Good it)
    (ht : it.type = .bytes ∨ it.type = .text) : (iterate func buflen it).Sat (fun p => Post it p.2.2) := by
  have hne : it.type ≠ .invalid := by rcases ht with h | h <;> rw [h] <;> simp
  have hfx : isFixed it.type = false := by rcases ht with h | h <;> rw [h] <;> rfl
  obtain ⟨b, r, hr, h1, h2, h3⟩ := hg.hd hne
  unfold iterate
  rw [if_neg (by rcases ht with h | h <;> simp [h])]
  have hb : (beginString it).Sat (fun v => v = { it with rest := if it.unknown then r else it.rest, bit4 := true }) := by
    unfold beginString
    simp only
    split
    · refine (skip_sat _ 1 (by simp [hr])).imp fun v hv => ?_
      rw [hv]
      rename_i hu
      simp [hr]
    · rename_i hu
      simp
  refine hb.bind fun v hv => ?_
  refine (chunkLoop_sat hf _ v true [] (by omega)).bind fun p ⟨p1, p2, p3, p4⟩ => ?_
  obtain ⟨res, s, w⟩ := p
  simp only at p1 p2 p3 p4 ⊢
  have hp : ((if (res = true ∧ buflen > s.length) then func s.length [0] else pure res) : R Bool).Sat
      (fun _ => True) := by
    split
    · exact hf _ _ (by simp only [List.length_cons, List.length_nil]; omega)
    · trivial
  refine R.Sat.ite hp fun res _ => ?_
  have hw : w = { it with rest := w.rest, bit4 := w.bit4 } := by rw [p1, hv]
  have hlt : w.rest.length < it.rest.length := by
    cases hu : it.unknown
    · have hv' : v.rest = it.rest := by rw [hv]; simp [hu]
      have := p3 (by rw [hv]) (fun r' h => ?_)
      · rw [hv'] at this; exact this
      · rw [hv', hr] at h
        cases h
        have := h1 hfx
        rcases ht with h | h <;> rw [h] at this <;> exact absurd this (by decide)
    · have hv' : v.rest = r := by rw [hv]; simp [hu]
      rw [hv'] at p2
      simp only [hr, List.length_cons]
      omega
  have hfin : (finishString w).Sat (Post it) := by
    unfold finishString
    have hq : ((if w.unknown = true then w.skip 1 else pure w) : R Value).Sat (fun u => u = { w with rest := u.rest } ∧
        u.rest.length ≤ w.rest.length) := by
      split
      · rename_i hu
        obtain ⟨r', hr'⟩ := p4 (by rw [p1] at hu; exact hu)
        refine (skip_sat w 1 (by simp [hr'])).imp fun u hu => ?_
        rw [hu]
        exact ⟨rfl, by simp⟩
      · exact ⟨rfl, Nat.le_refl _⟩
    refine R.Sat.ite hq fun u ⟨hu, hul⟩ => ?_
    rw [hw] at hu
    exact next_post it u (hg.pos hne) hg.le (by rw [hu]) (by rw [hu]) (by rw [hu]) (by rw [hu]) (by omega)
  exact hfin.bind fun u hu => hu

theorem skipString_sat {it : Value} (hg : Good it) (ht : it.type = .bytes ∨ it.type = .text) :
    (skipString it).Sat (fun p => Post it p.2) := by
  unfold skipString
  refine R.Sat.bind (P := fun p => Post it p.2.2) (iterate_sat (fun _ _ _ => ?_) hg ht) fun p hp => by
    obtain ⟨_, _, _⟩ := p; exact hp
  trivial

/-- The iterator of a container which has been entered. -/
structure Inside (it v : Value) : Prop where
  lt : v.rest.length < it.rest.length
  good : Good v
  isMap : v.type ≠ .invalid → v.isMap = decide (it.type = .map)
  key : v.type ≠ .invalid → v.nextIsKey = false
  even : v.type ≠ .invalid → it.type = .map → v.remaining = u32max ∨ 2 ∣ v.remaining

theorem isContainer_iff (t : Ty) : isContainer t = true ↔ t = .arr ∨ t = .map := by
  cases t <;> simp [isContainer]

theorem enter_sat {it : Value} (hg : Good it) (ht : isContainer it.type = true) : (enter it).Sat (Inside it) := by
  have hne : it.type ≠ .invalid := by intro h; simp [h, isContainer] at ht
  have hnt : it.type ≠ .tag := by intro h; simp [h, isContainer] at ht
  obtain ⟨b, r, hr, h1, h2, h3⟩ := hg.hd hne
  unfold enter
  rw [if_neg (by simp [ht])]
  have hp : (if it.unknown = true then Value.skip { it with remaining := u32max } 1 else enterKnown it : R Value).Sat
      (fun v => v.rest.length < it.rest.length ∧ v.type = it.type ∧ v.unknown = it.unknown ∧ v.remaining ≤ u32max ∧
        (v.remaining = 0 → it.unknown = false) ∧ (it.type = .map → v.remaining = u32max ∨ 2 ∣ v.remaining)) := by
    split
    · refine (skip_sat _ 1 (by simp [hr])).imp fun v hv => ?_
      subst hv
      exact ⟨by simp [hr], rfl, rfl, Nat.le_refl _, fun h => by simp [u32max] at h, fun _ => .inl rfl⟩
    · rename_i hu
      have hu : it.unknown = false := by simpa using hu
      unfold enterKnown
      refine (numAdvance_sat hg hne hu).bind fun p ⟨he, hl⟩ => ?_
      obtain ⟨len, v⟩ := p
      simp only at he hl ⊢
      have hvt : v.type = it.type := by rw [he]
      have hvu : v.unknown = it.unknown := by rw [he]
      split
      · trivial
      · split
        · trivial
        · rename_i g1 g2
          refine ⟨hl, hvt, hvu, ?_, fun _ => hu, fun hm => .inr ?_⟩
          · simp only
            split
            · rename_i hm
              have : ¬ len > u32max / 2 := fun h => g2 ⟨hm, h⟩
              unfold u32max at *; omega
            · omega
          · simp only [hvt, hm, if_true]; omega
  refine R.Sat.ite hp fun v ⟨v1, v2, v3, v4, v5, v6⟩ => ?_
  simp only
  split
  · rename_i h0
    refine ⟨v1, ⟨⟨by simp only; omega, fun _ => ⟨h0, fun h => ?_⟩, fun h => absurd rfl h, fun h => absurd rfl h⟩,
        fun h => absurd rfl h⟩,
      fun h => absurd rfl h, fun h => absurd rfl h, fun h => absurd rfl h⟩
    rw [v3, v5 h0] at h; cases h
  · rename_i h0
    refine (nextNoDec_sat _ (by simp only; omega) (by simp only; omega)).imp fun w ⟨w1, w2, w3, w4⟩ => ?_
    refine ⟨by rw [w2.rest]; exact v1, w1, fun _ => ?_, fun _ => w2.key, fun h hm => ?_⟩
    · rw [w2.isMap, v2]
    · rw [w4 h]; exact v6 hm

theorem leave_sat {it v : Value} (hg : Good it) (ht : isContainer it.type = true) (hv : Good v) (hi : v.type = .invalid)
    (hl : v.rest.length < it.rest.length) : (leave it v).Sat (Post it) := by
  have hne : it.type ≠ .invalid := by intro h; simp [h, isContainer] at ht
  unfold leave
  rw [if_neg (by simp [ht, hi])]
  have hp : (if v.unknown = true then Value.skip { it with rest := v.rest } 1 else pure { it with rest := v.rest } : R Value).Sat
      (fun u => u = { it with rest := u.rest } ∧ u.rest.length ≤ v.rest.length) := by
    split
    · rename_i hu
      have hr := (hv.fin hi).2 hu
      refine (skip_sat _ 1 ?_).imp fun u hu => ?_
      · simp only
        cases hr' : v.rest with
        | nil => exact absurd hr' hr
        | cons => simp
      · subst hu; exact ⟨rfl, by simp⟩
    · exact ⟨rfl, Nat.le_refl _⟩
  refine R.Sat.ite hp fun u ⟨hu, hul⟩ => ?_
  exact next_post it u (hg.pos hne) hg.le (by rw [hu]) (by rw [hu]) (by rw [hu]) (by rw [hu]) (by omega)

theorem elemLoop_sat {step : Value → R Value} (hs : ∀ v, Good v → v.type ≠ .invalid → (step v).Sat (Post v)) (n : Nat)
    {it : Value} (hg : Good it) (hn : it.rest.length < n) :
    (elemLoop step n it).Sat (fun v => Good v ∧ v.type = .invalid ∧ v.rest.length ≤ it.rest.length) := by
  induction n generalizing it with
  | zero => omega
  | succ n ih =>
    unfold elemLoop
    split
    · rename_i h0
      refine ⟨hg, ?_, Nat.le_refl _⟩
      refine Classical.byContradiction fun h => ?_
      have := hg.pos h; omega
    · rename_i h0
      refine (hs it hg fun h => h0 (hg.fin h).1).bind fun v hv => ?_
      exact (ih hv.good (by have := hv.lt; omega)).imp fun w ⟨w1, w2, w3⟩ => ⟨w1, w2, by have := hv.lt; omega⟩

theorem ty_string {t : Ty} (h1 : t ≠ .invalid) (h2 : isFixed t = false) (h3 : isContainer t = false) :
    t = .bytes ∨ t = .text := by
  cases t <;> simp_all [isFixed, isContainer]

theorem advRec_sat (n : Nat) {it : Value} (hg : Good it) (ht : it.type ≠ .invalid) : (advRec n it).Sat (Post it) := by
  induction n generalizing it with
  | zero =>
    unfold advRec
    split
    · exact advanceInternal_sat hg ht ‹_›
    · split
      · rename_i h1 h2
        exact (skipString_sat hg (ty_string ht (by simpa using h1) (by simpa using h2))).bind fun p hp => hp
      · trivial
  | succ n ih =>
    unfold advRec
    split
    · exact advanceInternal_sat hg ht ‹_›
    · split
      · rename_i h1 h2
        exact (skipString_sat hg (ty_string ht (by simpa using h1) (by simpa using h2))).bind fun p hp => hp
      · rename_i hc
        have hc : isContainer it.type = true := by simpa using hc
        refine (enter_sat hg hc).bind fun v hv => ?_
        refine (elemLoop_sat (fun v hv h => ih hv h) _ hv.good (Nat.lt_succ_self _)).bind fun w ⟨w1, w2, w3⟩ => ?_
        exact leave_sat hg hc w1 w2 (by have := hv.lt; omega)

theorem advance_sat {it : Value} (hg : Good it) (ht : it.type ≠ .invalid) : (advance it).Sat (Post it) := by
  unfold advance
  rw [if_neg ht]
  split
  · trivial
  · exact advRec_sat _ hg ht

theorem advanceFixed_sat {it : Value} (hg : Good it) (ht : it.type ≠ .invalid) (hf : isFixed it.type = true) :
    (advanceFixed it).Sat (Post it) := by
  unfold advanceFixed
  rw [if_neg (by simp [ht, hf])]
  split
  · trivial
  · exact advanceInternal_sat hg ht hf

/-- Tags have been skipped. -/
structure Untagged (it v : Value) : Prop where
  le : v.rest.length ≤ it.rest.length
  good : Good v
  ne : v.type ≠ .invalid
  nt : v.type ≠ .tag
  isMap : v.isMap = it.isMap
  key : v.nextIsKey = it.nextIsKey
  rem : v.remaining = it.remaining

theorem skipTags_sat (n : Nat) {it : Value} (hg : Good it) (ht : it.type ≠ .invalid) (hn : it.rest.length < n) :
    (skipTags n it).Sat (Untagged it) := by
  induction n generalizing it with
  | zero => omega
  | succ n ih =>
    unfold skipTags
    split
    · rename_i htag
      refine (advanceFixed_sat hg ht (by simp [htag, isFixed])).bind fun v hv => ?_
      have t := hv.tag htag
      refine (ih t.good t.ne (by have := hv.lt; omega)).imp fun w hw => ?_
      exact ⟨by have := hv.lt; have := hw.le; omega, hw.good, hw.ne, hw.nt, hw.isMap.trans t.isMap, hw.key.trans t.key,
        hw.rem.trans t.rem⟩
    · exact ⟨Nat.le_refl _, hg, ht, ‹_›, rfl, rfl, rfl⟩

theorem skipTag_sat {it : Value} (hg : Good it) (ht : it.type ≠ .invalid) : (skipTag it).Sat (Untagged it) :=
  skipTags_sat _ hg ht (Nat.lt_succ_self _)

/-- In front of a key of a map, or at its end. -/
structure AtKey (it : Value) : Prop where
  good : Good it
  isMap : it.type ≠ .invalid → it.isMap = true
  key : it.type ≠ .invalid → it.nextIsKey = false
  even : it.type ≠ .invalid → it.remaining = u32max ∨ 2 ∣ it.remaining

/-- In front of the value of a key. -/
structure AtVal (it : Value) : Prop where
  good : Good it
  ne : it.type ≠ .invalid
  isMap : it.isMap = true
  key : it.nextIsKey = true
  odd : it.remaining = u32max ∨ ¬ 2 ∣ it.remaining

theorem Adv.atVal {it v : Value} (h : Adv it v) (hg : Good it) (ht : it.type ≠ .invalid) (hm : it.isMap = true)
    (hk : it.nextIsKey = false) (he : it.remaining = u32max ∨ 2 ∣ it.remaining) : AtVal v := by
  have hne : v.type ≠ .invalid := by
    intro hv
    rcases h.fin hv with h1 | ⟨-, h2⟩
    · rcases he with he | he
      · rw [h1] at he; simp [u32max] at he
      · rw [h1] at he; omega
    · have := h2 hm; rw [hk] at this; cases this
  refine ⟨h.good, hne, h.isMap.trans hm, by rw [h.key hne, hk]; rfl, ?_⟩
  rw [h.rem hne]
  have := hg.pos ht
  split
  · exact .inl rfl
  · right; omega

theorem Adv.atKey {it v : Value} (h : Adv it v) (hg : Good it) (ht : it.type ≠ .invalid) (hm : it.isMap = true)
    (hk : it.nextIsKey = true) (he : it.remaining = u32max ∨ ¬ 2 ∣ it.remaining) : AtKey v := by
  refine ⟨h.good, fun _ => h.isMap.trans hm, fun hne => by rw [h.key hne, hk]; rfl, fun hne => ?_⟩
  rw [h.rem hne]
  have := hg.pos ht
  split
  · exact .inl rfl
  · right; omega

theorem findSkip_sat {it : Value} (h : AtVal it) : (findSkip it).Sat (fun v => AtKey v ∧ v.rest.length < it.rest.length) := by
  unfold findSkip
  refine (skipTag_sat h.good h.ne).bind fun v hv => ?_
  refine (advance_sat hv.good hv.ne).imp fun w hw => ⟨?_, by have := hw.lt; have := hv.le; omega⟩
  exact (hw.adv hv.nt).atKey hv.good hv.ne (hv.isMap.trans h.isMap) (hv.key.trans h.key) (by rw [hv.rem]; exact h.odd)

theorem memcmpTo_sat (s : Bytes) (o : Nat) (c : Bytes) (h : o + c.length ≤ s.length) :
    (memcmpTo s o c).Sat (fun _ => True) := by
  unfold memcmpTo
  rw [if_pos (by omega)]
  trivial

theorem memcpyTo_sat {size buflen : Nat} (hs : buflen ≤ size) (o : Nat) (c : Bytes) (h : o + c.length ≤ buflen) :
    (memcpyTo size o c).Sat (fun _ => True) := by
  unfold memcpyTo
  rw [if_pos (by omega)]
  trivial

theorem findLoop_sat (s : Bytes) (n : Nat) {it : Value} (h : AtKey it) (hn : it.rest.length < n) :
    (findLoop s n it).Sat (fun o => ∀ v, o = some v → AtVal v) := by
  induction n generalizing it with
  | zero => omega
  | succ n ih =>
    unfold findLoop
    split
    · intro v hv; cases hv
    · rename_i h0
      have hne : it.type ≠ .invalid := fun h' => h0 (h.good.fin h').1
      refine (skipTag_sat h.good hne).bind fun v hv => ?_
      have hval {w : Value} (hw : Post v w) : AtVal w ∧ w.rest.length < it.rest.length :=
        ⟨(hw.adv hv.nt).atVal hv.good hv.ne (hv.isMap.trans (h.isMap hne)) (hv.key.trans (h.key hne))
          (by rw [hv.rem]; exact h.even hne), by have := hw.lt; have := hv.le; omega⟩
      simp only
      split
      · rename_i ht
        refine (iterate_sat (memcmpTo_sat s) hv.good (.inr ht)).bind fun p hp => ?_
        obtain ⟨eq, k, w⟩ := p
        obtain ⟨hw, hl⟩ := hval hp
        simp only at hw hl ⊢
        split
        · unfold findHit
          rw [hw.good.pre hw.ne]
          intro u hu
          cases hu
          exact hw
        · exact (findSkip_sat hw).bind fun u ⟨hu, hul⟩ => ih hu (by omega)
      · refine (advance_sat hv.good hv.ne).bind fun w hp => ?_
        obtain ⟨hw, hl⟩ := hval hp
        exact (findSkip_sat hw).bind fun u ⟨hu, hul⟩ => ih hu (by omega)

theorem none_good : Good Value.none :=
  ⟨⟨Nat.zero_le _, fun _ => ⟨rfl, fun h => by cases h⟩, fun h => absurd rfl h, fun h => absurd rfl h⟩, fun h => absurd rfl h⟩

theorem find_sat {map : Value} (hg : Good map) (ht : map.type = .map) (s : Bytes) : (find map s).Sat Good := by
  unfold find
  rw [if_neg (by simp [ht])]
  refine (enter_sat hg (by simp [ht, isContainer])).bind fun v hv => ?_
  have hk : AtKey v := ⟨hv.good, fun h => by rw [hv.isMap h, ht]; rfl, hv.key, fun h => hv.even h ht⟩
  refine (findLoop_sat s _ hk (Nat.lt_succ_self _)).bind fun o ho => ?_
  cases o with
  | none => exact none_good
  | some w => exact (ho w rfl).good

theorem findIgnore_sat {map : Value} (hg : Good map) (ht : map.type = .map) (s : Bytes) :
    ∃ v, findIgnore map s = .ok v ∧ Good v := by
  have := find_sat hg ht s
  unfold findIgnore
  cases h : find map s with
  | ok v => rw [h] at this; exact ⟨v, rfl, this⟩
  | err e => exact ⟨_, rfl, none_good⟩
  | ub => rw [h] at this; exact this.elim

theorem parserInit_sat (buffer : Bytes) : (parserInit buffer).Sat (fun v => Good v ∧ v.type ≠ .invalid) :=
  (preparse_sat _ (by simp) (by simp [u32max])).imp fun _ h => ⟨h.1, h.2.1⟩

theorem copyString_sat {size buflen : Nat} (hs : buflen ≤ size) {it : Value} (hg : Good it)
    (ht : it.type = .bytes ∨ it.type = .text) : (copyString size buflen it).Sat (fun p => Post it p.2) := by
  unfold copyString
  refine (iterate_sat (memcpyTo_sat hs) hg ht).bind fun p hp => ?_
  obtain ⟨res, s, v⟩ := p
  simp only
  split
  · exact hp
  · trivial

end Verif.Cbor
