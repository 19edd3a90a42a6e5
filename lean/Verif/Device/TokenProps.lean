import Verif.Device.Token
import Mathlib.Logic.Equiv.Basic
import Mathlib.SetTheory.Cardinal.Finite
import Mathlib.Data.Set.Finite.List
import Mathlib.Data.Fintype.EquivFin

/-!
# Making a server connect token — properties

C89.
-/

namespace Verif.Device.Token

namespace Spec

/-- Twelve letters or digits. -/
def Token (t : List Char) : Prop := t.length = 12 ∧ ∀ c ∈ t, c.isAlphanum = true

/-- The sequences of random bytes of a length which give the token. -/
def Gives (n : Nat) (t : List Char) : Type :=
  { bytes : List UInt8 // bytes.length = n ∧ create (bytes.map some) true = .token t }

end Spec

theorem alphabet_length : alphabet.length = 62 := by decide +kernel

theorem alphabet_nodup : alphabet.Nodup := by decide +kernel

theorem alphabet_alnum : ∀ c ∈ alphabet, c.isAlphanum = true := by decide +kernel

theorem alnum_table : ∀ n : Fin 128, (Char.ofNat n.val).isAlphanum = true → Char.ofNat n.val ∈ alphabet := by
  decide +kernel

theorem mem_alphabet {c : Char} (h : c.isAlphanum = true) : c ∈ alphabet := by
  have hlt : c.toNat < 128 := by
    unfold Char.isAlphanum Char.isAlpha Char.isDigit Char.isUpper Char.isLower at h
    simp only [Bool.or_eq_true, decide_eq_true_eq, Bool.and_eq_true, UInt32.le_iff_toNat_le, ge_iff_le] at h
    show c.val.toNat < 128
    rcases h with (h | h) | h
    · have : c.val.toNat ≤ 90 := h.2
      omega
    · have : c.val.toNat ≤ 122 := h.2
      omega
    · have : c.val.toNat ≤ 57 := h.2
      omega
  have := alnum_table ⟨c.toNat, hlt⟩
  rw [Char.ofNat_toNat] at this
  exact this h

/-- The byte of a character. -/
def ix (c : Char) : UInt8 := UInt8.ofNat (alphabet.idxOf c)

theorem ix_toNat {c : Char} (h : c ∈ alphabet) : (ix c).toNat = alphabet.idxOf c := by
  have := List.idxOf_lt_length_of_mem h
  rw [alphabet_length] at this
  rw [ix, UInt8.toNat_ofNat']
  omega

theorem ix_get {c : Char} (h : c ∈ alphabet) : alphabet[(ix c).toNat]? = some c := by
  rw [ix_toNat h, List.getElem?_eq_getElem (List.idxOf_lt_length_of_mem h), List.getElem_idxOf]

theorem get_iff {b : UInt8} {c : Char} (h : c ∈ alphabet) : alphabet[b.toNat]? = some c ↔ b = ix c := by
  constructor
  · intro hb
    obtain ⟨hlt, e⟩ := List.getElem?_eq_some_iff.1 hb
    have := alphabet_nodup.idxOf_getElem b.toNat hlt
    rw [e] at this
    apply UInt8.toNat_inj.1
    rw [ix_toNat h, this]
  · rintro rfl; exact ix_get h

theorem swap_get {a b : Char} (ha : a ∈ alphabet) (hb : b ∈ alphabet) (x : UInt8) :
    (alphabet[(Equiv.swap (ix a) (ix b) x).toNat]?).isSome = (alphabet[x.toNat]?).isSome := by
  rw [Equiv.swap_apply_def]
  split
  next h => rw [h, ix_get ha, ix_get hb]; rfl
  next =>
    split
    next h => rw [h, ix_get ha, ix_get hb]; rfl
    next => rfl

/-- Exchange of the bytes for the characters of two tokens, each at the place where it counts. -/
def exch : List (Char × Char) → List UInt8 → List UInt8
  | [], l => l
  | _ :: _, [] => []
  | p :: ps, b :: bs =>
    if (alphabet[b.toNat]?).isSome then Equiv.swap (ix p.1) (ix p.2) b :: exch ps bs else b :: exch (p :: ps) bs

theorem exch_length (ps : List (Char × Char)) (l : List UInt8) : (exch ps l).length = l.length := by
  induction l generalizing ps with
  | nil => cases ps <;> rfl
  | cons b bs ih =>
    cases ps with
    | nil => rfl
    | cons p ps =>
      rw [exch]
      split
      · rw [List.length_cons, List.length_cons, ih]
      · rw [List.length_cons, List.length_cons, ih]

theorem exch_exch (ps : List (Char × Char)) (hp : ∀ p ∈ ps, p.1 ∈ alphabet ∧ p.2 ∈ alphabet) (l : List UInt8) :
    exch ps (exch ps l) = l := by
  induction l generalizing ps with
  | nil => cases ps <;> rfl
  | cons b bs ih =>
    cases ps with
    | nil => rfl
    | cons p ps =>
      have h1 := hp p List.mem_cons_self
      have h2 : ∀ q ∈ ps, q.1 ∈ alphabet ∧ q.2 ∈ alphabet := fun q hq => hp q (List.mem_cons_of_mem _ hq)
      by_cases hb : (alphabet[b.toNat]?).isSome = true
      · rw [exch, if_pos hb, exch, if_pos (by rw [swap_get h1.1 h1.2]; exact hb), ih ps h2, Equiv.swap_apply_self]
      · rw [exch, if_neg hb, exch, if_neg hb, ih (p :: ps) hp]

theorem exch_swap (ps : List (Char × Char)) (l : List UInt8) : exch (ps.map Prod.swap) l = exch ps l := by
  induction l generalizing ps with
  | nil => cases ps <;> rfl
  | cons b bs ih =>
    cases ps with
    | nil => rfl
    | cons p ps =>
      rw [List.map_cons, exch, exch, ih]
      have := ih (p :: ps)
      rw [List.map_cons] at this
      rw [this]
      show (if _ then Equiv.swap (ix p.2) (ix p.1) b :: _ else _) = _
      rw [Equiv.swap_comm]

theorem loop_none (out : List Char) (h : out.length < 12) (rs : List (Option UInt8)) : loop out (none :: rs) = .failed := by
  rw [loop, if_pos h]

theorem loop_some (out : List Char) (h : out.length < 12) (b : UInt8) (rs : List (Option UInt8)) :
    loop out (some b :: rs) = match alphabet[b.toNat]? with
      | some c => loop (out ++ [c]) rs
      | none => loop out rs := by
  rw [loop, if_pos h]
  rfl

theorem loop_full (out : List Char) (h : ¬ out.length < 12) (l : List (Option UInt8)) : loop out l = .token out := by
  cases l with
  | nil => rw [loop, if_neg h]
  | cons r rs => cases r <;> rw [loop, if_neg h]

theorem loop_prefix (out : List Char) (h : out.length ≤ 12) (l : List (Option UInt8)) (t : List Char)
    (ht : loop out l = .token t) : out <+: t ∧ t.length = 12 ∧ ∀ c ∈ t, c ∈ out ∨ c ∈ alphabet := by
  induction l generalizing out with
  | nil =>
    rw [loop] at ht
    split at ht
    · cases ht
    next hf =>
      injection ht with ht
      subst ht
      exact ⟨List.prefix_refl _, by omega, fun c hc => Or.inl hc⟩
  | cons r rs ih =>
    by_cases hlt : out.length < 12
    · cases r with
      | none => rw [loop_none _ hlt] at ht; cases ht
      | some b =>
        rw [loop_some _ hlt] at ht
        split at ht
        next c hc =>
          obtain ⟨h1, h2, h3⟩ := ih (out ++ [c]) (by rw [List.length_append]; simp; omega) ht
          refine ⟨(List.prefix_append _ _).trans h1, h2, fun x hx => ?_⟩
          rcases h3 x hx with hx | hx
          · rcases List.mem_append.1 hx with hx | hx
            · exact Or.inl hx
            · rw [List.mem_singleton.1 hx]; exact Or.inr (List.mem_of_getElem? hc)
          · exact Or.inr hx
        next => exact ih out h ht
    · rw [loop_full _ hlt] at ht
      injection ht with ht
      subst ht
      exact ⟨List.prefix_refl _, by omega, fun c hc => Or.inl hc⟩

theorem loop_exch (t t' : List Char) (hl : t.length = t'.length) (ht : ∀ c ∈ t, c ∈ alphabet) (ht' : ∀ c ∈ t', c ∈ alphabet)
    (l : List UInt8) (out out' : List Char) (ho : out.length = out'.length) (h12 : out.length + t.length = 12)
    (h : loop out (l.map some) = .token (out ++ t)) : loop out' ((exch (t.zip t') l).map some) = .token (out' ++ t') := by
  induction l generalizing t t' out out' with
  | nil =>
    rw [List.map_nil, loop] at h
    split at h
    · cases h
    next hf =>
      have h0 : t = [] := List.length_eq_zero_iff.1 (by omega)
      subst h0
      have h0' : t' = [] := List.length_eq_zero_iff.1 hl.symm
      subst h0'
      rw [loop_full _ (by omega), List.append_nil]
  | cons b bs ih =>
    cases t with
    | nil =>
      have h0' : t' = [] := List.length_eq_zero_iff.1 hl.symm
      subst h0'
      rw [loop_full _ (by simp at h12; omega), List.append_nil]
    | cons x xs =>
      cases t' with
      | nil => cases hl
      | cons y ys =>
        have hlt : out.length < 12 := by rw [List.length_cons] at h12; omega
        have hlt' : out'.length < 12 := by omega
        have hx := ht x List.mem_cons_self
        have hy := ht' y List.mem_cons_self
        rw [List.map_cons, loop_some _ hlt] at h
        rw [List.zip_cons_cons, exch]
        split at h
        next c hc =>
          have hpre := (loop_prefix _ (by rw [List.length_append]; simp; omega) _ _ h).1
          have hcx : c = x := by
            obtain ⟨r, hr⟩ := hpre
            simp at hr
            exact hr.1
          subst hcx
          have hb := (get_iff hx).1 hc
          subst hb
          rw [if_pos (by rw [ix_get hx]; rfl), List.map_cons, loop_some _ hlt']
          show (match alphabet[(Equiv.swap (ix c) (ix y) (ix c)).toNat]? with | some c => _ | none => _) = _
          rw [Equiv.swap_apply_left, ix_get hy]
          dsimp only
          rw [show out' ++ y :: ys = (out' ++ [y]) ++ ys by rw [List.append_assoc]; rfl]
          refine ih xs ys (by simpa using hl) (fun z hz => ht z (List.mem_cons_of_mem _ hz))
            (fun z hz => ht' z (List.mem_cons_of_mem _ hz)) (out ++ [c]) (out' ++ [y]) (by rw [List.length_append, List.length_append, ho]; rfl)
            (by rw [List.length_append]; simp at h12 ⊢; omega) ?_
          rw [h, List.append_assoc]; rfl
        next hc =>
          rw [if_neg (by rw [hc]; simp), List.map_cons, loop_some _ hlt', hc]
          dsimp only
          have := ih (x :: xs) (y :: ys) hl ht ht' out out' ho h12 h
          rw [List.zip_cons_cons] at this
          exact this

theorem create_token {bytes : List (Option UInt8)} {t : List Char} : create bytes true = .token t ↔ loop [] bytes = .token t := by
  rw [create]
  cases loop [] bytes <;> simp

/-- **C89**: a token has twelve letters or digits. -/
theorem C89_shape (rs : List (Option UInt8)) (mem : Bool) (t : List Char) (h : create rs mem = .token t) : Spec.Token t := by
  cases mem with
  | false => rw [create] at h; revert h; cases loop [] rs <;> intro h <;> cases h
  | true =>
    obtain ⟨-, h1, h2⟩ := loop_prefix [] (by decide) rs t (create_token.1 h)
    refine ⟨h1, fun c hc => alphabet_alnum c ?_⟩
    rcases h2 c hc with h | h
    · cases h
    · exact h

/-- **C89**: all tokens are equally likely: among the sequences of random bytes of a length, as many give one token as give
another. -/
theorem C89_uniform (n : Nat) (t t' : List Char) (h : Spec.Token t) (h' : Spec.Token t') :
    Nat.card (Spec.Gives n t) = Nat.card (Spec.Gives n t') := by
  have ha : ∀ c ∈ t, c ∈ alphabet := fun c hc => mem_alphabet (h.2 c hc)
  have ha' : ∀ c ∈ t', c ∈ alphabet := fun c hc => mem_alphabet (h'.2 c hc)
  have hz : ∀ p ∈ t.zip t', p.1 ∈ alphabet ∧ p.2 ∈ alphabet := fun p hp =>
    ⟨ha _ (List.of_mem_zip hp).1, ha' _ (List.of_mem_zip hp).2⟩
  have key : ∀ l, create (l.map some) true = .token t → create ((exch (t.zip t') l).map some) true = .token t' := fun l hl =>
    create_token.2 (loop_exch t t' (h.1.trans h'.1.symm) ha ha' l [] [] rfl (by simpa using h.1) (create_token.1 hl))
  have key' : ∀ l, create (l.map some) true = .token t' → create ((exch (t.zip t') l).map some) true = .token t := fun l hl => by
    have := create_token.2 (loop_exch t' t (h'.1.trans h.1.symm) ha' ha l [] [] rfl (by simpa using h'.1) (create_token.1 hl))
    rw [← List.zip_swap, exch_swap] at this
    exact this
  refine Nat.card_congr
    { toFun := fun l => ⟨exch (t.zip t') l.1, (exch_length _ _).trans l.2.1, key _ l.2.2⟩
      invFun := fun l => ⟨exch (t.zip t') l.1, (exch_length _ _).trans l.2.1, key' _ l.2.2⟩
      left_inv := fun l => Subtype.ext (exch_exch _ hz _)
      right_inv := fun l => Subtype.ext (exch_exch _ hz _) }

instance : Finite UInt8 := Finite.of_injective UInt8.toFin fun _ _ h => UInt8.toFin_inj.1 h

/-- The numbers compared by `C89_uniform` count finite sets, and from twelve bytes on they are not zero. -/
theorem C89_counts (n : Nat) (t : List Char) (h : Spec.Token t) :
    Finite (Spec.Gives n t) ∧ (12 ≤ n → 0 < Nat.card (Spec.Gives n t)) := by
  have hf : Finite (Spec.Gives n t) := by
    have := List.finite_length_eq UInt8 n
    exact (this.subset (t := { l | l.length = n ∧ create (l.map some) true = .token t }) fun l hl => hl.1).to_subtype
  refine ⟨hf, fun hn => ?_⟩
  have ha : ∀ c ∈ t, c ∈ alphabet := fun c hc => mem_alphabet (h.2 c hc)
  have : ∀ (xs out : List Char) (rest : List (Option UInt8)), (∀ c ∈ xs, c ∈ alphabet) → out.length + xs.length = 12 →
      loop out (xs.map (fun c => some (ix c)) ++ rest) = .token (out ++ xs) := by
    intro xs
    induction xs with
    | nil => intro out rest _ ho; rw [List.map_nil, List.nil_append, List.append_nil]; exact loop_full _ (by simp at ho; omega) _
    | cons x xs ih =>
      intro out rest hx ho
      rw [List.map_cons, List.cons_append, loop_some _ (by simp at ho; omega), ix_get (hx x List.mem_cons_self)]
      dsimp only
      rw [ih _ _ (fun c hc => hx c (List.mem_cons_of_mem _ hc)) (by rw [List.length_append]; simp at ho ⊢; omega), List.append_assoc]
      rfl
  have hg : Nonempty (Spec.Gives n t) := by
    refine ⟨⟨t.map ix ++ List.replicate (n - 12) 0, ?_, ?_⟩⟩
    · rw [List.length_append, List.length_map, h.1, List.length_replicate]; omega
    · rw [create_token, List.map_append, List.map_map]
      have := this t [] ((List.replicate (n - 12) 0).map some) ha (by simpa using h.1)
      rw [List.nil_append] at this
      exact this
  exact Nat.card_pos

theorem get_some (b : UInt8) : (alphabet[b.toNat]?).isSome = decide (b < 62) := by
  rw [Bool.eq_iff_iff, decide_eq_true_eq, UInt8.lt_iff_toNat_lt, Option.isSome_iff_ne_none, ne_eq, List.getElem?_eq_none_iff,
    alphabet_length]
  show ¬ 62 ≤ b.toNat ↔ b.toNat < 62
  omega

/-- The byte stands for a character. -/
def Spec.counts : Option UInt8 → Bool
  | some b => decide (b < 62)
  | none => false

theorem loop_more (rs : List (Option UInt8)) (out : List Char) :
    loop out rs = .more ↔ none ∉ rs ∧ out.length + rs.countP Spec.counts < 12 := by
  induction rs generalizing out with
  | nil =>
    rw [loop]
    split <;> simp <;> omega
  | cons r rs ih =>
    by_cases hlt : out.length < 12
    · cases r with
      | none => rw [loop_none _ hlt]; simp
      | some b =>
        rw [loop_some _ hlt, List.countP_cons]
        have hb := get_some b
        have hc : Spec.counts (some b) = decide (b < 62) := rfl
        split
        next c hx =>
          rw [hx] at hb
          rw [ih, hc, ← hb, List.length_append]
          simp only [List.mem_cons, reduceCtorEq, false_or, List.length_singleton, Option.isSome_some, if_true]
          constructor <;> rintro ⟨h1, h2⟩ <;> exact ⟨h1, by omega⟩
        next hx =>
          rw [hx] at hb
          rw [ih, hc, ← hb]
          simp
    · rw [loop_full _ hlt]
      constructor
      · intro h; cases h
      · intro h; omega

theorem loop_failed (rs : List (Option UInt8)) (out : List Char) :
    loop out rs = .failed ↔ ∃ a b, rs = a ++ none :: b ∧ loop out a = .more := by
  induction rs generalizing out with
  | nil =>
    constructor
    · intro h; rw [loop] at h; split at h <;> cases h
    · rintro ⟨a, b, e, -⟩; simp at e
  | cons r rs ih =>
    by_cases hlt : out.length < 12
    · cases r with
      | none =>
        rw [loop_none _ hlt]
        exact ⟨fun _ => ⟨[], rs, rfl, by rw [loop, if_pos hlt]⟩, fun _ => rfl⟩
      | some b =>
        rw [loop_some _ hlt]
        have : ∀ o : List Char, (∀ l, loop out (some b :: l) = loop o l) →
            (loop o rs = .failed ↔ ∃ a b', some b :: rs = a ++ none :: b' ∧ loop out a = .more) := by
          intro o ho
          rw [ih]
          constructor
          · rintro ⟨a, b', e, h⟩
            exact ⟨some b :: a, b', by rw [e]; rfl, by rw [ho]; exact h⟩
          · rintro ⟨a, b', e, h⟩
            cases a with
            | nil => cases e
            | cons x a =>
              injection e with e1 e2
              subst e1
              exact ⟨a, b', e2, by rw [← ho]; exact h⟩
        split
        next c hc => exact this _ fun l => by rw [loop_some _ hlt, hc]
        next hc => exact this _ fun l => by rw [loop_some _ hlt, hc]
    · rw [loop_full _ hlt]
      constructor
      · intro h; cases h
      · rintro ⟨a, b, -, h⟩; rw [loop_full _ hlt] at h; cases h

/-- **C89**: as long as the source of random bytes works, a token is made as soon as twelve bytes came which stand for
characters, and 62 of the 256 bytes do. If the source fails before, there is no token. -/
theorem C89_progress (rs : List (Option UInt8)) :
    (create rs true = .more ↔ none ∉ rs ∧ rs.countP Spec.counts < 12) ∧
    (create rs true = .failed ↔ ∃ a b, rs = a ++ none :: b ∧ create a true = .more) ∧
    create rs true ≠ .outOfMemory := by
  have hm : ∀ l, create l true = .more ↔ loop [] l = .more := fun l => by
    rw [create]; cases loop [] l <;> simp
  have hf : create rs true = .failed ↔ loop [] rs = .failed := by
    rw [create]; cases loop [] rs <;> simp
  have no : ∀ (l : List (Option UInt8)) (o : List Char), loop o l ≠ .outOfMemory := by
    intro l
    induction l with
    | nil => intro o h; rw [loop] at h; split at h <;> cases h
    | cons r rs ih =>
      intro o h
      by_cases hlt : o.length < 12
      · cases r with
        | none => rw [loop_none _ hlt] at h; cases h
        | some b => rw [loop_some _ hlt] at h; split at h <;> exact ih _ h
      · rw [loop_full _ hlt] at h; cases h
  refine ⟨?_, ?_, ?_⟩
  · rw [hm, loop_more]; simp
  · rw [hf, loop_failed]
    constructor <;> rintro ⟨a, b, e, h⟩ <;> exact ⟨a, b, e, by first | exact (hm a).2 h | exact (hm a).1 h⟩
  · intro h
    rw [create] at h
    have := no rs []
    revert h this
    cases loop [] rs <;> simp

example : create ((List.range 60).map fun n => some (UInt8.ofNat (20 * n))) true
    = .token ['A', 'U', 'o', '8', 'E', 'Y', 't', 'I', 'c', 'w', 'M', 'g'] := by decide +kernel

end Verif.Device.Token
