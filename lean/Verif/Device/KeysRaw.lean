import Verif.Device.KeysDevice

/-!
# Raw keys: lemmas
-/

namespace Verif.Device.Keys

open Spec

variable {K : Type} {w w' : W} {x : List Res}

/-! ## Numbers -/

theorem readBinary_foldl (b : List UInt8) (a : Nat) :
    b.foldl (fun a x => a * 256 + x.toNat) a = a * 256 ^ b.length + number b := by
  induction b generalizing a with
  | nil => simp [number]
  | cons y ys ih =>
    rw [List.foldl_cons, ih, number, List.length_cons, Nat.pow_succ, Nat.add_mul, Nat.add_assoc]
    congr 1
    rw [Nat.mul_assoc, Nat.mul_comm 256]

theorem readBinary_eq (b : List UInt8) : readBinary b = number b := by
  rw [readBinary, readBinary_foldl]; simp

theorem number_lt (b : List UInt8) : number b < 256 ^ b.length := by
  induction b with
  | nil => simp [number]
  | cons y ys ih =>
    rw [number, List.length_cons, Nat.pow_succ]
    have hy : y.toNat < 256 := y.toNat_lt
    have : y.toNat * 256 ^ ys.length + 256 ^ ys.length ≤ 256 ^ ys.length * 256 := by
      rw [← Nat.succ_mul, Nat.mul_comm]; exact Nat.mul_le_mul_left _ hy
    omega

theorem below_iff (o k : List UInt8) (h : o.length = k.length) : below o k = true ↔ number k < number o := by
  induction o generalizing k with
  | nil =>
    cases k with
    | nil => simp [below, number]
    | cons => simp at h
  | cons a os ih =>
    cases k with
    | nil => simp at h
    | cons b ks =>
      have hl : os.length = ks.length := by simpa using h
      have l1 := number_lt os
      have l2 := number_lt ks
      simp only [below, number]
      rw [hl] at l1 ⊢
      split_ifs with h1 h2
      · have h1 : a.toNat < b.toNat := h1
        have : a.toNat * 256 ^ ks.length + 256 ^ ks.length ≤ b.toNat * 256 ^ ks.length := by
          rw [← Nat.succ_mul]; exact Nat.mul_le_mul_right _ h1
        simp only [Bool.false_eq_true, false_iff]; omega
      · have h2 : b.toNat < a.toNat := h2
        have : b.toNat * 256 ^ ks.length + 256 ^ ks.length ≤ a.toNat * 256 ^ ks.length := by
          rw [← Nat.succ_mul]; exact Nat.mul_le_mul_right _ h2
        simp only [true_iff]; omega
      · have e : a = b := by
          have h1 : ¬ a.toNat < b.toNat := h1
          have h2 : ¬ b.toNat < a.toNat := h2
          exact UInt8.toNat_inj.1 (by omega)
        subst e
        rw [ih ks hl]
        omega

theorem order_eq : number groupOrder = n := by decide +kernel

theorem compareOrder_iff (key : List UInt8) : compareOrder key = true ↔ key.length = 32 ∧ number key < n := by
  unfold compareOrder
  split_ifs with h
  · simp [h]
  · have h : key.length = 32 := by simpa using h
    rw [below_iff _ _ (by rw [h]; rfl), order_eq]
    simp [h]

/-! ## Accounting -/

theorem Holds.open {m : Nat} {r : Res} (h : Holds w m x) (h1 : r ∉ x) (h2 : r ≠ .text) : Holds (w.open r) m (r :: x) := by
  obtain ⟨a, b, c⟩ := h
  refine ⟨?_, ?_, c⟩
  · simp only [W.open]
    exact (a.cons r).trans List.perm_middle.symm
  · have : r ∉ w.held := fun hr => by
      have := a.mem_iff.1 hr
      simp only [List.mem_append, List.mem_replicate] at this
      exact this.elim (fun h => h2 h.2) h1
    simp [W.open, b, this]

theorem Holds.close {m : Nat} {r : Res} (h : Holds w m x) (h1 : r ∈ x) (h2 : r ≠ .text) :
    Holds (w.close r) m (x.erase r) := by
  obtain ⟨a, b, c⟩ := h
  refine ⟨?_, ?_, c⟩
  · have := a.erase r
    have hn : r ∉ List.replicate m Res.text := fun h => h2 (List.mem_replicate.1 h).2
    rw [List.erase_append_right _ hn] at this
    simpa [W.close] using this
  · have : r ∈ w.held := a.mem_iff.2 (by simp [h1])
    simp [W.close, b, this]

/-- Only calls were made. -/
structure Kept (w0 : W) (i : Nat) (w : W) : Prop where
  held : w.held = w0.held
  bad : w.bad = w0.bad
  over : w.over = w0.over
  ok : w.ok = w0.ok
  asked : w.asked = w0.asked + i

theorem Kept.tick {w0 : W} {i : Nat} (h : Kept w0 i w) : Kept w0 (i + 1) w.tick :=
  ⟨h.1, h.2, h.3, h.4, by simp [W.tick, h.5, Nat.add_assoc]⟩

theorem Kept.q {A : Type} {P : A → Prop} {no yes : W → A} {w0 : W} {i : Nat} (h : Kept w0 i w)
    (hn : ∀ w, Kept w0 (i + 1) w → w0.ok (w0.asked + i) = false → P (no w))
    (hy : ∀ w, Kept w0 (i + 1) w → w0.ok (w0.asked + i) = true → P (yes w)) : P (w.q no yes) := by
  have e1 : w.ok w.asked = w0.ok (w0.asked + i) := by rw [h.ok, h.asked]
  unfold W.q
  split_ifs with hc
  · exact hy _ h.tick (by rw [← e1]; exact hc)
  · exact hn _ h.tick (by rw [← e1]; simpa using hc)

theorem Kept.holds {w0 : W} {i m : Nat} (h : Kept w0 i w) (hh : Holds w0 m x) : Holds w m x :=
  ⟨by rw [h.held]; exact hh.held, by rw [h.bad]; exact hh.bad, by rw [h.over]; exact hh.over⟩

/-- What the computation of the text of a raw key promises. -/
structure Computes (c : Crypto K) (key : List UInt8) (w0 : W) (r : W × (Ec ⊕ Text)) : Prop where
  kept : ∃ i, Kept w0 i r.1
  err : ∀ ec, r.2 = .inl ec → ec ≠ .ok
  text : ∀ t, r.2 = .inr t → 0 < number key ∧ number key < n ∧ t = c.pem (c.ofNat (number key)) ∧ Kept w0 8 r.1
  well : Well w0 → 0 < number key → number key < n → ∃ t, r.2 = .inr t

theorem Computes.no {c : Crypto K} {key : List UInt8} {w0 : W} {i j : Nat} {ec : Ec} (h : Kept w0 i w) (he : ec ≠ .ok)
    (hw : w0.ok j = false) : Computes c key w0 (w, .inl ec) :=
  ⟨⟨_, h⟩, fun _ h => by cases h; exact he, nofun, fun hh => ok_absurd (hh _) hw⟩

theorem mbRawCompute_eq (c : Crypto K) (w0 : W) (key : List UInt8) :
    Computes c key w0 (mbRawCompute c w0 key) := by
  have h : Kept w0 0 w0 := ⟨rfl, rfl, rfl, rfl, rfl⟩
  unfold mbRawCompute
  refine Kept.q (P := Computes _ _ _) h (fun w h x => Computes.no h nofun x) fun w h _ => ?_
  refine Kept.q (P := Computes _ _ _) h (fun w h x => Computes.no h nofun x) fun w h _ => ?_
  refine Kept.q (P := Computes _ _ _) h (fun w h x => Computes.no h nofun x) fun w h _ => ?_
  refine Kept.q (P := Computes _ _ _) h (fun w h x => Computes.no h nofun x) fun w' h _ => ?_
  simp only [readBinary_eq, order_eq]
  have h' := h.tick.tick
  have ho : w'.ok w'.asked = w0.ok (w0.asked + 4) := by rw [h.ok, h.asked]
  have ho' : w'.tick.ok w'.tick.asked = w0.ok (w0.asked + 5) := by rw [h.tick.ok, h.tick.asked]
  rw [ho, ho']
  have n0 : 0 < n := by decide
  cases hd : w0.ok (w0.asked + 4) with
  | false =>
    simp only [Bool.false_eq_true, if_false, if_true]
    exact Computes.no h' nofun hd
  | true =>
    cases hn : w0.ok (w0.asked + 5) with
    | false =>
      simp only [Bool.false_eq_true, if_false, if_true, Nat.zero_le]
      split_ifs <;> exact Computes.no h' nofun hn
    | true =>
      simp only [if_true]
      split_ifs with h1 h2
      · exact ⟨⟨_, h'⟩, fun _ h => by cases h; exact nofun, nofun, fun _ _ _ => by omega⟩
      · exact ⟨⟨_, h'⟩, fun _ h => by cases h; exact nofun, nofun, fun _ _ _ => by omega⟩
      · refine Kept.q (P := Computes _ _ _) h' (fun w h x => Computes.no h nofun x) fun w h _ => ?_
        refine Kept.q (P := Computes _ _ _) h (fun w h x => Computes.no h nofun x) fun w h _ => ?_
        exact ⟨⟨_, h⟩, nofun, fun t ht => ⟨by omega, by omega, (Sum.inr.inj ht).symm, h⟩, fun _ _ _ => ⟨_, rfl⟩⟩

/-- The same for wolfSSL. -/
structure WolfComputes (c : Crypto K) (zero : Bool) (key : List UInt8) (w0 : W) (r : W × Option Text) : Prop where
  kept : ∃ i, Kept w0 i r.1
  text : ∀ t, r.2 = some t → (number key ≠ 0 ∨ zero = true) ∧ t = c.pem (c.ofNat (number key)) ∧ Kept w0 4 r.1
  well : Well w0 → number key ≠ 0 → ∃ t, r.2 = some t

theorem WolfComputes.no {c : Crypto K} {zero : Bool} {key : List UInt8} {w0 : W} {i j : Nat} (h : Kept w0 i w)
    (hw : w0.ok j = false) : WolfComputes c zero key w0 (w, none) :=
  ⟨⟨_, h⟩, nofun, fun hh => ok_absurd (hh _) hw⟩

theorem wolfRawCompute_eq (c : Crypto K) (zero : Bool) (w0 : W) (key : List UInt8) :
    WolfComputes c zero key w0 (wolfRawCompute c zero w0 key) := by
  have h : Kept w0 0 w0 := ⟨rfl, rfl, rfl, rfl, rfl⟩
  unfold wolfRawCompute
  rw [readBinary_eq]
  refine Kept.q (P := WolfComputes _ _ _ _) h (fun w h x => WolfComputes.no h x) fun w h _ => ?_
  split_ifs with hz
  · exact ⟨⟨_, h⟩, nofun, fun _ hn => absurd hz.1 hn⟩
  refine Kept.q (P := WolfComputes _ _ _ _) h (fun w h x => WolfComputes.no h x) fun w h _ => ?_
  refine Kept.q (P := WolfComputes _ _ _ _) h (fun w h x => WolfComputes.no h x) fun w h _ => ?_
  refine Kept.q (P := WolfComputes _ _ _ _) h (fun w h x => WolfComputes.no h x) fun w h _ => ?_
  refine ⟨⟨_, h⟩, fun t ht => ⟨?_, (Option.some.inj ht).symm, h⟩, fun _ _ => ⟨_, rfl⟩⟩
  by_cases hn : number key = 0
  · right
    cases zero with
    | true => rfl
    | false => exact absurd ⟨hn, rfl⟩ hz
  · exact Or.inl hn

/-- When every call goes well a key which can be read is taken. -/
theorem setKey_well (l : Lib) (c : Crypto K) (e : Env) (d : Dev K) (key : Text) {k : K} (hw : Well w) (hc : Works c)
    (hp : c.parse key = some k) : (d.setKey l c e w key).2.2 = .ok := by
  have s := hc.some k
  have f := hc.fits k
  have f' : ¬ 256 < (c.spki k).length := by omega
  have s' : (c.spki k).length ≠ 0 := by omega
  have hok : w.ok = fun _ => true := funext hw
  cases l <;>
    simp [Dev.setKey, makeCrt, makeFp, mbCrt, mbCrtInner, mbFp, mbFpInner, mbSha, wolfCrt, wolfCrtEnd, wolfFp, wolfSha,
      writeEnd, writeStart, W.q, W.tick, W.open, W.close, W.give, W.read, hok, hp, s', f']

theorem mbRaw_holds (l : Lib) (hl : l ≠ .wolfssl) (c : Crypto K) (e : Env) (w : W) (d : Dev K) (key : List UInt8)
    (h : Holds w (texts d) []) : Holds (mbRaw l c e w d key).1 (texts (mbRaw l c e w d key).2.1) [] := by
  have ho := (((h.open (r := .rawPk) (by decide) nofun).open (r := .rawN) (by decide) nofun).open (r := .rawDrbg) (by decide)
    nofun).open (r := .rawEntropy) (by decide) nofun
  have fin : ∀ (r : W × Dev K × Ec), Holds r.1 (texts r.2.1) [.rawEntropy, .rawDrbg, .rawN, .rawPk] →
      Holds ((((r.1.close .rawDrbg).close .rawEntropy).close .rawPk).close .rawN) (texts r.2.1) [] := fun r h =>
    (((h.close (r := .rawDrbg) (by decide) nofun).close (r := .rawEntropy) (by decide) nofun).close (r := .rawPk)
      (by decide) nofun).close (r := .rawN) (by decide) nofun
  unfold mbRaw
  apply fin
  by_cases hk : key.length ≠ 32
  · rw [if_pos hk]; exact ho
  · rw [if_neg hk]
    have g := mbRawCompute_eq c ((((w.open .rawPk).open .rawN).open .rawDrbg).open .rawEntropy) key
    generalize mbRawCompute c _ key = r at g
    obtain ⟨w', s⟩ := r
    obtain ⟨i, hi⟩ := g.kept
    have hh : Holds w' (texts d) _ := hi.holds ho
    cases s with
    | inl ec => exact hh
    | inr t => exact setKey_holds l c e d t (by unfold Raw; simp) hh (fun h => absurd h hl) (fun h => absurd h hl)

end Verif.Device.Keys
