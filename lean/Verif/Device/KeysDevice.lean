import Verif.Device.KeysLemmas

/-!
# Private keys, certificates and fingerprints: lemmas on the device and on raw keys
-/

namespace Verif.Device.Keys

open Spec

variable {K : Type} {w w' : W} {x : List Res}

def has {A : Type} (o : Option A) : Nat := if o.isSome then 1 else 0

/-- The texts in use are `n`, the contexts are `x`. -/
structure Holds (w : W) (n : Nat) (x : List Res) : Prop where
  held : w.held.Perm (List.replicate n .text ++ x)
  bad : w.bad = false
  over : w.over = false

theorem Holds.freeText {A : Type} {n : Nat} {o : Option A} (h : Holds w (n + has o) x) : Holds (w.freeText o) n x := by
  cases o with
  | none => exact h
  | some a =>
    obtain ⟨a, b, c⟩ := h
    refine ⟨?_, ?_, c⟩
    · have := a.erase Res.text
      simpa [has, List.replicate_succ, W.freeText, W.close] using this
    · have : Res.text ∈ w.held := a.mem_iff.2 (by simp [has, List.replicate_succ])
      simp [W.freeText, W.close, b, this]

theorem Holds.give {n : Nat} (h : Holds w n x) : Holds w.give (n + 1) x := by
  obtain ⟨a, b, c⟩ := h
  exact ⟨by simpa [W.give, List.replicate_succ] using a, b, c⟩

theorem Holds.clean {A : Type} {n : Nat} {o : Option A} (h : Holds w n x) (hc : Clean w w' (given o)) :
    Holds w' (n + has o) x := by
  obtain ⟨a, b, c⟩ := h
  refine ⟨?_, by rw [hc.bad, b], by rw [hc.over, c]⟩
  rw [hc.held]
  cases o <;> simpa [given, has, List.replicate_succ] using a

theorem Holds.tick {n : Nat} (h : Holds w n x) : Holds w.tick n x := ⟨h.1, h.2, h.3⟩

theorem Holds.free {n : Nat} (h : Holds w n x) (hx : Raw x) : Free w := by
  intro r hr
  have := h.held.mem_iff.1 hr
  simp only [List.mem_append, List.mem_replicate] at this
  rcases this with ⟨_, rfl⟩ | hr
  · decide
  · have := hx r hr
    simp only [List.mem_cons, List.not_mem_nil, or_false] at this
    rcases this with rfl | rfl | rfl | rfl | rfl <;> decide

@[simp] theorem freeText_ok {A : Type} (o : Option A) : (w.freeText o).ok = w.ok := by cases o <;> rfl
@[simp] theorem freeText_asked {A : Type} (o : Option A) : (w.freeText o).asked = w.asked := by cases o <;> rfl

/-- `i` calls were made since `w0`. -/
structure Cnt (w0 : W) (i : Nat) (w : W) : Prop where
  ok : w.ok = w0.ok
  asked : w.asked = w0.asked + i

theorem Cnt.q {A : Type} {P : A → Prop} {no yes : W → A} {w0 : W} {i : Nat} (h : Cnt w0 i w)
    (hn : ∀ w, Cnt w0 (i + 1) w → w0.ok (w0.asked + i) = false → P (no w))
    (hy : ∀ w, Cnt w0 (i + 1) w → w0.ok (w0.asked + i) = true → P (yes w)) : P (w.q no yes) := by
  have e1 : w.ok w.asked = w0.ok (w0.asked + i) := by rw [h.ok, h.asked]
  have h' : Cnt w0 (i + 1) w.tick := ⟨h.1, by simp [W.tick, h.2, Nat.add_assoc]⟩
  unfold W.q
  split_ifs with hc
  · exact hy _ h' (by rw [← e1]; exact hc)
  · exact hn _ h' (by rw [← e1]; simpa using hc)

theorem mbCrt_asked (c : Crypto K) (w : W) (key : Text) :
    (mbCrt c w key).2.1 = .ok → (mbCrt c w key).1.asked = w.asked + 10 := by
  have g : ∀ w : W, (mbCrtInner c w key).2.1 = .ok → (mbCrtInner c w key).1.asked = w.asked + 10 := by
    intro w
    have h : Cnt w 0 w := ⟨rfl, rfl⟩
    unfold mbCrtInner
    refine Cnt.q (P := fun r : W × Ec × Option (Cert K) => r.2.1 = .ok → r.1.asked = _) h (fun w h _ => nofun)
      fun w h _ => ?_
    refine Cnt.q (P := fun r : W × Ec × Option (Cert K) => r.2.1 = .ok → r.1.asked = _) h (fun w h _ => nofun)
      fun w h _ => ?_
    cases c.parse key with
    | none => exact nofun
    | some k =>
      simp only
      refine Cnt.q (P := fun r : W × Ec × Option (Cert K) => r.2.1 = .ok → r.1.asked = _) h (fun w h _ => nofun)
        fun w h _ => ?_
      refine Cnt.q (P := fun r : W × Ec × Option (Cert K) => r.2.1 = .ok → r.1.asked = _) h (fun w h _ => nofun)
        fun w h _ => ?_
      refine Cnt.q (P := fun r : W × Ec × Option (Cert K) => r.2.1 = .ok → r.1.asked = _) h (fun w h _ => nofun)
        fun w h _ => ?_
      refine Cnt.q (P := fun r : W × Ec × Option (Cert K) => r.2.1 = .ok → r.1.asked = _) h (fun w h _ => nofun)
        fun w h _ => ?_
      refine Cnt.q (P := fun r : W × Ec × Option (Cert K) => r.2.1 = .ok → r.1.asked = _) h (fun w h _ => nofun)
        fun w h _ => ?_
      refine Cnt.q (P := fun r : W × Ec × Option (Cert K) => r.2.1 = .ok → r.1.asked = _) h (fun w h _ => nofun)
        fun w h _ => ?_
      replace h : Cnt _ _ (w.open .buffer) := ⟨h.1, h.2⟩
      refine Cnt.q (P := fun r : W × Ec × Option (Cert K) => r.2.1 = .ok → r.1.asked = _) h (fun w h _ => nofun)
        fun w h _ => ?_
      refine Cnt.q (P := fun r : W × Ec × Option (Cert K) => r.2.1 = .ok → r.1.asked = _) h (fun w h _ => nofun)
        fun w h _ => ?_
      exact fun _ => h.asked
  exact g _

theorem wolfCrt_encodes (c : Crypto K) (w : W) (key : Text) (len err : Nat) :
    (wolfCrt c w key len err).2.1 = .ok → Encodes w := by
  have h : Cnt w 0 w := ⟨rfl, rfl⟩
  unfold wolfCrt
  refine Cnt.q (P := fun r : W × Ec × Option (Cert K) => r.2.1 = .ok → _) h (fun w h _ => nofun) fun w h _ => ?_
  refine Cnt.q (P := fun r : W × Ec × Option (Cert K) => r.2.1 = .ok → _) h (fun w h _ => nofun) fun w h _ => ?_
  replace h : Cnt _ _ (w.open .ecc) := ⟨h.1, h.2⟩
  refine Cnt.q (P := fun r : W × Ec × Option (Cert K) => r.2.1 = .ok → _) h (fun w h _ => nofun) fun w h _ => ?_
  replace h : Cnt _ _ (w.open .rng) := ⟨h.1, h.2⟩
  refine Cnt.q (P := fun r : W × Ec × Option (Cert K) => r.2.1 = .ok → _) h (fun w h _ => nofun) fun w h _ => ?_
  refine Cnt.q (P := fun r : W × Ec × Option (Cert K) => r.2.1 = .ok → _) h (fun w h _ => nofun) fun w h _ => ?_
  cases c.parse key with
  | none => exact nofun
  | some k =>
    simp only
    refine Cnt.q (P := fun r : W × Ec × Option (Cert K) => r.2.1 = .ok → _) h (fun w h _ => nofun) fun w h _ => ?_
    unfold wolfCrtEnd
    simp only
    refine Cnt.q (P := fun r : W × Ec × Option (Cert K) => r.2.1 = .ok → _) h (fun w h _ => ?_) fun w h _ => ?_
    · replace h : Cnt _ _ (w.read (2 ^ 32 - err) 512) := ⟨h.1, h.2⟩
      exact Cnt.q (P := fun r : W × Ec × Option (Cert K) => r.2.1 = .ok → _) h (fun w h _ => nofun) fun w h x _ => x
    · replace h : Cnt _ _ (w.read len 512) := ⟨h.1, h.2⟩
      exact Cnt.q (P := fun r : W × Ec × Option (Cert K) => r.2.1 = .ok → _) h (fun w h _ => nofun) fun w h x _ => x

theorem makeCrt_eq (l : Lib) (c : Crypto K) (e : Env) (key : Text) (hf : Free w)
    (hs : l = .wolfssl → e.len ≤ 512 ∧ Signs w) :
    GivesIf w (l = .wolfssl → Encodes w) (fun y => ∃ k, c.parse key = some k ∧ SelfSigned k y) (makeCrt l c e w key) := by
  have mb : GivesIf w (l = .wolfssl → Encodes w) (fun y => ∃ k, c.parse key = some k ∧ SelfSigned k y) (mbCrt c w key) := by
    obtain ⟨a, b, d⟩ := mbCrt_eq c w key hf
    rw [List.append_nil] at a
    exact ⟨fun _ => a, a.over, b, d⟩
  cases l with
  | mbedtls2 => exact mb
  | mbedtls3 => exact mb
  | wolfssl =>
    obtain ⟨h1, h2⟩ := hs rfl
    obtain ⟨a, o, b, d⟩ := wolfCrt_eq c w key e.len e.err hf h2 h1
    exact ⟨fun h => a (h rfl), o, b, d⟩

theorem makeFp_clean (l : Lib) (c : Crypto K) (e : Env) (key : Text) (fp : List UInt8) (hf : Free w) :
    Clean w (makeFp l c e w key fp).1 [] := by
  cases l with
  | mbedtls2 => exact mbFp_clean c false e.junk w key fp hf
  | mbedtls3 => exact mbFp_clean c true e.junk w key fp hf
  | wolfssl => exact (wolfFp_eq c e.junk e.other w key fp hf).clean

theorem makeFp_eq (l : Lib) (c : Crypto K) (e : Env) (key : Text) (fp : List UInt8) (hf : Free w)
    (hj : e.junk.length = 256) (hh : l = .mbedtls3 → Hashes w) (ho : (makeFp l c e w key fp).2.1 = .ok) :
    ∃ k, c.parse key = some k ∧ (makeFp l c e w key fp).2.2 = fingerprint c k := by
  cases l with
  | mbedtls2 => exact (mbFp_eq c false e.junk w key fp hj (fun h => by cases h) hf).yes ho
  | mbedtls3 => exact (mbFp_eq c true e.junk w key fp hj (fun _ => hh rfl) hf).yes ho
  | wolfssl => exact (wolfFp_eq c e.junk e.other w key fp hf).yes ho

/-- `nabto_device_set_private_key`: the accounting. -/
theorem setKey_holds (l : Lib) (c : Crypto K) (e : Env) (d : Dev K) (key : Text) (hx : Raw x)
    (h : Holds w (texts d) x) (hs : SetSigns l e w) (he : SetEncodes l w) :
    Holds (d.setKey l c e w key).1 (texts (d.setKey l c e w key).2.1) x := by
  have h1 : Holds (w.freeText d.privateKey) (has d.certificate) x :=
    Holds.freeText (o := d.privateKey) (by rw [Nat.add_comm]; exact h)
  unfold Dev.setKey
  simp only [W.q]
  by_cases ho : (w.freeText d.privateKey).ok (w.freeText d.privateKey).asked = true
  case neg =>
    rw [if_neg ho]
    simpa [texts, has] using h1.tick
  rw [if_pos ho]
  by_cases hk : (makeCrt l c e (w.freeText d.privateKey).tick.give key).2.1 = .ok
  · rw [if_pos hk]
    have h2 := h1.tick.give
    have g := makeCrt_eq (w := (w.freeText d.privateKey).tick.give) l c e key (h2.free hx)
      (fun q => ⟨(hs q).1, by simpa [Signs, W.give, W.tick, Nat.add_assoc] using (hs q).2⟩)
    have gc := g.clean fun q => by simpa [Encodes, W.give, W.tick, Nat.add_assoc] using he q
    have h3 := h2.clean gc
    obtain ⟨y, hy, _⟩ := g.yes hk
    rw [hy] at h3
    have h4 := Holds.freeText (n := 2) (o := d.certificate) (by
      rw [show 2 + has d.certificate = has d.certificate + 1 + has (some y) from (by simp [has]; omega)]; exact h3)
    have h5 := h4.clean (o := (none : Option Unit)) (makeFp_clean l c e key d.fingerprint (h4.free hx))
    simpa [texts, has, hy] using h5
  · rw [if_neg hk]
    have h2 := h1.tick.give
    have g := makeCrt_eq (w := (w.freeText d.privateKey).tick.give) l c e key (h2.free hx)
      (fun q => ⟨(hs q).1, by simpa [Signs, W.give, W.tick, Nat.add_assoc] using (hs q).2⟩)
    have gc := g.clean fun q => by simpa [Encodes, W.give, W.tick, Nat.add_assoc] using he q
    have h3 := h2.clean gc
    rw [g.no hk] at h3
    have h4 := Holds.freeText (n := 1) (o := d.certificate) (by
      rw [show 1 + has d.certificate = has d.certificate + 1 + has (none : Option (Cert K)) from (by simp [has]; omega)]
      exact h3)
    simpa [texts, has] using h4

/-- `nabto_device_set_private_key`: what OK means. -/
theorem setKey_ok (l : Lib) (c : Crypto K) (e : Env) (d : Dev K) (key : Text) (hx : Raw x) (hj : e.junk.length = 256)
    (h : Holds w (texts d) x) (hs : SetSigns l e w) (hh : SetHashes l w) (ho : (d.setKey l c e w key).2.2 = .ok) :
    ∃ k, c.parse key = some k ∧ (d.setKey l c e w key).2.1.privateKey = some key ∧ Has c (d.setKey l c e w key).2.1 k := by
  have h1 : Holds (w.freeText d.privateKey) (has d.certificate) x :=
    Holds.freeText (o := d.privateKey) (by rw [Nat.add_comm]; exact h)
  have h2 := h1.tick.give
  have g := makeCrt_eq (w := (w.freeText d.privateKey).tick.give) l c e key (h2.free hx)
    (fun q => ⟨(hs q).1, by simpa [Signs, W.give, W.tick, Nat.add_assoc] using (hs q).2⟩)
  revert ho
  unfold Dev.setKey
  simp only [W.q]
  split_ifs with ho hk hf
  · intro _
    obtain ⟨y, hy, k, hp, hk'⟩ := g.yes hk
    -- the contexts are only known to be free when the text could be written
    have hc : l = .wolfssl → Encodes (w.freeText d.privateKey).tick.give := by
      intro q
      subst q
      exact wolfCrt_encodes c _ key e.len e.err hk
    have h3 := h2.clean (g.clean hc)
    rw [hy] at h3
    have h4 := Holds.freeText (n := 2) (o := d.certificate) (by
      rw [show 2 + has d.certificate = has d.certificate + 1 + has (some y) from (by simp [has]; omega)]; exact h3)
    have hokk : (makeCrt l c e (w.freeText d.privateKey).tick.give key).1.ok = w.ok := by
      rw [(g.clean hc).ok]; simp [W.give, W.tick]
    obtain ⟨k', hp', hfp⟩ := makeFp_eq l c e key d.fingerprint (h4.free hx) hj (fun q => by
      subst q
      have := hh rfl
      have a := mbCrt_asked c (w.freeText d.privateKey).tick.give key hk
      unfold Hashes
      rw [freeText_ok, freeText_asked, hokk]
      simp only [makeCrt] at a ⊢
      rw [a]
      simpa [W.give, W.tick, Nat.add_assoc] using this) hf
    have : k' = k := by rw [hp] at hp'; exact (Option.some.inj hp').symm
    subst this
    exact ⟨k', hp, rfl, ⟨key, rfl, hp⟩, ⟨y, hy, hk'⟩, hfp⟩
  · exact nofun
  · exact nofun
  · exact nofun

end Verif.Device.Keys
