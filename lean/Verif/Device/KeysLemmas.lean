import Verif.Device.KeysSpec
import Mathlib.Tactic.SplitIfs

/-!
# Private keys, certificates and fingerprints: lemmas
-/

namespace Verif.Device.Keys

open Spec

variable {K : Type}

theorem free_not_mem {w : W} (h : Free w) {r : Res}
    (hr : r ∈ [Res.pk, .drbg, .entropy, .crt, .serial, .ecc, .rng, .sha, .buffer]) : r ∉ w.held := fun m => h r m hr

/-- The contexts a function uses are not in use. -/
structure Fr (w : W) : Prop where
  pk : Res.pk ∉ w.held
  drbg : Res.drbg ∉ w.held
  entropy : Res.entropy ∉ w.held
  crt : Res.crt ∉ w.held
  serial : Res.serial ∉ w.held
  ecc : Res.ecc ∉ w.held
  rng : Res.rng ∉ w.held
  sha : Res.sha ∉ w.held
  buffer : Res.buffer ∉ w.held

theorem fr {w : W} (h : Free w) : Fr w := by
  constructor <;> exact free_not_mem h (by simp)

theorem mb_dates : mbDate "20010101000000" = 20010101000000 ∧ mbDate "20491231235959" = 20491231235959 := by
  decide +kernel

theorem wolf_dates : utcTime wolfBefore = 20200101000000 ∧ utcTime wolfAfter = 20490101000000 := by
  decide +kernel

theorem mb_selfSigned (k : K) :
    SelfSigned k ⟨k, some k, 1, "nabto", "nabto", mbDate "20010101000000", mbDate "20491231235959"⟩ := by
  rw [mb_dates.1, mb_dates.2]
  refine ⟨rfl, rfl, rfl, rfl, rfl, fun t a b => ⟨?_, ?_⟩⟩ <;> simp only <;> omega

theorem wolf_selfSigned (k : K) :
    SelfSigned k ⟨k, some k, 1, "nabto", "nabto", utcTime wolfBefore, utcTime wolfAfter⟩ := by
  rw [wolf_dates.1, wolf_dates.2]
  refine ⟨rfl, rfl, rfl, rfl, rfl, fun t a b => ⟨?_, ?_⟩⟩ <;> simp only <;> omega

/-- Where a function is: it was called in `w0`, has made `i` calls and holds `e`. -/
structure At (w0 : W) (i : Nat) (w : W) (e : List Res) : Prop where
  clean : Clean w0 w e
  asked : w.asked = w0.asked + i

theorem At.start (w : W) : At w 0 w [] := ⟨⟨rfl, rfl, rfl, rfl⟩, rfl⟩

variable {w0 w : W} {i : Nat} {e : List Res}

theorem At.tick (h : At w0 i w e) : At w0 (i + 1) w.tick e := by
  obtain ⟨⟨a, b, c, d⟩, f⟩ := h
  exact ⟨⟨a, b, c, d⟩, by simp [W.tick, f]; omega⟩

theorem At.open (h : At w0 i w e) {r : Res} (h1 : r ∉ w0.held) (h2 : r ∉ e) : At w0 i (w.open r) (r :: e) := by
  obtain ⟨⟨a, b, c, d⟩, f⟩ := h
  refine ⟨⟨?_, ?_, c, d⟩, f⟩
  · simp [W.open, a]
  · simp [W.open, a, b, h1, h2]

theorem At.give (h : At w0 i w e) : At w0 i w.give (.text :: e) := by
  obtain ⟨⟨a, b, c, d⟩, f⟩ := h
  exact ⟨⟨by simp [W.give, a], b, c, d⟩, f⟩

theorem Spec.Clean.close (h : Clean w0 w e) {r : Res} (h1 : r ∈ e) : Clean w0 (w.close r) (e.erase r) := by
  obtain ⟨a, b, c, d⟩ := h
  refine ⟨?_, ?_, c, d⟩
  · simp [W.close, a, List.erase_append, h1]
  · simp [W.close, a, b, h1]

theorem At.close (h : At w0 i w e) {r : Res} (h1 : r ∈ e) : At w0 i (w.close r) (e.erase r) :=
  ⟨h.1.close h1, h.2⟩

theorem At.q {A : Type} {P : A → Prop} {no yes : W → A} (h : At w0 i w e)
    (hn : ∀ w, At w0 (i + 1) w e → w0.ok (w0.asked + i) = false → P (no w))
    (hy : ∀ w, At w0 (i + 1) w e → w0.ok (w0.asked + i) = true → P (yes w)) : P (w.q no yes) := by
  have e1 : w.ok w.asked = w0.ok (w0.asked + i) := by rw [h.clean.ok, h.asked]
  unfold W.q
  split_ifs with hc
  · exact hy _ h.tick (by rw [← e1]; exact hc)
  · exact hn _ h.tick (by rw [← e1]; simpa using hc)

/-- What the functions which make something promise: nothing is lost, and what they say is true. -/
structure Gives {A : Type} (w0 : W) (e : List Res) (P : A → Prop) (r : W × Ec × Option A) : Prop where
  clean : Clean w0 r.1 (given r.2.2 ++ e)
  yes : r.2.1 = .ok → ∃ x, r.2.2 = some x ∧ P x
  no : r.2.1 ≠ .ok → r.2.2 = none

theorem Gives.fail {A : Type} {P : A → Prop} (h : At w0 i w e) {ec : Ec} (he : ec ≠ .ok) :
    Gives w0 e P (w, ec, (none : Option A)) :=
  ⟨h.clean, fun h => absurd h he, fun _ => rfl⟩

theorem Gives.some {A : Type} {P : A → Prop} {x : A} (h : Clean w0 w (.text :: e)) (hx : P x) :
    Gives w0 e P (w, .ok, Option.some x) :=
  ⟨h, fun _ => ⟨x, rfl, hx⟩, fun h => absurd rfl h⟩

def mbCtx : List Res := [.serial, .crt, .entropy, .drbg, .pk]

theorem mbCrtInner_eq (c : Crypto K) (key : Text) (h : At w0 0 w mbCtx) (hb : Res.buffer ∉ w0.held) :
    Gives w0 mbCtx (fun x => ∃ k, c.parse key = Option.some k ∧ SelfSigned k x) (mbCrtInner c w key) := by
  unfold mbCrtInner
  refine At.q (P := Gives _ _ _) h (fun w h _ => Gives.fail h nofun) fun w h _ => ?_
  refine At.q (P := Gives _ _ _) h (fun w h _ => Gives.fail h nofun) fun w h _ => ?_
  cases hp : c.parse key with
  | none => exact Gives.fail h nofun
  | some k =>
    simp only
    refine At.q (P := Gives _ _ _) h (fun w h _ => Gives.fail h nofun) fun w h _ => ?_
    refine At.q (P := Gives _ _ _) h (fun w h _ => Gives.fail h nofun) fun w h _ => ?_
    refine At.q (P := Gives _ _ _) h (fun w h _ => Gives.fail h nofun) fun w h _ => ?_
    refine At.q (P := Gives _ _ _) h (fun w h _ => Gives.fail h nofun) fun w h _ => ?_
    refine At.q (P := Gives _ _ _) h (fun w h _ => Gives.fail h nofun) fun w h _ => ?_
    refine At.q (P := Gives _ _ _) h (fun w h _ => Gives.fail h nofun) fun w h _ => ?_
    have h := h.open hb (by decide)
    refine At.q (P := Gives _ _ _) h (fun w h _ => Gives.fail (h.close (r := .buffer) (by decide)) nofun) fun w h _ => ?_
    refine At.q (P := Gives _ _ _) h (fun w h _ => Gives.fail (h.close (r := .buffer) (by decide)) nofun) fun w h _ => ?_
    exact Gives.some (h.give.close (r := .buffer) (by decide)).clean ⟨k, rfl, mb_selfSigned k⟩

theorem mbCrt_eq (c : Crypto K) (w : W) (key : Text) (hf : Free w) :
    Gives w [] (fun x => ∃ k, c.parse key = Option.some k ∧ SelfSigned k x) (mbCrt c w key) := by
  obtain ⟨h1, h2, h3, h4, h5, h6, h7, h8, h9⟩ := fr hf
  have h := (((((At.start w).open h1 (by decide)).open h2 (by decide)).open h3 (by decide)).open h4 (by decide)).open h5
    (by decide)
  have g := mbCrtInner_eq c key h h9
  unfold mbCrt
  simp only
  generalize mbCrtInner c _ key = r at g
  obtain ⟨w', ec, x⟩ := r
  obtain ⟨a, b, d⟩ := g
  refine ⟨?_, b, d⟩
  cases x with
  | none =>
    replace a : Clean w w' mbCtx := a
    exact ((((a.close (r := .crt) (by decide)).close (r := .serial) (by decide)).close (r := .drbg) (by decide)).close
      (r := .entropy) (by decide)).close (r := .pk) (by decide)
  | some x =>
    replace a : Clean w w' (.text :: mbCtx) := a
    exact ((((a.close (r := .crt) (by decide)).close (r := .serial) (by decide)).close (r := .drbg) (by decide)).close
      (r := .entropy) (by decide)).close (r := .pk) (by decide)

theorem slice_end {c : Crypto K} {junk : List UInt8} {k : K} {b : List UInt8} {len : Nat} (hj : junk.length = 256)
    (h : writeEnd c junk k = some (b, len)) : slice b (256 - len) len = c.spki k ∧ len = (c.spki k).length := by
  unfold writeEnd at h
  simp only at h
  split_ifs at h with hl
  simp only [Option.some.injEq, Prod.mk.injEq] at h
  obtain ⟨rfl, rfl⟩ := h
  refine ⟨?_, rfl⟩
  unfold slice
  rw [List.drop_left' (by simp; omega)]
  simp

theorem slice_start {c : Crypto K} {junk : List UInt8} {k : K} {b : List UInt8} {len : Nat}
    (h : writeStart c junk k = some (b, len)) : slice b 0 len = c.spki k ∧ len = (c.spki k).length := by
  unfold writeStart at h
  simp only at h
  split_ifs at h with hl
  simp only [Option.some.injEq, Prod.mk.injEq] at h
  obtain ⟨rfl, rfl⟩ := h
  exact ⟨by simp [slice], rfl⟩

theorem Spec.Prints.fail {P : List UInt8 → Prop} {fp : List UInt8} (h : At w0 i w e) {ec : Ec} (he : ec ≠ .ok) :
    Prints w0 e P (w, ec, fp) :=
  ⟨h.clean, fun h => absurd h he⟩

theorem mbSha_eq (c : Crypto K) (v3 : Bool) (d fp : List UInt8) (h : At w0 i w e) :
    Clean w0 (mbSha c v3 w d fp).1 e ∧
    (w0.ok (w0.asked + i) = true → (mbSha c v3 w d fp).2 = (true, c.sha256 d)) ∧
    (w0.ok (w0.asked + i) = false → (mbSha c v3 w d fp).2 = (v3, fp)) := by
  unfold mbSha
  refine At.q (P := fun r : W × Bool × List UInt8 => Clean w0 r.1 e ∧ (_ → r.2 = _) ∧ (_ → r.2 = _)) h (fun w h x => ?_) fun w h x => ?_
  · exact ⟨h.clean, fun y => (by rw [x] at y; cases y), fun _ => rfl⟩
  · exact ⟨h.clean, fun _ => rfl, fun y => (by rw [x] at y; cases y)⟩

/-- The digest goes well, or the function says that it did not. -/
def told (v3 : Bool) (w0 : W) : Prop := v3 = true → Hashes w0

def fpCtx : List Res := [.pk, .entropy, .drbg]

theorem mbFpInner_eq (c : Crypto K) (v3 : Bool) (junk : List UInt8) (key : Text) (fp : List UInt8)
    (hj : junk.length = 256) (ht : told v3 w0) (h : At w0 0 w fpCtx) :
    Prints w0 fpCtx (fun f => ∃ k, c.parse key = some k ∧ f = fingerprint c k) (mbFpInner c v3 junk w key fp) := by
  unfold mbFpInner
  refine At.q (P := Prints _ _ _) h (fun w h _ => Prints.fail h nofun) fun w h _ => ?_
  refine At.q (P := Prints _ _ _) h (fun w h _ => Prints.fail h nofun) fun w h _ => ?_
  cases hp : c.parse key with
  | none => exact Prints.fail h nofun
  | some k =>
    simp only
    refine At.q (P := Prints _ _ _) h (fun w h _ => Prints.fail h nofun) fun w h _ => ?_
    rcases hw : writeEnd c junk k with _ | ⟨b, len⟩
    · exact Prints.fail h nofun
    · simp only
      split_ifs with hl hs
      · exact Prints.fail h nofun
      · have m := mbSha_eq c v3 (slice b (256 - len) len) fp h
        refine ⟨m.1, fun _ => ?_⟩
        cases hh : w0.ok (w0.asked + (0 + 1 + 1 + 1)) with
        | true =>
          simp only
          rw [m.2.1 hh, (slice_end hj hw).1]
          exact ⟨k, rfl, rfl⟩
        | false =>
          rw [m.2.2 hh] at hs
          have := ht hs
          rw [Hashes] at this
          simp [this] at hh
      · exact ⟨(mbSha_eq c v3 (slice b (256 - len) len) fp h).1, nofun⟩

theorem mbFp_eq (c : Crypto K) (v3 : Bool) (junk : List UInt8) (w : W) (key : Text) (fp : List UInt8)
    (hj : junk.length = 256) (ht : told v3 w) (hf : Free w) :
    Prints w [] (fun f => ∃ k, c.parse key = some k ∧ f = fingerprint c k) (mbFp c v3 junk w key fp) := by
  obtain ⟨h1, h2, h3, h4, h5, h6, h7, h8, h9⟩ := fr hf
  have h := (((At.start w).open h2 (by decide)).open h3 (by decide)).open h1 (by decide)
  have g := mbFpInner_eq c v3 junk key fp hj ht h
  unfold mbFp
  simp only
  generalize mbFpInner c v3 junk _ key fp = r at g
  obtain ⟨w', ec, x⟩ := r
  obtain ⟨a, b⟩ := g
  refine ⟨?_, b⟩
  replace a : Clean w w' fpCtx := a
  exact ((a.close (r := .drbg) (by decide)).close (r := .entropy) (by decide)).close (r := .pk) (by decide)

/-- Without any assumption on the digest: the contexts. -/
theorem mbFp_clean (c : Crypto K) (v3 : Bool) (junk : List UInt8) (w : W) (key : Text) (fp : List UInt8) (hf : Free w) :
    Clean w (mbFp c v3 junk w key fp).1 [] := by
  obtain ⟨h1, h2, h3, h4, h5, h6, h7, h8, h9⟩ := fr hf
  have h := (((At.start w).open h2 (by decide)).open h3 (by decide)).open h1 (by decide)
  have g : Clean w (mbFpInner c v3 junk (((w.open .drbg).open .entropy).open .pk) key fp).1 fpCtx := by
    unfold mbFpInner
    refine At.q (P := fun r : W × Ec × List UInt8 => Clean _ r.1 fpCtx) h (fun w h _ => h.clean) fun w h _ => ?_
    refine At.q (P := fun r : W × Ec × List UInt8 => Clean _ r.1 fpCtx) h (fun w h _ => h.clean) fun w h _ => ?_
    cases hp : c.parse key with
    | none => exact h.clean
    | some k =>
      simp only
      refine At.q (P := fun r : W × Ec × List UInt8 => Clean _ r.1 fpCtx) h (fun w h _ => h.clean) fun w h _ => ?_
      rcases hw : writeEnd c junk k with _ | ⟨b, len⟩
      · exact h.clean
      · simp only
        split_ifs with hl hs
        · exact h.clean
        · exact (mbSha_eq c v3 (slice b (256 - len) len) fp h).1
        · exact (mbSha_eq c v3 (slice b (256 - len) len) fp h).1
  unfold mbFp
  simp only
  generalize mbFpInner c v3 junk _ key fp = r at g
  obtain ⟨w', ec, x⟩ := r
  replace g : Clean w w' fpCtx := g
  exact ((g.close (r := .drbg) (by decide)).close (r := .entropy) (by decide)).close (r := .pk) (by decide)

theorem mbFpCrt_eq (c : Crypto K) (v3 : Bool) (junk : List UInt8) (w : W) (crt : Cert K) (fp : List UInt8)
    (hj : junk.length = 256) :
    Clean w (mbFpCrt c v3 junk w crt fp).1 [] ∧
    ((mbFpCrt c v3 junk w crt fp).2.1 = .ok → w.ok (w.asked + 1) = true →
      (mbFpCrt c v3 junk w crt fp).2.2 = fingerprint c crt.subject) := by
  unfold mbFpCrt
  refine At.q (P := fun r : W × Ec × List UInt8 => Clean w r.1 [] ∧ (r.2.1 = .ok → _ → r.2.2 = _)) (At.start w)
    (fun w h _ => ⟨h.clean, nofun⟩) fun w h _ => ?_
  rcases hw : writeEnd c junk crt.subject with _ | ⟨b, len⟩
  · exact ⟨h.clean, nofun⟩
  · simp only
    split_ifs with hl
    · exact ⟨h.clean, nofun⟩
    · have m := mbSha_eq c v3 (slice b (256 - len) len) fp h
      refine ⟨m.1, fun _ hh => ?_⟩
      have := m.2.1 (by simpa using hh)
      simp only
      rw [this, (slice_end hj hw).1]
      rfl

def createCtx : List Res := [.entropy, .drbg, .pk, .buffer]

theorem create_fin (h : Clean w0 w (createCtx)) :
    Clean w0 ((((w.close .buffer).close .pk).close .drbg).close .entropy) [] :=
  (((h.close (r := .buffer) (by decide)).close (r := .pk) (by decide)).close (r := .drbg) (by decide)).close
    (r := .entropy) (by decide)

theorem create_fin' (h : Clean w0 w (.text :: createCtx)) :
    Clean w0 ((((w.close .buffer).close .pk).close .drbg).close .entropy) [.text] :=
  (((h.close (r := .buffer) (by decide)).close (r := .pk) (by decide)).close (r := .drbg) (by decide)).close
    (r := .entropy) (by decide)

/-- What the functions which draw a key promise, when `C` holds. -/
structure Makes (w0 : W) (C : Prop) (t : Text) (r : W × Ec × Option Text) : Prop where
  clean : Clean w0 r.1 (given r.2.2)
  yes : r.2.1 = .ok → C → r.2.2 = some t
  only : ∀ x, r.2.2 = some x → x = t ∧ r.2.1 = .ok

theorem mbCreate_eq (c : Crypto K) (w : W) (k : K) (hf : Free w) :
    Makes w (Copies w) (c.pem k) (mbCreate c w k) := by
  obtain ⟨h1, h2, h3, h4, h5, h6, h7, h8, h9⟩ := fr hf
  unfold mbCreate
  refine At.q (P := Makes _ _ _)
    (At.start w) (fun w h _ => ⟨h.clean, nofun, nofun⟩) fun w h _ => ?_
  have h := (((h.open h9 (by decide)).open h1 (by decide)).open h2 (by decide)).open h3 (by decide)
  simp only
  refine At.q (P := Makes _ _ _)
    h (fun w h _ => ⟨create_fin h.clean, nofun, nofun⟩) fun w h _ => ?_
  refine At.q (P := Makes _ _ _)
    h (fun w h _ => ⟨create_fin h.clean, nofun, nofun⟩) fun w h _ => ?_
  refine At.q (P := Makes _ _ _)
    h (fun w h _ => ⟨create_fin h.clean, nofun, nofun⟩) fun w h _ => ?_
  refine At.q (P := Makes _ _ _)
    h (fun w h _ => ⟨create_fin h.clean, nofun, nofun⟩) fun w h _ => ?_
  refine At.q (P := Makes _ _ _)
    h (fun w h x => ⟨create_fin h.clean, fun _ y => ?_, nofun⟩) fun w h _ => ?_
  · have y' : _ = true := y
    simp at x y'
    rw [y'] at x; cases x
  · exact ⟨create_fin' h.give.clean, fun _ _ => rfl, fun _ h => ⟨(Option.some.inj h).symm, rfl⟩⟩

theorem At.read (h : At w0 i w e) {len size : Nat} (hl : len ≤ size) : At w0 i (w.read len size) e := by
  obtain ⟨⟨a, b, c, d⟩, f⟩ := h
  exact ⟨⟨a, b, by simp [W.read, c]; intro; omega, d⟩, f⟩

/-- `Gives`, with the accounting only when `C` holds. -/
structure GivesIf {A : Type} (w0 : W) (C : Prop) (P : A → Prop) (r : W × Ec × Option A) : Prop where
  clean : C → Clean w0 r.1 (given r.2.2)
  over : r.1.over = w0.over
  yes : r.2.1 = .ok → ∃ x, r.2.2 = some x ∧ P x
  no : r.2.1 ≠ .ok → r.2.2 = none

theorem GivesIf.fail {A : Type} {C : Prop} {P : A → Prop} (h : Clean w0 w []) {ec : Ec} (he : ec ≠ .ok) :
    GivesIf w0 C P (w, ec, (none : Option A)) :=
  ⟨fun _ => h, h.over, fun h => absurd h he, fun _ => rfl⟩

theorem wolf_fin (h : Clean w0 w [.rng, .ecc]) : Clean w0 ((w.close .rng).close .ecc) [] :=
  (h.close (r := .rng) (by decide)).close (r := .ecc) (by decide)

theorem wolf_fin' (h : Clean w0 w [.text, .rng, .ecc]) : Clean w0 ((w.close .rng).close .ecc) [.text] :=
  (h.close (r := .rng) (by decide)).close (r := .ecc) (by decide)

theorem ok_absurd {p : Prop} {x : Bool} (h1 : x = true) (h2 : x = false) : p := by rw [h1] at h2; cases h2

theorem wolfCrt_eq (c : Crypto K) (w : W) (key : Text) (len err : Nat) (hf : Free w) (hs : Signs w) (hl : len ≤ 512) :
    GivesIf w (Encodes w) (fun x => ∃ k, c.parse key = some k ∧ SelfSigned k x) (wolfCrt c w key len err) := by
  obtain ⟨h1, h2, h3, h4, h5, h6, h7, h8, h9⟩ := fr hf
  unfold wolfCrt
  refine At.q (P := GivesIf _ _ _) (At.start w) (fun w h _ => GivesIf.fail h.clean nofun) fun w h _ => ?_
  refine At.q (P := GivesIf _ _ _) h (fun w h _ => GivesIf.fail h.clean nofun) fun w h _ => ?_
  have h := h.open h6 (by decide)
  refine At.q (P := GivesIf _ _ _) h (fun w h _ => GivesIf.fail (h.clean.close (r := .ecc) (by decide)) nofun)
    fun w h _ => ?_
  have h := h.open h7 (by decide)
  refine At.q (P := GivesIf _ _ _) h (fun w h _ => GivesIf.fail (wolf_fin h.clean) nofun) fun w h _ => ?_
  refine At.q (P := GivesIf _ _ _) h (fun w h _ => GivesIf.fail (wolf_fin h.clean) nofun) fun w h _ => ?_
  cases hp : c.parse key with
  | none => exact GivesIf.fail (wolf_fin h.clean) nofun
  | some k =>
    simp only
    refine At.q (P := GivesIf _ _ _) h (fun w h _ => GivesIf.fail (wolf_fin h.clean) nofun) fun w h _ => ?_
    unfold wolfCrtEnd
    simp only
    refine At.q (P := GivesIf _ _ _) h (fun w h x => ok_absurd hs x) fun w h _ => ?_
    have h := h.read hl
    refine At.q (P := GivesIf _ _ _) h (fun w h x => ⟨fun y => ok_absurd y x, h.clean.over, nofun, fun _ => rfl⟩)
      fun w h _ => ?_
    refine At.q (P := GivesIf _ _ _) h (fun w h _ => GivesIf.fail (wolf_fin h.clean) nofun) fun w h _ => ?_
    have f := wolf_fin' h.give.clean
    exact ⟨fun _ => f, f.over, fun _ => ⟨_, rfl, k, rfl, wolf_selfSigned k⟩, fun h => absurd rfl h⟩

theorem wolfSha_eq (c : Crypto K) (d other fp : List UInt8) (h : At w0 i w []) (hf : Free w0) :
    Prints w0 [] (fun f => f = c.sha256 d) (wolfSha c w d other fp) := by
  have h8 := (fr hf).sha
  unfold wolfSha
  refine At.q (P := Prints _ _ _) h (fun w h _ => Prints.fail h nofun) fun w h _ => ?_
  have h := h.open h8 (by decide)
  refine At.q (P := Prints _ _ _) h (fun w h _ => ?_) fun w h _ => ?_
  · refine At.q (P := Prints _ _ _) h (fun w h _ => Prints.fail (h.close (r := .sha) (by decide)) nofun) fun w h _ => ?_
    exact Prints.fail (h.close (r := .sha) (by decide)) nofun
  · refine At.q (P := Prints _ _ _) h (fun w h _ => Prints.fail (h.close (r := .sha) (by decide)) nofun) fun w h _ => ?_
    exact ⟨h.clean.close (r := .sha) (by decide), fun _ => rfl⟩

theorem wolfFp_eq (c : Crypto K) (junk other : List UInt8) (w : W) (key : Text) (fp : List UInt8) (hf : Free w) :
    Prints w [] (fun f => ∃ k, c.parse key = some k ∧ f = fingerprint c k) (wolfFp c junk other w key fp) := by
  obtain ⟨h1, h2, h3, h4, h5, h6, h7, h8, h9⟩ := fr hf
  unfold wolfFp
  refine At.q (P := Prints _ _ _) (At.start w) (fun w h _ => Prints.fail h nofun) fun w h _ => ?_
  have h := h.open h6 (by decide)
  refine At.q (P := Prints _ _ _) h (fun w h _ => Prints.fail (h.close (r := .ecc) (by decide)) nofun) fun w h _ => ?_
  refine At.q (P := Prints _ _ _) h (fun w h _ => Prints.fail (h.close (r := .ecc) (by decide)) nofun) fun w h _ => ?_
  cases hp : c.parse key with
  | none => exact Prints.fail (h.close (r := .ecc) (by decide)) nofun
  | some k =>
    simp only
    refine At.q (P := Prints _ _ _) h (fun w h _ => Prints.fail (h.close (r := .ecc) (by decide)) nofun) fun w h _ => ?_
    rcases hw : writeStart c junk k with _ | ⟨b, len⟩
    · exact Prints.fail (h.close (r := .ecc) (by decide)) nofun
    · have m := wolfSha_eq c (slice b 0 len) other fp (h.close (r := .ecc) (by decide)) hf
      refine ⟨m.1, fun y => ⟨k, rfl, ?_⟩⟩
      simp only
      rw [m.2 y, (slice_start hw).1]
      rfl

theorem wolfFpCrt_eq (c : Crypto K) (junk : List UInt8) (w : W) (crt : Cert K) (fp : List UInt8) (hf : Free w) :
    Prints w [] (fun f => f = fingerprint c crt.subject) (wolfFpCrt c junk w crt fp) := by
  obtain ⟨h1, h2, h3, h4, h5, h6, h7, h8, h9⟩ := fr hf
  unfold wolfFpCrt
  refine At.q (P := Prints _ _ _) (At.start w) (fun w h _ => Prints.fail h nofun) fun w h _ => ?_
  rcases hw : writeStart c junk crt.subject with _ | ⟨b, len⟩
  · exact Prints.fail h nofun
  · simp only
    refine At.q (P := Prints _ _ _) h (fun w h _ => Prints.fail h nofun) fun w h _ => ?_
    have h := h.open h8 (by decide)
    refine At.q (P := Prints _ _ _) h (fun w h _ => Prints.fail (h.close (r := .sha) (by decide)) nofun) fun w h _ => ?_
    refine At.q (P := Prints _ _ _) h (fun w h _ => Prints.fail (h.close (r := .sha) (by decide)) nofun) fun w h _ => ?_
    refine At.q (P := Prints _ _ _) h (fun w h _ => Prints.fail (h.close (r := .sha) (by decide)) nofun) fun w h _ => ?_
    refine ⟨h.clean.close (r := .sha) (by decide), fun _ => ?_⟩
    simp only
    rw [(slice_start hw).1]
    rfl

theorem wolfCreate_eq (c : Crypto K) (w : W) (k : K) (hf : Free w) :
    Makes w True (c.pem k) (wolfCreate c w k) := by
  obtain ⟨h1, h2, h3, h4, h5, h6, h7, h8, h9⟩ := fr hf
  unfold wolfCreate
  refine At.q (P := Makes _ _ _) (At.start w) (fun w h _ => ⟨h.clean, nofun, nofun⟩) fun w h _ => ?_
  have h := h.open h6 (by decide)
  refine At.q (P := Makes _ _ _) h (fun w h _ => ⟨h.clean.close (r := .ecc) (by decide), nofun, nofun⟩) fun w h _ => ?_
  have h := h.open h7 (by decide)
  simp only
  refine At.q (P := Makes _ _ _) h (fun w h _ => ⟨wolf_fin h.clean, nofun, nofun⟩) fun w h _ => ?_
  refine At.q (P := Makes _ _ _) h (fun w h _ => ⟨wolf_fin h.clean, nofun, nofun⟩) fun w h _ => ?_
  refine At.q (P := Makes _ _ _) h (fun w h _ => ⟨wolf_fin h.clean, nofun, nofun⟩) fun w h _ => ?_
  split_ifs
  · exact ⟨wolf_fin h.clean, nofun, nofun⟩
  · refine At.q (P := Makes _ _ _) h (fun w h _ => ⟨wolf_fin h.clean, nofun, nofun⟩) fun w h _ => ?_
    exact ⟨wolf_fin' h.give.clean, fun _ _ => rfl, fun _ h => ⟨(Option.some.inj h).symm, rfl⟩⟩

end Verif.Device.Keys
