import Verif.Device.KeysRaw

/-!
# Private keys, certificates and fingerprints: properties C135 and C136
-/

namespace Verif.Device.Keys.Props

open Spec

variable {K : Type}

/-! ## A small library for the examples -/

/-- Keys are numbers. The text of a key is one byte, a public key one byte, the digest 32 copies of the first byte. -/
def toy : Crypto (Fin 100) where
  parse t := match t with
    | [b] => if h : b.toNat < 100 then some ⟨b.toNat, h⟩ else none
    | _ => none
  pem k := [UInt8.ofNat k.val]
  spki k := [UInt8.ofNat (k.val + 1)]
  sha256 d := List.replicate 32 (d.headD 0)
  ofNat n := Fin.ofNat 100 n

theorem toy_works : Works toy := by
  refine ⟨by decide, by decide, by decide⟩

def world (ok : Nat → Bool) : W := ⟨ok, 0, [], false, false⟩

def env : Env := ⟨List.replicate 256 7, [], 300, 180⟩

theorem init_tidy (ok : Nat → Bool) : Tidy (world ok) (Dev.init : Dev K) [] := ⟨List.Perm.refl _, rfl, rfl⟩

theorem raw_nil : Raw [] := fun _ h => nomatch h

/-! ## C135 -/

/-- With mbedtls a certificate is handed out exactly when the function says so; it is the self-signed certificate of the key
in the text. Every context and buffer is given back once, whatever fails. -/
theorem C135_crt (c : Crypto K) (w : W) (key : Text) (hf : Free w) :
    Clean w (mbCrt c w key).1 (given (mbCrt c w key).2.2) ∧
    ((mbCrt c w key).2.1 = .ok → ∃ x k, (mbCrt c w key).2.2 = some x ∧ c.parse key = some k ∧ SelfSigned k x) ∧
    ((mbCrt c w key).2.1 ≠ .ok → (mbCrt c w key).2.2 = none) := by
  obtain ⟨a, b, d⟩ := mbCrt_eq c w key hf
  rw [List.append_nil] at a
  refine ⟨a, fun h => ?_, d⟩
  obtain ⟨x, hx, k, hk, hs⟩ := b h
  exact ⟨x, k, hx, hk, hs⟩

example : Free (world fun _ => true) ∧ (mbCrt toy (world fun _ => true) [5]).2.1 = .ok ∧
    (mbCrt toy (world fun n => n != 6) [5]).2.1 = .unknown := ⟨nofun, by decide, by decide⟩

/-- The same for wolfSSL when the signature can be made and fits in the buffer; what is taken is given back when, besides,
the certificate can be written as text. Missing: the other cases, see the two violations. -/
theorem C135_wolf_crt_partial (c : Crypto K) (w : W) (key : Text) (len err : Nat) (hf : Free w) (hs : Signs w)
    (hl : len ≤ 512) :
    (Encodes w → Clean w (wolfCrt c w key len err).1 (given (wolfCrt c w key len err).2.2)) ∧
    (wolfCrt c w key len err).1.over = w.over ∧
    ((wolfCrt c w key len err).2.1 = .ok →
      ∃ x k, (wolfCrt c w key len err).2.2 = some x ∧ c.parse key = some k ∧ SelfSigned k x) ∧
    ((wolfCrt c w key len err).2.1 ≠ .ok → (wolfCrt c w key len err).2.2 = none) := by
  obtain ⟨a, o, b, d⟩ := wolfCrt_eq c w key len err hf hs hl
  refine ⟨a, o, fun h => ?_, d⟩
  obtain ⟨x, hx, k, hk, hs⟩ := b h
  exact ⟨x, k, hx, hk, hs⟩

example : Signs (world fun _ => true) ∧ Encodes (world fun _ => true) ∧
    (wolfCrt toy (world fun _ => true) [5] 300 180).2.1 = .ok := ⟨rfl, rfl, by decide⟩

/-- With wolfSSL a signature which cannot be made is not noticed: for every key which can be read, when nothing but the
signature fails, the function hands out a certificate nobody has signed and says OK; and it hands the library a length of
2^32 less the error code for a buffer of 512 bytes. -/
theorem C135_sign_violated (c : Crypto K) (key : Text) (k : K) (len err : Nat) (hp : c.parse key = some k)
    (he : err < 2 ^ 31) :
    ∃ x, (wolfCrt c (world fun n => n != 6) key len err).2 = (.ok, some x) ∧ x.signer = none ∧
      (wolfCrt c (world fun n => n != 6) key len err).1.over = true := by
  refine ⟨⟨k, none, 1, "nabto", "nabto", utcTime wolfBefore, utcTime wolfAfter⟩, ?_, rfl, ?_⟩
  · simp [wolfCrt, wolfCrtEnd, W.q, W.tick, world, hp, W.open, W.close, W.give, W.read]
  · simp [wolfCrt, wolfCrtEnd, W.q, W.tick, W.open, W.close, W.give, W.read, world, hp]
    omega

example : toy.parse [5] = some 5 ∧ (180 : Nat) < 2 ^ 31 := by decide

/-- With wolfSSL, when the certificate cannot be written as text, the function returns without freeing its random generator
and its key, for every key which can be read. -/
theorem C135_leak_violated (c : Crypto K) (key : Text) (k : K) (len err : Nat) (hp : c.parse key = some k) :
    (wolfCrt c (world fun n => n != 7) key len err).2 = (.failed, none) ∧
      (wolfCrt c (world fun n => n != 7) key len err).1.held = [.rng, .ecc] := by
  simp [wolfCrt, wolfCrtEnd, W.q, W.tick, W.open, W.read, world, hp]

/-- The fingerprint which the device makes of its private key, and the one a peer makes of the certificate of the device, are
the SHA-256 of the public key, so that they are the same; contexts are given back. With mbedtls 2 and with wolfSSL; for the
fingerprint of a certificate with mbedtls, when the digest goes well. -/
theorem C135_fingerprint (c : Crypto K) (junk other : List UInt8) (w : W) (key : Text) (crt : Cert K) (fp : List UInt8)
    (hj : junk.length = 256) (hf : Free w) :
    Prints w [] (fun f => ∃ k, c.parse key = some k ∧ f = fingerprint c k) (mbFp c false junk w key fp) ∧
    Prints w [] (fun f => ∃ k, c.parse key = some k ∧ f = fingerprint c k) (wolfFp c junk other w key fp) ∧
    Prints w [] (fun f => f = fingerprint c crt.subject) (wolfFpCrt c junk w crt fp) ∧
    (∀ v3, Prints w [] (fun f => w.ok (w.asked + 1) = true → f = fingerprint c crt.subject)
      (mbFpCrt c v3 junk w crt fp)) := by
  refine ⟨mbFp_eq c false junk w key fp hj (fun h => by cases h) hf, wolfFp_eq c junk other w key fp hf,
    wolfFpCrt_eq c junk w crt fp hf, fun v3 => ?_⟩
  obtain ⟨a, b⟩ := mbFpCrt_eq c v3 junk w crt fp hj
  exact ⟨a, b⟩

/-- With mbedtls 3, when the digest goes well. Missing: when it does not, see the violation. -/
theorem C135_fingerprint_partial (c : Crypto K) (junk : List UInt8) (w : W) (key : Text) (fp : List UInt8)
    (hj : junk.length = 256) (hf : Free w) (hh : Hashes w) :
    Prints w [] (fun f => ∃ k, c.parse key = some k ∧ f = fingerprint c k) (mbFp c true junk w key fp) :=
  mbFp_eq c true junk w key fp hj (fun _ => hh) hf

example : (mbFp toy true env.junk (world fun _ => true) [5] []).2 = (.ok, List.replicate 32 6) ∧
    (wolfFp toy env.junk [] (world fun _ => true) [5] []).2 = (.ok, List.replicate 32 6) ∧
    (mbFpCrt toy true env.junk (world fun _ => true) ⟨5, some 5, 1, "", "", 0, 0⟩ []).2 = (.ok, List.replicate 32 6) ∧
    (wolfFpCrt toy env.junk (world fun _ => true) ⟨5, some 5, 1, "", "", 0, 0⟩ []).2 = (.ok, List.replicate 32 6) := by
  decide +kernel

/-- With mbedtls 3 a digest which fails is not noticed: whatever is in the output beforehand is left there as the
fingerprint, and the function says OK. The same for the fingerprint of the certificate of a peer, with every version: it is
what the peer is known by. -/
theorem C135_hash_violated (c : Crypto K) (junk : List UInt8) (key : Text) (k : K) (fp : List UInt8) (v3 : Bool)
    (crt : Cert K) (hc : Works c) (hp : c.parse key = some k) :
    (mbFp c true junk (world fun n => n != 3) key fp).2 = (.ok, fp) ∧
    (mbFpCrt c v3 junk (world fun n => n != 1) crt fp).2 = (.ok, fp) := by
  have s' : (c.spki k).length ≠ 0 := by have := hc.some k; omega
  have f' : ¬ 256 < (c.spki k).length := by have := hc.fits k; omega
  have s2 : (c.spki crt.subject).length ≠ 0 := by have := hc.some crt.subject; omega
  have f2 : ¬ 256 < (c.spki crt.subject).length := by have := hc.fits crt.subject; omega
  constructor
  · simp [mbFp, mbFpInner, mbSha, writeEnd, W.q, W.tick, W.open, world, hp, s', f']
  · simp [mbFpCrt, mbSha, writeEnd, W.q, W.tick, world, s2, f2]

/-- Drawing a key: a text which is handed out is that of the key, can be read again, and comes with OK; nothing else is kept.
With wolfSSL OK always comes with a text; with mbedtls when there is memory for the copy. -/
theorem C135_create_partial (c : Crypto K) (w : W) (k : K) (hf : Free w) (hc : Works c) :
    (Clean w (mbCreate c w k).1 (given (mbCreate c w k).2.2) ∧
      (∀ t, (mbCreate c w k).2.2 = some t → c.parse t = some k ∧ (mbCreate c w k).2.1 = .ok) ∧
      ((mbCreate c w k).2.1 = .ok → Copies w → (mbCreate c w k).2.2 = some (c.pem k))) ∧
    (Clean w (wolfCreate c w k).1 (given (wolfCreate c w k).2.2) ∧
      (∀ t, (wolfCreate c w k).2.2 = some t → c.parse t = some k ∧ (wolfCreate c w k).2.1 = .ok) ∧
      ((wolfCreate c w k).2.1 = .ok → (wolfCreate c w k).2.2 = some (c.pem k))) := by
  obtain ⟨a, b, d⟩ := mbCreate_eq c w k hf
  obtain ⟨a', b', d'⟩ := wolfCreate_eq c w k hf
  refine ⟨⟨a, fun t ht => ?_, b⟩, a', fun t ht => ?_, fun h => b' h trivial⟩
  · obtain ⟨rfl, e⟩ := d t ht
    exact ⟨hc.reads k, e⟩
  · obtain ⟨rfl, e⟩ := d' t ht
    exact ⟨hc.reads k, e⟩

example : (mbCreate toy (world fun _ => true) 5).2 = (.ok, some [5]) ∧
    (wolfCreate toy (world fun _ => true) 5).2 = (.ok, some [5]) := by decide

/-- With mbedtls, without memory for the copy, drawing a key says OK and hands out nothing, for every key. -/
theorem C135_create_violated (c : Crypto K) (k : K) :
    (mbCreate c (world fun n => n != 5) k).2 = (.ok, none) := by
  simp [mbCreate, W.q, W.tick, W.open, world]

/-- When `nabto_device_set_private_key` says OK the device has the key of the text, its self-signed certificate and its
fingerprint; whatever it says, the texts in use are those of the device and no context is left. With mbedtls 2 without any
assumption; with mbedtls 3 when the digest goes well; with wolfSSL when the certificate can be signed and written. -/
theorem C135_set_partial (l : Lib) (c : Crypto K) (e : Env) (w : W) (d : Dev K) (key : Text) (h : Tidy w d [])
    (hj : e.junk.length = 256) (hs : SetSigns l e w) :
    (SetEncodes l w → Tidy (d.setKey l c e w key).1 (d.setKey l c e w key).2.1 []) ∧
    (SetHashes l w → (d.setKey l c e w key).2.2 = .ok →
      ∃ k, c.parse key = some k ∧ (d.setKey l c e w key).2.1.privateKey = some key ∧
        Has c (d.setKey l c e w key).2.1 k) := by
  have h' : Holds w (texts d) [] := ⟨h.held, h.bad, h.over⟩
  refine ⟨fun he => ?_, fun hh ho => setKey_ok l c e d key raw_nil hj h' hs hh ho⟩
  obtain ⟨a, b, f⟩ := setKey_holds l c e d key raw_nil h' hs he
  exact ⟨a, b, f⟩

/-- And a key which can be read is taken when every call goes well. -/
theorem C135_set_well (l : Lib) (c : Crypto K) (e : Env) (w : W) (d : Dev K) (key : Text) (k : K) (hw : Well w)
    (hc : Works c) (hp : c.parse key = some k) : (d.setKey l c e w key).2.2 = .ok :=
  setKey_well l c e d key hw hc hp

example : ((Dev.init : Dev (Fin 100)).setKey .wolfssl toy env (world fun _ => true) [5]).2.2 = .ok ∧
    SetSigns .wolfssl env (world fun _ => true) ∧ SetEncodes .wolfssl (world fun _ => true) ∧
    Well (world fun _ => true) ∧ env.junk.length = 256 :=
  ⟨by decide +kernel, fun _ => ⟨by decide, rfl⟩, fun _ => rfl, fun _ => rfl, List.length_replicate ..⟩

/-- With mbedtls, after any sequence of calls which set a key as text or as bytes, whatever fails in them: the texts in use
are those of the device, no context is left, nothing was freed twice. -/
theorem C135_history (l : Lib) (hl : l ≠ .wolfssl) (c : Crypto K) (ops : List Op) (w : W) (d : Dev K) (h : Tidy w d []) :
    Tidy (run l c w d ops).1 (run l c w d ops).2 [] := by
  induction ops generalizing w d with
  | nil => exact h
  | cons o os ih =>
    have h' : Holds w (texts d) [] := ⟨h.held, h.bad, h.over⟩
    cases o with
    | set e key =>
      obtain ⟨a, b, f⟩ := setKey_holds l c e d key raw_nil h' (fun h => absurd h hl) (fun h => absurd h hl)
      exact ih _ _ ⟨a, b, f⟩
    | raw e key =>
      obtain ⟨a, b, f⟩ := mbRaw_holds l hl c e w d key h'
      exact ih _ _ ⟨a, b, f⟩

example : (run .mbedtls2 toy (world fun n => n != 20) Dev.init [.set env [5], .set env [6], .raw env [1]]).1.held =
    [.text] := by decide +kernel

/-! ## C136 -/

/-- The comparison of the wolfSSL build decides, for every list of bytes, whether it is one of 32 bytes whose number is below
the order of the group. -/
theorem C136_compare (key : List UInt8) : compareOrder key = true ↔ key.length = 32 ∧ number key < n :=
  compareOrder_iff key

example : compareOrder (groupOrder.dropLast ++ [0x50]) = true ∧ compareOrder groupOrder = false ∧
    number (groupOrder.dropLast ++ [0x50]) = n - 1 := by decide +kernel

/-- With mbedtls a raw key is refused, and the device left as it is, unless it is valid; OK means that the device has the key
with that number, its certificate and its fingerprint (mbedtls 3: if the digest goes well). -/
theorem C136_mbedtls (l : Lib) (hl : l ≠ .wolfssl) (c : Crypto K) (hc : Works c) (e : Env) (w : W) (d : Dev K)
    (key : List UInt8) (h : Tidy w d []) (hj : e.junk.length = 256) :
    (¬ Valid key → (mbRaw l c e w d key).2.1 = d ∧ (mbRaw l c e w d key).2.2 ≠ .ok) ∧
    ((mbRaw l c e w d key).2.2 = .ok → Valid key ∧
      ((l = .mbedtls3 → w.ok (w.asked + 22) = true) → Has c (mbRaw l c e w d key).2.1 (c.ofNat (number key)))) := by
  have h' : Holds w (texts d) [] := ⟨h.held, h.bad, h.over⟩
  have ho := (((h'.open (r := .rawPk) (by decide) nofun).open (r := .rawN) (by decide) nofun).open (r := .rawDrbg)
    (by decide) nofun).open (r := .rawEntropy) (by decide) nofun
  unfold mbRaw
  by_cases hk : key.length ≠ 32
  · simp only [if_pos hk]
    exact ⟨fun _ => ⟨trivial, nofun⟩, nofun⟩
  · simp only [if_neg hk]
    have g := mbRawCompute_eq c ((((w.open .rawPk).open .rawN).open .rawDrbg).open .rawEntropy) key
    generalize mbRawCompute c _ key = r at g
    obtain ⟨w', s⟩ := r
    cases s with
    | inl ec =>
      have := g.err ec rfl
      exact ⟨fun _ => ⟨rfl, this⟩, fun h => absurd h this⟩
    | inr t =>
      obtain ⟨g1, g2, rfl, g4⟩ := g.text t rfl
      have hv : Valid key := ⟨by simpa using hk, g1, g2⟩
      refine ⟨fun hn => absurd hv hn, fun hok => ⟨hv, fun hd => ?_⟩⟩
      obtain ⟨k, p1, _, p3⟩ := setKey_ok l c e d _ (by unfold Raw; simp) hj (g4.holds ho) (fun h => absurd h hl)
        (fun q => by
          have := hd q
          rw [g4.ok, g4.asked]
          exact this) hok
      rw [hc.reads] at p1
      cases p1
      exact p3

/-- And a valid raw key is taken when every call goes well. -/
theorem C136_mbedtls_well (l : Lib) (c : Crypto K) (hc : Works c) (e : Env) (w : W) (d : Dev K)
    (key : List UInt8) (hw : Well w) (hv : Valid key) : (mbRaw l c e w d key).2.2 = .ok := by
  unfold mbRaw
  simp only [if_neg (show ¬ key.length ≠ 32 by simpa using hv.1)]
  have g := mbRawCompute_eq c ((((w.open .rawPk).open .rawN).open .rawDrbg).open .rawEntropy) key
  generalize mbRawCompute c _ key = r at g
  obtain ⟨w', s⟩ := r
  obtain ⟨t, ht⟩ := g.well hw hv.2.1 hv.2.2
  cases ht
  obtain ⟨_, _, rfl, g4⟩ := g.text t rfl
  refine setKey_well l c e d _ ?_ hc (hc.reads _)
  intro m
  have : w'.ok = _ := g4.ok
  rw [this]
  exact hw m

example : Valid (List.replicate 31 0 ++ [5]) ∧ ¬ Valid groupOrder ∧ ¬ Valid (List.replicate 32 0) := by
  unfold Valid; decide +kernel

/-- With wolfSSL the same, but for the number zero: it passes the comparison of the code, so that it is refused only if the
library refuses it. -/
theorem C136_wolfssl_partial (zero : Bool) (c : Crypto K) (hc : Works c) (e : Env) (w : W) (d : Dev K)
    (key : List UInt8) (h : Tidy w d []) (hj : e.junk.length = 256) (hlen : e.len ≤ 512)
    (hsign : w.ok (w.asked + 12) = true) :
    (¬ Valid key → zero = false → (wolfRaw c zero e w d key).2.1 = d ∧ (wolfRaw c zero e w d key).2.2 ≠ .ok) ∧
    ((wolfRaw c zero e w d key).2.2 = .ok →
      key.length = 32 ∧ number key < n ∧ Has c (wolfRaw c zero e w d key).2.1 (c.ofNat (number key))) := by
  have h' : Holds w (texts d) [] := ⟨h.held, h.bad, h.over⟩
  unfold wolfRaw
  by_cases hk : compareOrder key = false
  · simp only [if_pos hk]
    exact ⟨fun _ _ => ⟨trivial, nofun⟩, nofun⟩
  · simp only [if_neg hk]
    have hk' := (compareOrder_iff key).1 (by simpa using hk)
    unfold W.q
    by_cases hi : w.ok w.asked = true
    · simp only [if_pos hi]
      have ho := h'.tick.open (r := .rawEcc) (by decide) nofun
      have g := wolfRawCompute_eq c zero (w.tick.open .rawEcc) key
      generalize wolfRawCompute c zero _ key = r at g
      obtain ⟨w', s⟩ := r
      cases s with
      | none => exact ⟨fun _ _ => ⟨rfl, nofun⟩, nofun⟩
      | some t =>
        obtain ⟨g1, rfl, g4⟩ := g.text t rfl
        refine ⟨?_, fun hok => ⟨hk'.1, hk'.2, ?_⟩⟩
        · intro hn hz
          refine absurd ⟨hk'.1, ?_, hk'.2⟩ hn
          rcases g1 with g1 | g1
          · omega
          · rw [hz] at g1; cases g1
        · obtain ⟨k, p1, _, p3⟩ := setKey_ok .wolfssl c e d _ (by unfold Raw; simp) hj (g4.holds ho)
            (fun _ => ⟨hlen, by
              rw [g4.ok, g4.asked]
              simpa [W.open, W.tick, Nat.add_assoc] using hsign⟩) (fun q => by cases q) hok
          rw [hc.reads] at p1
          cases p1
          exact p3
    · simp only [if_neg hi]
      exact ⟨fun _ _ => ⟨trivial, nofun⟩, nofun⟩

/-- With wolfSSL too the texts in use are those of the device and no context is left after a raw key was given, whatever fails,
if the certificate can be signed and written as text (after the five calls for the raw key and the copy of its text). -/
theorem C136_wolf_memory_partial (zero : Bool) (c : Crypto K) (e : Env) (w : W) (d : Dev K) (key : List UInt8)
    (h : Tidy w d []) (hlen : e.len ≤ 512) (hsign : w.ok (w.asked + 12) = true) (henc : w.ok (w.asked + 13) = true) :
    Tidy (wolfRaw c zero e w d key).1 (wolfRaw c zero e w d key).2.1 [] := by
  have h' : Holds w (texts d) [] := ⟨h.held, h.bad, h.over⟩
  unfold wolfRaw
  by_cases hk : compareOrder key = false
  · simp only [if_pos hk]; exact h
  · simp only [if_neg hk]
    unfold W.q
    by_cases hi : w.ok w.asked = true
    · simp only [if_pos hi]
      have ho := h'.tick.open (r := .rawEcc) (by decide) nofun
      have g := wolfRawCompute_eq c zero (w.tick.open .rawEcc) key
      generalize wolfRawCompute c zero _ key = r at g
      obtain ⟨w', s⟩ := r
      obtain ⟨i, hi⟩ := g.kept
      have hh : Holds w' (texts d) _ := hi.holds ho
      cases s with
      | none =>
        obtain ⟨a, b, f⟩ := hh.close (r := .rawEcc) (by decide) nofun
        exact ⟨a, b, f⟩
      | some t =>
        obtain ⟨_, _, g4⟩ := g.text t rfl
        have := setKey_holds .wolfssl c e d t (by unfold Raw; simp) hh
          (fun _ => ⟨hlen, by
            rw [g4.ok, g4.asked]
            simpa [W.open, W.tick, Nat.add_assoc] using hsign⟩)
          (fun _ => by
            rw [g4.ok, g4.asked]
            simpa [W.open, W.tick, Nat.add_assoc] using henc)
        obtain ⟨a, b, f⟩ := this.close (r := .rawEcc) (by decide) nofun
        exact ⟨a, b, f⟩
    · simp only [if_neg hi]
      exact ⟨h.held, h.bad, h.over⟩

example : (wolfRaw toy false env (world fun n => n != 3) Dev.init (List.replicate 31 0 ++ [5])).1.held = [] ∧
    (wolfRaw toy false env (world fun _ => true) Dev.init (List.replicate 31 0 ++ [5])).1.held ≠ [] := by decide +kernel

/-- A library which takes zero makes the wolfSSL build take it: 32 zero bytes are accepted as a key. -/
theorem C136_zero_violated (c : Crypto K) (hc : Works c) (e : Env) (d : Dev K) :
    (wolfRaw c true e (world fun _ => true) d (List.replicate 32 0)).2.2 = .ok ∧ ¬ Valid (List.replicate 32 0) := by
  refine ⟨?_, by unfold Valid; decide +kernel⟩
  have hk : compareOrder (List.replicate 32 0) = true := by decide +kernel
  have g := wolfRawCompute_eq c true ((world fun _ => true).tick.open .rawEcc) (List.replicate 32 0)
  have hz : ∃ t, (wolfRawCompute c true ((world fun _ => true).tick.open .rawEcc) (List.replicate 32 0)).2 = some t := by
    simp [wolfRawCompute, W.q, W.tick, W.open, world]
  unfold wolfRaw
  rw [if_neg (by rw [hk]; decide)]
  unfold W.q
  rw [if_pos (show (world fun _ => true).ok (world fun _ => true).asked = true from rfl)]
  simp only
  generalize wolfRawCompute c true _ (List.replicate 32 0) = r at g hz
  obtain ⟨w', s⟩ := r
  obtain ⟨t, ht⟩ := hz
  cases ht
  obtain ⟨_, rfl, g4⟩ := g.text t rfl
  refine setKey_well .wolfssl c e d _ ?_ hc (hc.reads _)
  intro m
  have : w'.ok = _ := g4.ok
  rw [this]
  rfl

end Verif.Device.Keys.Props
