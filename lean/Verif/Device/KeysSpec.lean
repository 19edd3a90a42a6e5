import Verif.Device.Keys

/-!
# Private keys, certificates and fingerprints: specification
-/

namespace Verif.Device.Keys.Spec

variable {K : Type}

/-- What is assumed of the library: a key which is written can be read, and a public key has a DER form of at most 256
bytes. -/
structure Works (c : Crypto K) : Prop where
  reads : ∀ k, c.parse (c.pem k) = some k
  some : ∀ k, 0 < (c.spki k).length
  fits : ∀ k, (c.spki k).length ≤ 256

/-- The fingerprint of a key: the SHA-256 of its public key. -/
def fingerprint (c : Crypto K) (k : K) : List UInt8 := c.sha256 (c.spki k)

/-- A certificate for `k` which `k` has signed, with the names the code gives, valid at every second from 2020 to 2048. -/
def SelfSigned (k : K) (crt : Cert K) : Prop :=
  crt.subject = k ∧ crt.signer = some k ∧ crt.serial = 1 ∧ crt.subjectName = "nabto" ∧ crt.issuerName = "nabto" ∧
    ∀ t, 20200101000000 ≤ t → t ≤ 20481231235959 → crt.notBefore ≤ t ∧ t ≤ crt.notAfter

/-- The function has given back what it took, but for `extra`, which is handed to the caller; it has not used a context
wrongly and not read beyond a buffer. -/
structure Clean (w w' : W) (extra : List Res) : Prop where
  held : w'.held = extra ++ w.held
  bad : w'.bad = w.bad
  over : w'.over = w.over
  ok : w'.ok = w.ok

/-- The caller owns texts, and contexts of its own, but none of those the functions use. -/
def Free (w : W) : Prop :=
  ∀ r ∈ w.held, r ∉ [Res.pk, .drbg, .entropy, .crt, .serial, .ecc, .rng, .sha, .buffer]

/-- The text handed out, if one is. -/
def given {A : Type} : Option A → List Res
  | none => []
  | some _ => [.text]

/-- The calls of the library in `nm_wolfssl_create_crt_from_private_key` are, in this order: `wc_InitCert`, `wc_ecc_init`,
`wc_InitRng`, `wc_KeyPemToDer`, `wc_EccPrivateKeyDecode`, `wc_MakeCert`, `wc_SignCert`, `wc_DerToPem`, `np_calloc`. -/
def Signs (w : W) : Prop := w.ok (w.asked + 6) = true

def Encodes (w : W) : Prop := w.ok (w.asked + 7) = true

/-- The calls in `nm_mbedtls_get_fingerprint_from_private_key`: seed, parse, write, digest. -/
def Hashes (w : W) : Prop := w.ok (w.asked + 3) = true

/-- The calls in `nm_mbedtls_util_create_private_key`: memory, seed, setup, generate, write, memory for the text. -/
def Copies (w : W) : Prop := w.ok (w.asked + 5) = true

/-- Every call of the library and every request for memory goes well. -/
def Well (w : W) : Prop := ∀ n, w.ok n = true

/-- The order of secp256r1, `nabto_device_experimental.h`. -/
def n : Nat := 0xFFFFFFFF00000000FFFFFFFFFFFFFFFFBCE6FAADA7179E84F3B9CAC2FC632551

/-- The number which a list of bytes is: byte `i` from the end counts 256 to the power of `i`. -/
def number : List UInt8 → Nat
  | [] => 0
  | b :: bs => b.toNat * 256 ^ bs.length + number bs

/-- What the functions which make a fingerprint promise: nothing is kept but `e`, and OK means `P`. -/
structure Prints (w0 : W) (e : List Res) (P : List UInt8 → Prop) (r : W × Ec × List UInt8) : Prop where
  clean : Clean w0 r.1 e
  yes : r.2.1 = .ok → P r.2.2

/-- The number of a raw key lies in the range which the documentation gives. -/
def Valid (key : List UInt8) : Prop := key.length = 32 ∧ 0 < number key ∧ number key < n

/-- The device has a key, its certificate and its fingerprint. -/
def Has (c : Crypto K) (d : Dev K) (k : K) : Prop :=
  (∃ t, d.privateKey = some t ∧ c.parse t = some k) ∧ (∃ x, d.certificate = some x ∧ SelfSigned k x) ∧
    d.fingerprint = fingerprint c k

/-- The texts the device holds. -/
def texts (d : Dev K) : Nat := (if d.privateKey.isSome then 1 else 0) + (if d.certificate.isSome then 1 else 0)

/-- Every context is closed but those in `x`, the texts in use are those of the device, nothing was freed twice and no library
was handed more than a buffer holds. -/
structure Tidy (w : W) (d : Dev K) (x : List Res) : Prop where
  held : w.held.Perm (List.replicate (texts d) .text ++ x)
  bad : w.bad = false
  over : w.over = false

/-- The contexts of `nabto_device_set_private_key_secp256r1`. -/
def Raw (x : List Res) : Prop := ∀ r ∈ x, r ∈ [Res.rawPk, .rawN, .rawDrbg, .rawEntropy, .rawEcc]

/-- In `nabto_device_set_private_key` the first call is the copy of the text; the calls for the certificate follow. With
wolfSSL the signature is made and fits in the buffer. -/
def SetSigns (l : Lib) (e : Env) (w : W) : Prop := l = .wolfssl → e.len ≤ 512 ∧ w.ok (w.asked + 7) = true

/-- With wolfSSL the certificate can be written as text. -/
def SetEncodes (l : Lib) (w : W) : Prop := l = .wolfssl → w.ok (w.asked + 8) = true

/-- With mbedtls 3 the digest goes well: after the copy, the ten calls for the certificate and the three before it. -/
def SetHashes (l : Lib) (w : W) : Prop := l = .mbedtls3 → w.ok (w.asked + 14) = true

/-- A call of the API: the environment and the text, or the bytes of a raw key. -/
inductive Op
  | set (e : Env) (key : Text)
  | raw (e : Env) (key : List UInt8)

/-- A device with mbedtls after a sequence of calls. -/
def run (l : Lib) (c : Crypto K) (w : W) (d : Dev K) : List Op → W × Dev K
  | [] => (w, d)
  | .set e key :: os => let r := d.setKey l c e w key; run l c r.1 r.2.1 os
  | .raw e key :: os => let r := mbRaw l c e w d key; run l c r.1 r.2.1 os

end Verif.Device.Keys.Spec
