/-!
# Private keys, certificates and fingerprints

Model of `src/modules/mbedtls/nm_mbedtls_util.c`, `src/modules/wolfssl/nm_wolfssl_util.c`,
`nabto_device_set_private_key` (`src/api/nabto_device.c`), `nabto_device_create_private_key`
(`src/api/nabto_device_util.c`) and `nabto_device_set_private_key_secp256r1` of both libraries
(`src/api/nabto_device_experimental_set_private_key_secp256r1_mbedtls.c` and `_wolfssl.c`).

The cryptographic libraries are parameters. What they compute is `Crypto`; whether a call of them, or a request for memory,
goes well is an oracle: `ok n` tells whether the `n`-th call does. The contexts they are used through are resources: a context
which is opened twice, or closed without being open, sets `bad`. Handing a library a length which is longer than the buffer
sets `over`.

Left out: the bytes of certificates (a certificate is the record of what it says) and of the DER form of a private key.
-/

namespace Verif.Device.Keys

abbrev Text := List UInt8

/-- What the cryptographic library computes. -/
structure Crypto (K : Type) where
  /-- the private key a text holds -/
  parse : Text → Option K
  /-- the text of a private key -/
  pem : K → Text
  /-- the subject public key info of the key, in DER -/
  spki : K → List UInt8
  sha256 : List UInt8 → List UInt8
  /-- the private key which is this number -/
  ofNat : Nat → K

/-- What a certificate says. -/
structure Cert (K : Type) where
  subject : K
  /-- the key which has signed it, if it is signed -/
  signer : Option K
  serial : Nat
  subjectName : String
  issuerName : String
  /-- first and last second of validity, as `YYYYMMDDhhmmss` -/
  notBefore : Nat
  notAfter : Nat
  deriving DecidableEq, Repr

/-- The contexts of the libraries, and the blocks of memory: the buffer a text is written to, and the texts which are handed
to the caller. The contexts of `nabto_device_set_private_key_secp256r1` are others than those of the functions it calls. -/
inductive Res
  | pk | drbg | entropy | crt | serial | ecc | rng | sha | buffer | text
  | rawPk | rawN | rawDrbg | rawEntropy | rawEcc
  deriving DecidableEq, Repr

structure W where
  ok : Nat → Bool
  /-- calls made -/
  asked : Nat
  held : List Res
  bad : Bool
  over : Bool

inductive Ec
  | ok | unknown | failed | outOfMemory | invalidArgument | invalidState
  deriving DecidableEq, Repr

def W.tick (w : W) : W := { w with asked := w.asked + 1 }

/-- A call which can fail. -/
def W.q {A : Type} (w : W) (no yes : W → A) : A :=
  if w.ok w.asked then yes w.tick else no w.tick

/-- A context is initialised. -/
def W.open (w : W) (r : Res) : W :=
  { w with held := r :: w.held, bad := w.bad || decide (r ∈ w.held) }

/-- A text is allocated for the caller. -/
def W.give (w : W) : W := { w with held := .text :: w.held }

/-- A context or a block is freed. -/
def W.close (w : W) (r : Res) : W :=
  { w with held := w.held.erase r, bad := w.bad || !decide (r ∈ w.held) }

/-- The library is handed `len` bytes of a buffer of `size`. -/
def W.read (w : W) (len size : Nat) : W := { w with over := w.over || decide (size < len) }

variable {K : Type}

def digits : List UInt8 → Nat := List.foldl (fun a b => a * 10 + (b.toNat - 48)) 0

/-! ## mbedtls -/

/-- The string which `mbedtls_x509write_crt_set_validity` is given. -/
def mbDate (s : String) : Nat := digits s.toUTF8.toList

/-- `nm_dtls_create_crt_from_private_key_inner`, nm_mbedtls_util.c:76-162. The serial number is set by
one call, as from mbedtls 3.4 on. -/
def mbCrtInner (c : Crypto K) (w : W) (key : Text) : W × Ec × Option (Cert K) :=
  w.q (fun w => (w, .unknown, none)) fun w =>
  w.q (fun w => (w, .unknown, none)) fun w =>
  match c.parse key with
  | none => (w, .unknown, none)
  | some k =>
    let crt : Cert K := ⟨k, some k, 1, "nabto", "nabto", mbDate "20010101000000", mbDate "20491231235959"⟩
    w.q (fun w => (w, .unknown, none)) fun w =>
    w.q (fun w => (w, .unknown, none)) fun w =>
    w.q (fun w => (w, .unknown, none)) fun w =>
    w.q (fun w => (w, .unknown, none)) fun w =>
    w.q (fun w => (w, .unknown, none)) fun w =>
    w.q (fun w => (w, .outOfMemory, none)) fun w =>
    let w := w.open .buffer
    w.q (fun w => (w.close .buffer, .unknown, none)) fun w =>
    w.q (fun w => (w.close .buffer, .unknown, none)) fun w =>
    (w.give.close .buffer, .ok, some crt)

/-- `nm_mbedtls_create_crt_from_private_key`, nm_mbedtls_util.c:50-74. -/
def mbCrt (c : Crypto K) (w : W) (key : Text) : W × Ec × Option (Cert K) :=
  let w := ((((w.open .pk).open .drbg).open .entropy).open .crt).open .serial
  let (w, ec, crt) := mbCrtInner c w key
  (((((w.close .crt).close .serial).close .drbg).close .entropy).close .pk, ec, crt)

/-- `mbedtls_pk_write_pubkey_der` into a buffer of 256 bytes which held `junk`: the key is written to the end. -/
def writeEnd (c : Crypto K) (junk : List UInt8) (k : K) : Option (List UInt8 × Nat) :=
  let d := c.spki k
  if 256 < d.length then none else some (junk.take (256 - d.length) ++ d, d.length)

/-- `len` bytes from offset `off`. -/
def slice (b : List UInt8) (off len : Nat) : List UInt8 := (b.drop off).take len

/-- `nm_mbedtls_sha256`, nm_mbedtls_util.c:290-298: the digest is at `fp` when it goes well. From version 3 on the code says
that it went well in any case. -/
def mbSha (c : Crypto K) (v3 : Bool) (w : W) (d : List UInt8) (fp : List UInt8) : W × Bool × List UInt8 :=
  w.q (fun w => (w, v3, fp)) fun w => (w, true, c.sha256 d)

/-- `nm_mbedtls_util_fp_from_crt`, nm_mbedtls_util.c:26-37. `junk`: what is on the stack. -/
def mbFpCrt (c : Crypto K) (v3 : Bool) (junk : List UInt8) (w : W) (crt : Cert K) (fp : List UInt8) :
    W × Ec × List UInt8 :=
  w.q (fun w => (w, .unknown, fp)) fun w =>
  match writeEnd c junk crt.subject with
  | none => (w, .unknown, fp)
  | some (b, len) =>
    if len = 0 then (w, .unknown, fp)
    else
      let r := mbSha c v3 w (slice b (256 - len) len) fp
      (r.1, .ok, r.2.2)

/-- The part of `nm_mbedtls_get_fingerprint_from_private_key`, nm_mbedtls_util.c:179-207, between the initialisation of the
contexts and their release. -/
def mbFpInner (c : Crypto K) (v3 : Bool) (junk : List UInt8) (w : W) (key : Text) (fp : List UInt8) :
    W × Ec × List UInt8 :=
  w.q (fun w => (w, .unknown, fp)) fun w =>
  w.q (fun w => (w, .unknown, fp)) fun w =>
  match c.parse key with
  | none => (w, .unknown, fp)
  | some k =>
    w.q (fun w => (w, .unknown, fp)) fun w =>
    match writeEnd c junk k with
    | none => (w, .unknown, fp)
    | some (b, len) =>
      if len = 0 then (w, .unknown, fp)
      else
        let r := mbSha c v3 w (slice b (256 - len) len) fp
        (r.1, if r.2.1 then .ok else .unknown, r.2.2)

/-- `nm_mbedtls_get_fingerprint_from_private_key`, nm_mbedtls_util.c:165-214. -/
def mbFp (c : Crypto K) (v3 : Bool) (junk : List UInt8) (w : W) (key : Text) (fp : List UInt8) : W × Ec × List UInt8 :=
  let w := ((w.open .drbg).open .entropy).open .pk
  let (w, ec, fp) := mbFpInner c v3 junk w key fp
  (((w.close .drbg).close .entropy).close .pk, ec, fp)

/-- `nm_mbedtls_util_create_private_key`, nm_mbedtls_util.c:216-255. `k`: the key which is drawn. -/
def mbCreate (c : Crypto K) (w : W) (k : K) : W × Ec × Option Text :=
  w.q (fun w => (w, .outOfMemory, none)) fun w =>
  let w := (((w.open .buffer).open .pk).open .drbg).open .entropy
  let fin := fun (w : W) => ((((w.close .buffer).close .pk).close .drbg).close .entropy)
  w.q (fun w => (fin w, .unknown, none)) fun w =>
  w.q (fun w => (fin w, .unknown, none)) fun w =>
  w.q (fun w => (fin w, .unknown, none)) fun w =>
  w.q (fun w => (fin w, .unknown, none)) fun w =>
  w.q (fun w => (fin w, .ok, none)) fun w =>
  (fin w.give, .ok, some (c.pem k))

/-! ## wolfSSL -/

/-- The bytes of a `UTCTime`: tag, length, `YYMMDDhhmmss` and `Z`. Years below 50 are in this century. -/
def utcTime (b : List UInt8) : Nat :=
  let y := digits ((b.drop 2).take 2)
  (if y < 50 then 2000 + y else 1900 + y) * 10000000000 + digits ((b.drop 4).take 10)

/-- `notBefore`, nm_wolfssl_util.c:104. -/
def wolfBefore : List UInt8 :=
  [0x17, 0x0d, 0x32, 0x30, 0x30, 0x31, 0x30, 0x31, 0x30, 0x30, 0x30, 0x30, 0x30, 0x30, 0x5a]

/-- `notAfter`, nm_wolfssl_util.c:105. -/
def wolfAfter : List UInt8 :=
  [0x17, 0x0d, 0x34, 0x39, 0x30, 0x31, 0x30, 0x31, 0x30, 0x30, 0x30, 0x30, 0x30, 0x30, 0x5a]

/-- `nm_wolfssl_create_crt_from_private_key`, nm_wolfssl_util.c:119-149: signing, writing and handing out. The length which
`wc_SignCert` returns is `len`, or a negative error code of which `err` is the absolute value; the check that follows looks at
another variable. A negative length becomes one modulo 2^32 as `wc_DerToPem` takes a `word32`. When `wc_DerToPem` fails the
function returns at once. -/
def wolfCrtEnd (w : W) (crt : Cert K) (len err : Nat) : W × Ec × Option (Cert K) :=
  let enc := fun (w : W) (crt : Cert K) (len : Nat) =>
    (w.read len 512).q (fun w => (w, Ec.failed, (none : Option (Cert K)))) fun w =>
    w.q (fun w => ((w.close .rng).close .ecc, Ec.outOfMemory, none)) fun w =>
    ((w.give.close .rng).close .ecc, Ec.ok, some crt)
  w.q (fun w => enc w { crt with signer := none } (2 ^ 32 - err)) fun w => enc w crt len

/-- `nm_wolfssl_create_crt_from_private_key`, nm_wolfssl_util.c:47-150. -/
def wolfCrt (c : Crypto K) (w : W) (key : Text) (len err : Nat) : W × Ec × Option (Cert K) :=
  w.q (fun w => (w, .failed, none)) fun w =>
  w.q (fun w => (w, .failed, none)) fun w =>
  let w := w.open .ecc
  w.q (fun w => (w.close .ecc, .failed, none)) fun w =>
  let w := w.open .rng
  w.q (fun w => ((w.close .rng).close .ecc, .failed, none)) fun w =>
  w.q (fun w => ((w.close .rng).close .ecc, .failed, none)) fun w =>
  match c.parse key with
  | none => ((w.close .rng).close .ecc, .failed, none)
  | some k =>
    let crt : Cert K := ⟨k, some k, 1, "nabto", "nabto", utcTime wolfBefore, utcTime wolfAfter⟩
    w.q (fun w => ((w.close .rng).close .ecc, .failed, none)) fun w =>
    wolfCrtEnd w crt len err

/-- A key written to the beginning of a buffer of 256 bytes which held `junk`. -/
def writeStart (c : Crypto K) (junk : List UInt8) (k : K) : Option (List UInt8 × Nat) :=
  let d := c.spki k
  if 256 < d.length then none else some (d ++ junk.drop d.length, d.length)

/-- `nm_wolfssl_util_fp_from_crt`, nm_wolfssl_util.c:20-45. `wc_Sha256Final` writes to `fp` when it goes well. The context is
initialised twice; the second initialisation is taken to overwrite the first, as it allocates nothing. -/
def wolfFpCrt (c : Crypto K) (junk : List UInt8) (w : W) (crt : Cert K) (fp : List UInt8) : W × Ec × List UInt8 :=
  w.q (fun w => (w, .failed, fp)) fun w =>
  match writeStart c junk crt.subject with
  | none => (w, .failed, fp)
  | some (b, len) =>
    w.q (fun w => (w, .failed, fp)) fun w =>
    let w := w.open .sha
    w.q (fun w => (w.close .sha, .failed, fp)) fun w =>
    w.q (fun w => (w.close .sha, .failed, fp)) fun w =>
    w.q (fun w => (w.close .sha, .failed, fp)) fun w =>
    (w.close .sha, .ok, c.sha256 (slice b 0 len))

/-- `nm_wolfssl_get_fingerprint_from_private_key`, nm_wolfssl_util.c:196-213: the digest of the key. What `wc_Sha256Final`
writes when `wc_Sha256Update` has failed is not known: `other`. -/
def wolfSha (c : Crypto K) (w : W) (d other fp : List UInt8) : W × Ec × List UInt8 :=
  w.q (fun w => (w, .failed, fp)) fun w =>
  let w := w.open .sha
  w.q (fun w => w.q (fun w => (w.close .sha, .failed, fp)) fun w => (w.close .sha, .failed, other)) fun w =>
  w.q (fun w => (w.close .sha, .failed, fp)) fun w =>
  (w.close .sha, .ok, c.sha256 d)

/-- `nm_wolfssl_get_fingerprint_from_private_key`, nm_wolfssl_util.c:152-214. -/
def wolfFp (c : Crypto K) (junk other : List UInt8) (w : W) (key : Text) (fp : List UInt8) : W × Ec × List UInt8 :=
  w.q (fun w => (w, .failed, fp)) fun w =>
  let w := w.open .ecc
  w.q (fun w => (w.close .ecc, .failed, fp)) fun w =>
  w.q (fun w => (w.close .ecc, .failed, fp)) fun w =>
  match c.parse key with
  | none => (w.close .ecc, .failed, fp)
  | some k =>
    w.q (fun w => (w.close .ecc, .failed, fp)) fun w =>
    match writeStart c junk k with
    | none => (w.close .ecc, .failed, fp)
    | some (b, len) => wolfSha c (w.close .ecc) (slice b 0 len) other fp

/-- `nm_wolfssl_util_create_private_key`, nm_wolfssl_util.c:218-272. The text must fit in 256 bytes. -/
def wolfCreate (c : Crypto K) (w : W) (k : K) : W × Ec × Option Text :=
  w.q (fun w => (w, .failed, none)) fun w =>
  let w := w.open .ecc
  w.q (fun w => (w.close .ecc, .failed, none)) fun w =>
  let w := w.open .rng
  let fin := fun (w : W) => (w.close .rng).close .ecc
  w.q (fun w => (fin w, .failed, none)) fun w =>
  w.q (fun w => (fin w, .failed, none)) fun w =>
  w.q (fun w => (fin w, .failed, none)) fun w =>
  if 256 < (c.pem k).length then (fin w, .failed, none)
  else
    w.q (fun w => (fin w, .outOfMemory, none)) fun w =>
    (fin w.give, .ok, some (c.pem k))

/-! ## The device -/

inductive Lib
  | mbedtls2 | mbedtls3 | wolfssl
  deriving DecidableEq, Repr

/-- What is not known about one call: the contents of the stack, the length of the certificate, the error of a failing
signature. -/
structure Env where
  junk : List UInt8
  other : List UInt8
  len : Nat
  err : Nat

def makeCrt (l : Lib) (c : Crypto K) (e : Env) (w : W) (key : Text) : W × Ec × Option (Cert K) :=
  match l with
  | .wolfssl => wolfCrt c w key e.len e.err
  | _ => mbCrt c w key

def makeFp (l : Lib) (c : Crypto K) (e : Env) (w : W) (key : Text) (fp : List UInt8) : W × Ec × List UInt8 :=
  match l with
  | .wolfssl => wolfFp c e.junk e.other w key fp
  | .mbedtls3 => mbFp c true e.junk w key fp
  | .mbedtls2 => mbFp c false e.junk w key fp

/-- What the device has of its key. -/
structure Dev (K : Type) where
  privateKey : Option Text
  certificate : Option (Cert K)
  fingerprint : List UInt8

/-- `nabto_device_new`: zero memory. -/
def Dev.init : Dev K := ⟨none, none, List.replicate 32 0⟩

/-- `np_free` of a text, or of nothing. -/
def W.freeText {A : Type} (w : W) : Option A → W
  | none => w
  | some _ => w.close .text

/-- `nabto_device_set_private_key`, nabto_device.c:325-364. -/
def Dev.setKey (l : Lib) (c : Crypto K) (e : Env) (w : W) (d : Dev K) (key : Text) : W × Dev K × Ec :=
  let w := w.freeText d.privateKey
  w.q (fun w => (w, { d with privateKey := none }, .outOfMemory)) fun w =>
  let w := w.give
  let r := makeCrt l c e w key
  let w := r.1.freeText d.certificate
  if r.2.1 = .ok then
    let f := makeFp l c e w key d.fingerprint
    (f.1, ⟨some key, r.2.2, f.2.2⟩, if f.2.1 = .ok then .ok else .unknown)
  else (w, ⟨some key, none, d.fingerprint⟩, .unknown)

/-! ## Raw keys -/

/-- `secp2566r1GroupOrder`, ..._mbedtls.c:11-13 and ..._wolfssl.c:13-15. -/
def groupOrder : List UInt8 :=
  [0xFF, 0xFF, 0xFF, 0xFF, 0x00, 0x00, 0x00, 0x00, 0xFF, 0xFF, 0xFF, 0xFF, 0xFF, 0xFF, 0xFF, 0xFF,
   0xBC, 0xE6, 0xFA, 0xAD, 0xA7, 0x17, 0x9E, 0x84, 0xF3, 0xB9, 0xCA, 0xC2, 0xFC, 0x63, 0x25, 0x51]

/-- `mbedtls_mpi_read_binary`: the number which the bytes are, the first byte being the most significant one. -/
def readBinary (b : List UInt8) : Nat := b.foldl (fun a x => a * 256 + x.toNat) 0

/-- The part of `nabto_device_set_private_key_secp256r1_compute`, ..._mbedtls.c:76-133, up to the text of the key. The results
of `mbedtls_mpi_read_binary` are not looked at: the number stays zero when it fails. -/
def mbRawCompute (c : Crypto K) (w : W) (key : List UInt8) : W × (Ec ⊕ Text) :=
  w.q (fun w => (w, .inl .invalidState)) fun w =>
  w.q (fun w => (w, .inl .invalidState)) fun w =>
  w.q (fun w => (w, .inl .invalidState)) fun w =>
  w.q (fun w => (w, .inl .invalidState)) fun w =>
  let d := if w.ok w.asked then readBinary key else 0
  let w := w.tick
  let n := if w.ok w.asked then readBinary groupOrder else 0
  let w := w.tick
  if d = 0 then (w, .inl .invalidArgument)
  else if n ≤ d then (w, .inl .invalidArgument)
  else
    w.q (fun w => (w, .inl .invalidState)) fun w =>
    w.q (fun w => (w, .inl .invalidState)) fun w =>
    (w, .inr (c.pem (c.ofNat d)))

/-- `nabto_device_set_private_key_secp256r1` with mbedtls, ..._mbedtls.c:37-138. -/
def mbRaw (l : Lib) (c : Crypto K) (e : Env) (w : W) (d : Dev K) (key : List UInt8) : W × Dev K × Ec :=
  let w := (((w.open .rawPk).open .rawN).open .rawDrbg).open .rawEntropy
  let r : W × Dev K × Ec :=
    if key.length ≠ 32 then (w, d, .invalidArgument)
    else
      match mbRawCompute c w key with
      | (w, .inl ec) => (w, d, ec)
      | (w, .inr t) => d.setKey l c e w t
  ((((r.1.close .rawDrbg).close .rawEntropy).close .rawPk).close .rawN, r.2.1, r.2.2)

/-- The loop of `compare_key_against_group_order`, ..._wolfssl.c:23-33. -/
def below : List UInt8 → List UInt8 → Bool
  | o :: os, k :: ks => if o < k then false else if k < o then true else below os ks
  | _, _ => false

/-- `compare_key_against_group_order`, ..._wolfssl.c:18-36. -/
def compareOrder (key : List UInt8) : Bool :=
  if key.length ≠ 32 then false else below groupOrder key

/-- `nabto_device_set_private_key_secp256r1_2`, ..._wolfssl.c:60-91, up to the text of the key. `zero`: the library takes the
number zero for a private key. -/
def wolfRawCompute (c : Crypto K) (zero : Bool) (w : W) (key : List UInt8) : W × Option Text :=
  w.q (fun w => (w, none)) fun w =>
  if readBinary key = 0 ∧ zero = false then (w, none)
  else
    w.q (fun w => (w, none)) fun w =>
    w.q (fun w => (w, none)) fun w =>
    w.q (fun w => (w, none)) fun w =>
    (w, some (c.pem (c.ofNat (readBinary key))))

/-- `nabto_device_set_private_key_secp256r1` with wolfSSL, ..._wolfssl.c:42-93. -/
def wolfRaw (c : Crypto K) (zero : Bool) (e : Env) (w : W) (d : Dev K) (key : List UInt8) : W × Dev K × Ec :=
  if compareOrder key = false then (w, d, .invalidArgument)
  else
    w.q (fun w => (w, d, .failed)) fun w =>
    let w := w.open .rawEcc
    let r : W × Dev K × Ec :=
      match wolfRawCompute c zero w key with
      | (w, none) => (w, d, .failed)
      | (w, some t) => d.setKey .wolfssl c e w t
    (r.1.close .rawEcc, r.2.1, r.2.2)

end Verif.Device.Keys
