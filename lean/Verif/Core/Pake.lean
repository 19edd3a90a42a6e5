import Mathlib.Algebra.Group.Defs
import Mathlib.Algebra.Group.Basic

/-!
# The password authenticated key exchange

Model of `src/modules/mbedtls/nm_mbedtls_spake2.c` and `src/modules/wolfssl/nm_wolfssl_spake2.c`, the two implementations of
`np_spake2.h`. `Core/Spake2` has the messages around it and takes the exchange to be ideal; here is what it computes.

The group, the hash function and the encoding of points are those of the library and are parameters (`Crypto`). A read of a
point fails for bytes which are not a point of the curve: mbed TLS checks this when it multiplies the point
(`mbedtls_ecp_muladd`); for wolfSSL this is an assumption.

What is simplified: the allocation of numbers and points does not fail. On an error mbed TLS goes on and leaves some value in
the key (nm_mbedtls_spake2.c:175, see `Core/Spake2`); here no key comes out.
-/

namespace Verif.Core.Pake

abbrev Bytes := List UInt8

/-- The library: the group P-256 with its generator and order, `Mdata` and `Ndata` (nm_mbedtls_spake2.c:14-28,
nm_wolfssl_spake2.c:18-32), SHA-256, and how points are read and written. -/
structure Crypto (G : Type) where
  base : G
  M : G
  N : G
  order : Nat
  sha : Bytes → Bytes
  read : Bytes → Option G
  write : G → Option Bytes

/-- `mbedtls_mpi_read_binary`, `mp_read_unsigned_bin`: a big endian number. -/
def num (b : Bytes) : Nat := b.foldl (fun n x => n * 256 + x.toNat) 0

/-- `mbedtls_mpi_write_binary` with `mbedtls_mpi_size`, `mp_to_unsigned_bin`: big endian, without leading zeros. -/
def mpiBytes (n : Nat) : Bytes :=
  if h : n = 0 then [] else mpiBytes (n / 256) ++ [UInt8.ofNat (n % 256)]
  termination_by n
  decreasing_by exact Nat.div_lt_self (Nat.pos_of_ne_zero h) (by decide)

/-- `hashLength`, nm_mbedtls_spake2.c:235-244, nm_wolfssl_spake2.c:449-458. The context is what was hashed so far. -/
def hashLength (ctx : Bytes) (len : Nat) : Bytes :=
  let val := len % 2 ^ 32
  ctx ++ [UInt8.ofNat (val >>> 24), UInt8.ofNat (val >>> 16), UInt8.ofNat (val >>> 8), UInt8.ofNat val]

/-- `hashData`, nm_mbedtls_spake2.c:246-252, nm_wolfssl_spake2.c:460-469. -/
def hashData (ctx d : Bytes) : Bytes := hashLength ctx d.length ++ d

/-- `hashPoint`, nm_mbedtls_spake2.c:254-262, nm_wolfssl_spake2.c:471-482. -/
def hashPoint {G : Type} (c : Crypto G) (ctx : Bytes) (p : G) : Option Bytes :=
  (c.write p).map (hashData ctx)

/-- `hashMpi`, nm_mbedtls_spake2.c:264-275, nm_wolfssl_spake2.c:484-498. -/
def hashMpi (ctx : Bytes) (n : Nat) : Option Bytes :=
  if 256 < (mpiBytes n).length then none else some (hashData ctx (mpiBytes n))

/-- The parts of `struct nc_spake2_password_request` which are used, np_spake2.h. -/
structure Req where
  T : Bytes
  clientFp : Bytes
  deviceFp : Bytes

/-- A block of 32 random bytes and the value which the generator returned. -/
structure Rng where
  block : Bytes
  rc : Int

/-- The hash of the parts and the end of `calculate_key`, nm_mbedtls_spake2.c:156-187, nm_wolfssl_spake2.c:174-217. -/
def finish {G : Type} (c : Crypto G) (req : Req) (T S K : G) (w : Nat) : Option (Bytes × Bytes) := do
  let ctx := hashData [] req.clientFp
  let ctx := hashData ctx req.deviceFp
  let ctx ← hashPoint c ctx T
  let ctx ← hashPoint c ctx S
  let ctx ← hashPoint c ctx K
  let ctx ← hashMpi ctx w
  let resp ← c.write S
  return (resp, c.sha ctx)

/-- `nm_mbedtls_spake2_calculate_key`, nm_mbedtls_spake2.c:64-197. `y` is the private key which was made. Without a password
the hash is random. The results are the response `S` and the key. -/
def calculateMbed {G : Type} [AddCommGroup G] (c : Crypto G) (req : Req) (password : Option Bytes) (y : Nat) (rng : Rng) :
    Option (Bytes × Bytes) := do
  let T ← c.read req.T
  let Y := y • c.base
  let hash ←
    match password with
    | none => if rng.rc = 0 then some rng.block else none
    | some p => some (c.sha p)
  let w := num hash
  let S := w • c.N + 1 • Y
  let tmp2 : Int := -1 * (y : Int)
  let tmp : Int := tmp2 * (w : Int)
  let tmp2 : Int := tmp % (c.order : Int)
  let K := y • T + tmp2 • c.M
  finish c req T S K w

/-- `password_to_mpi`, nm_wolfssl_spake2.c:62-93: the value which is returned, and the number, which is 0 before. -/
def passwordToMpi {G : Type} (c : Crypto G) (password : Option Bytes) (rng : Rng) : Int × Nat :=
  match password with
  | none => if rng.rc ≠ 32 then (rng.rc, 0) else (0, num rng.block)
  | some p => (0, num (c.sha p))

/-- `calculate_K`, nm_wolfssl_spake2.c:329-393. -/
def wolfK {G : Type} [AddCommGroup G] (c : Crypto G) (y : Nat) (T : G) (w : Nat) : G :=
  let minusOne : Int := (0 - 1) % (c.order : Int)
  let tmp : Int := minusOne * (w : Int) % (c.order : Int)
  let tmp : Int := tmp * (y : Int) % (c.order : Int)
  y • T + tmp • c.M

/-- `wolfssl_spake2_calculate_key_ex`, nm_wolfssl_spake2.c:102-218, with `calculate_S`, nm_wolfssl_spake2.c:303-327. -/
def calculateWolf {G : Type} [AddCommGroup G] (c : Crypto G) (req : Req) (password : Option Bytes) (y : Nat) (rng : Rng) :
    Option (Bytes × Bytes) := do
  let Y := y • c.base
  let T ← c.read req.T
  let r := passwordToMpi c password rng
  if r.1 < 0 then none
  let w := r.2
  let S := w • c.N + 1 • Y
  let K := wolfK c y T w
  finish c req T S K w

inductive Lib
  | mbedtls | wolfssl
  deriving DecidableEq, Repr

/-- `calculate_key` of np_spake2.h. -/
def calculateKey {G : Type} [AddCommGroup G] (l : Lib) (c : Crypto G) (req : Req) (password : Option Bytes) (y : Nat)
    (rng : Rng) : Option (Bytes × Bytes) :=
  match l with
  | .mbedtls => calculateMbed c req password y rng
  | .wolfssl => calculateWolf c req password y rng

/-- What the random generator returns when it worked: `mbedtls_ctr_drbg_random` and `wc_RNG_GenerateBlock` both return 0. -/
def rngOk : Int := 0

inductive Verdict
  | invalidArgument
  | accessDenied
  /-- the client is authenticated and gets this answer -/
  | ok (answer : Bytes)
  deriving DecidableEq, Repr

/-- `mbedtls_spake2_key_confirmation`, nm_mbedtls_spake2.c:220-232, `wolfssl_spake2_key_confirmation`,
nm_wolfssl_spake2.c:424-447. -/
def keyConfirmation {G : Type} (c : Crypto G) (payload key : Bytes) : Verdict :=
  if payload.length ≠ 32 ∨ key.length ≠ 32 then .invalidArgument
  else
    let hash1 := c.sha key
    let hash2 := c.sha hash1
    if payload ≠ hash2 then .accessDenied else .ok hash1

end Verif.Core.Pake
