import Verif.Core.Pake

/-!
# The password authenticated key exchange — specification

The client is not in the repository; it is specified as in SPAKE2 (RFC 9382), and as the tests of the device do it
(test_cpp/tests/spake2/spake2_util.hpp).
-/

namespace Verif.Core.Pake.Spec

/-- A number as four bytes, most significant byte first. -/
def four (n : Nat) : Bytes :=
  [UInt8.ofNat (n / 256 ^ 3), UInt8.ofNat (n / 256 ^ 2), UInt8.ofNat (n / 256), UInt8.ofNat n]

/-- The transcript: every part comes after its length. -/
def frame (parts : List Bytes) : Bytes := parts.flatMap fun p => four p.length ++ p

/-- What is assumed of the library: the order of every point divides the order of the group, a point which was written can be
read and takes at most 256 bytes, and a hash has 32 bytes. -/
structure Sound {G : Type} [AddCommGroup G] (c : Crypto G) : Prop where
  pos : 0 < c.order
  order : ∀ P : G, c.order • P = 0
  read : ∀ P b, c.write P = some b → c.read b = some P
  size : ∀ P b, c.write P = some b → b.length ≤ 256
  hash : ∀ b, (c.sha b).length = 32

/-- The first message of a client with the password number `w` and the secret `x`. -/
def clientT {G : Type} [AddCommGroup G] (c : Crypto G) (x w : Nat) : G := x • c.base + w • c.M

/-- What the client computes from the answer `S` of the device. -/
def clientK {G : Type} [AddCommGroup G] (c : Crypto G) (x w : Nat) (S : G) : G := x • (S - w • c.N)

/-- The key of the client, when it sent the bytes `t` and the device answered with the bytes `s`. -/
def clientKey {G : Type} [AddCommGroup G] (c : Crypto G) (clientFp deviceFp t s : Bytes) (x w : Nat) : Option Bytes := do
  let S ← c.read s
  let k ← c.write (clientK c x w S)
  return c.sha (frame [clientFp, deviceFp, t, s, k, mpiBytes w])

/-- What the client sends to show that it has the key, and what it expects as an answer. -/
def proof {G : Type} (c : Crypto G) (key : Bytes) : Bytes := c.sha (c.sha key)

def answer {G : Type} (c : Crypto G) (key : Bytes) : Bytes := c.sha key

/-- Two different byte strings with the same hash. -/
def Collision {G : Type} (c : Crypto G) (a b : Bytes) : Prop := a ≠ b ∧ c.sha a = c.sha b

/-- The hash of one of these two transcripts, or a hash of that, was met by the other. -/
def Broken {G : Type} (c : Crypto G) (a b : Bytes) : Prop :=
  Collision c a b ∨ Collision c (c.sha a) (c.sha b) ∨ Collision c (c.sha (c.sha a)) (c.sha (c.sha b))

end Verif.Core.Pake.Spec
