import Verif.Core.PakeLemmas
import Mathlib.Data.ZMod.Basic

/-!
# The password authenticated key exchange — properties
-/

namespace Verif.Core.Pake

open Spec

variable {G : Type} [AddCommGroup G] {c : Crypto G}

/-- C120: a client which has the password of the user gets the key of the device, whichever of the two libraries the device was
built with; it is authenticated, and it gets the answer it expects. (A point can be written unless it is the neutral
element.) -/
theorem C120_agree (l : Lib) (h : Sound c) (p : Bytes) (x y : Nat) (rng : Rng) (hb : rng.block.length = 32)
    (req : Req) (hc : req.clientFp.length = 32) (hd : req.deviceFp.length = 32) (s k : Bytes)
    (ht : c.write (clientT c x (num (c.sha p))) = some req.T)
    (hs : c.write (y • c.base + num (c.sha p) • c.N) = some s) (hk : c.write ((x * y) • c.base) = some k) :
    ∃ key, calculateKey l c req (some p) y rng = some (s, key) ∧
      clientKey c req.clientFp req.deviceFp req.T s x (num (c.sha p)) = some key ∧
      keyConfirmation c (proof c key) key = .ok (answer c key) :=
  agree l h (some p) x y _ rng hb req hc hd s k (by cases l <;> rfl) ht hs hk

/-- C120: for a user with a password both libraries compute the same. -/
theorem C120_same (h : Sound c) (p : Bytes) (y : Nat) (r r' : Rng) (req : Req) :
    calculateKey .mbedtls c req (some p) y r = calculateKey .wolfssl c req (some p) y r' := by
  rw [calculate_eq _ h, calculate_eq _ h]; rfl

/-- C120: the client is authenticated exactly if it sends the proof of the key of the device, and only then it gets the
answer. -/
theorem C120_confirm (h : Sound c) (payload key a : Bytes) (hk : key.length = 32) :
    keyConfirmation c payload key = .ok a ↔ payload = proof c key ∧ a = answer c key :=
  confirm_iff h payload key a hk

/-- C120: the transcript determines its parts, however many there are and whatever is in them. -/
theorem C120_transcript (a b : List Bytes) (ha : ∀ p ∈ a, p.length < 2 ^ 32) (hb : ∀ p ∈ b, p.length < 2 ^ 32)
    (h : frame a = frame b) : a = b := frame_inj ha hb h

/-- C120: who is authenticated as a user with a password has used that password, the fingerprints and the messages of this very
connection and the secret point of the device, or found two byte strings (these two, or their hashes) with the same hash. -/
theorem C120_reject (l : Lib) (h : Sound c) (p : Bytes) (y : Nat) (rng : Rng) (hb : rng.block.length = 32)
    (req : Req) (hc : req.clientFp.length = 32) (hd : req.deviceFp.length = 32) (s key : Bytes)
    (hr : calculateKey l c req (some p) y rng = some (s, key))
    (cf df t s' k a : Bytes) (w' : Nat) (hl : ∀ b ∈ [cf, df, t, s', k, mpiBytes w'], b.length < 2 ^ 32)
    (hv : keyConfirmation c (proof c (c.sha (frame [cf, df, t, s', k, mpiBytes w']))) key = .ok a) :
    ∃ T kd, c.read req.T = some T ∧ c.write (y • (T - num (c.sha p) • c.M)) = some kd ∧
      ((cf = req.clientFp ∧ df = req.deviceFp ∧ c.write T = some t ∧ s' = s ∧ k = kd ∧ w' = num (c.sha p)) ∨
        ∃ td, c.write T = some td ∧ Broken c (frame [cf, df, t, s', k, mpiBytes w'])
          (frame [req.clientFp, req.deviceFp, td, s, kd, mpiBytes (num (c.sha p))])) := by
  obtain ⟨T, w, kd, h1, h2, h3, h4⟩ := reject l h (some p) y rng hb req hc hd s key hr cf df t s' k a w' hl hv
  have : w = num (c.sha p) := by
    cases l <;> (injection h2 with e; exact e.symm)
  subst this
  exact ⟨T, kd, h1, h3, h4⟩

/-- C120, with mbed TLS: who is authenticated as a user who does not exist or has no password has guessed the 32 random bytes
which the device used instead, or found two byte strings with the same hash. -/
theorem C120_unknown_partial (h : Sound c) (y : Nat) (rng : Rng) (hb : rng.block.length = 32)
    (req : Req) (hc : req.clientFp.length = 32) (hd : req.deviceFp.length = 32) (s key : Bytes)
    (hr : calculateKey .mbedtls c req none y rng = some (s, key))
    (cf df t s' k a : Bytes) (guess : Bytes) (hg : guess.length = 32)
    (hl : ∀ b ∈ [cf, df, t, s', k], b.length < 2 ^ 32)
    (hv : keyConfirmation c (proof c (c.sha (frame [cf, df, t, s', k, mpiBytes (num guess)]))) key = .ok a) :
    guess = rng.block ∨ ∃ T td kd, c.read req.T = some T ∧ c.write T = some td ∧
      c.write (y • (T - num rng.block • c.M)) = some kd ∧
      Broken c (frame [cf, df, t, s', k, mpiBytes (num guess)])
        (frame [req.clientFp, req.deviceFp, td, s, kd, mpiBytes (num rng.block)]) := by
  have hm := mpiBytes_length (num guess) 32 (hg ▸ num_lt guess)
  obtain ⟨T, w, kd, h1, h2, h3, h4⟩ := reject .mbedtls h none y rng hb req hc hd s key hr cf df t s' k a (num guess) (by
    intro b hb
    by_cases hx : b = mpiBytes (num guess)
    · rw [hx]; omega
    · refine hl b ?_
      simp only [List.mem_cons, List.not_mem_nil, or_false] at hb ⊢
      rcases hb with h | h | h | h | h | h
      · exact Or.inl h
      · exact Or.inr (Or.inl h)
      · exact Or.inr (Or.inr (Or.inl h))
      · exact Or.inr (Or.inr (Or.inr (Or.inl h)))
      · exact Or.inr (Or.inr (Or.inr (Or.inr h)))
      · exact absurd h hx) hv
  have : w = num rng.block := by
    unfold secret at h2
    dsimp only at h2
    split at h2
    · injection h2 with e; exact e.symm
    · cases h2
  subst this
  rcases h4 with ⟨-, -, -, -, -, h5⟩ | ⟨td, h5, h6⟩
  · exact Or.inl (num_inj (hg.trans hb.symm) h5)
  · exact Or.inr ⟨T, td, kd, h1, h5, h3, h6⟩

/-- C120 is violated with wolfSSL: the random bytes are never used, since the generator returns 0 when it worked. A client
which uses the number 0 is authenticated as any user who does not exist or has no password, whatever the random bytes are. -/
theorem C120_unknown_violated (h : Sound c) (x y : Nat) (rng : Rng) (hb : rng.block.length = 32) (hrc : rng.rc = rngOk)
    (req : Req) (hc : req.clientFp.length = 32) (hd : req.deviceFp.length = 32) (s k : Bytes)
    (ht : c.write (x • c.base) = some req.T) (hs : c.write (y • c.base) = some s) (hk : c.write ((x * y) • c.base) = some k) :
    ∃ key, calculateKey .wolfssl c req none y rng = some (s, key) ∧
      clientKey c req.clientFp req.deviceFp req.T s x 0 = some key ∧
      keyConfirmation c (proof c key) key = .ok (answer c key) := by
  refine agree .wolfssl h none x y 0 rng hb req hc hd s k ?_ ?_ ?_ hk
  · unfold secret
    dsimp only
    rw [hrc, if_neg (by decide), if_neg (by decide)]
  · unfold clientT; rw [zero_nsmul, add_zero]; exact ht
  · rw [zero_nsmul, add_zero]; exact hs

/-! ## A concrete case -/

/-- A toy library: the group of 11 elements, a hash which sums up, and points of one byte. -/
def toy : Crypto (ZMod 11) where
  base := 2
  M := 3
  N := 5
  order := 11
  sha b := List.replicate 31 0 ++ [b.foldl (fun a x => 3 * a + x) 7]
  read b := match b with
    | [x] => if x.toNat < 11 then some (x.toNat : ZMod 11) else none
    | _ => none
  write P := some [UInt8.ofNat P.val]

theorem toy_sound : Sound toy where
  pos := by decide
  order := by decide
  read := by
    intro P b h
    injection h with h
    subst h
    revert P
    decide
  size := by intro P b h; injection h with h; subst h; simp
  hash := by intro b; simp [toy]

def toyReq (t : Bytes) : Req := ⟨t, List.replicate 32 1, List.replicate 32 2⟩

def toyRng : Rng := ⟨List.replicate 31 0 ++ [9], 0⟩

set_option maxRecDepth 20000 in
/-- A client with the password, and the device built with either library. -/
example (l : Lib) : ∃ s key, calculateKey l toy (toyReq [2]) (some [1, 2, 3]) 6 toyRng = some (s, key) ∧
    clientKey toy (toyReq [2]).clientFp (toyReq [2]).deviceFp [2] s 4 (num (toy.sha [1, 2, 3])) = some key ∧
    keyConfirmation toy (proof toy key) key = .ok (answer toy key) :=
  ⟨_, C120_agree l toy_sound [1, 2, 3] 4 6 toyRng (by decide) (toyReq [2]) (by decide) (by decide) _ _ (by decide) rfl rfl⟩

set_option maxRecDepth 20000 in
/-- With another password number, and otherwise the same transcript, the client is refused. -/
example : keyConfirmation toy (proof toy (toy.sha (frame [[1], [2], [8], [9], [4], [34]])))
    (toy.sha (frame [[1], [2], [8], [9], [4], [35]])) = .accessDenied := by decide

set_option maxRecDepth 20000 in
/-- The hypotheses of `C120_unknown_partial` are met by the right guess. -/
example : ∃ s key, calculateKey .mbedtls toy (toyReq [1]) none 6 toyRng = some (s, key) ∧
    keyConfirmation toy (proof toy key) key = .ok (answer toy key) :=
  have ⟨key, h1, _, h2⟩ := agree .mbedtls toy_sound none 9 6 9 toyRng (by decide) (toyReq [1]) (by decide) (by decide) _ _ rfl
    (by decide) rfl rfl
  ⟨_, key, h1, h2⟩

set_option maxRecDepth 20000 in
/-- A client without any password is authenticated as a user without a password when the device uses wolfSSL. -/
example : ∃ s key, calculateKey .wolfssl toy (toyReq [8]) none 6 toyRng = some (s, key) ∧
    clientKey toy (toyReq [8]).clientFp (toyReq [8]).deviceFp [8] s 4 0 = some key ∧
    keyConfirmation toy (proof toy key) key = .ok (answer toy key) :=
  ⟨_, C120_unknown_violated toy_sound 4 6 toyRng (by decide) rfl (toyReq [8]) (by decide) (by decide) _ _ (by decide) rfl rfl⟩

/-- `M` and `N` are points of P-256, and they are those of RFC 9382: the second coordinate is even for `M` and odd for `N`. -/
def Mx : Nat := 0x886e2f97ace46e55ba9dd7242579f2993b64e16ef3dcab95afd497333d8fa12f
def My : Nat := 0x5ff355163e43ce224e0b0e65ff02ac8e5c7be09419c785e0ca547d55a12e2d20
def Nx : Nat := 0xd8bbd6c639c62937b04d997f38c3770719c629d7014d49a24b4f98baa1292b49
def Ny : Nat := 0x07d60aa6bfade45008a636337f5168c64d9bd36034808cd564490b1e656edbe7
def prime : Nat := 2 ^ 256 - 2 ^ 224 + 2 ^ 192 + 2 ^ 96 - 1
def coefB : Nat := 0x5ac635d8aa3a93e7b3ebbd55769886bc651d06b0cc53b0f63bce3c3e27d2604b

example : My ^ 2 % prime = (Mx ^ 3 + (prime - 3) * Mx + coefB) % prime ∧
    Ny ^ 2 % prime = (Nx ^ 3 + (prime - 3) * Nx + coefB) % prime ∧ My % 2 = 0 ∧ Ny % 2 = 1 := by decide

end Verif.Core.Pake
