import Verif.Core.PakeSpec
import Mathlib.Algebra.Group.Basic
import Mathlib.Data.List.Induction

/-!
# The password authenticated key exchange — lemmas
-/

namespace Verif.Core.Pake

open Spec

theorem four_length (n : Nat) : (four n).length = 4 := rfl

theorem ofNat_eq {a b : Nat} (h : UInt8.ofNat a = UInt8.ofNat b) : a % 256 = b % 256 := by
  have := congrArg UInt8.toNat h
  simpa [UInt8.toNat_ofNat'] using this

theorem ofNat_mod {a b : Nat} (h : a % 256 = b % 256) : UInt8.ofNat a = UInt8.ofNat b := by
  apply UInt8.toNat_inj.1
  simpa [UInt8.toNat_ofNat'] using h

theorem four_inj {a b : Nat} (ha : a < 2 ^ 32) (hb : b < 2 ^ 32) (h : four a = four b) : a = b := by
  unfold four at h
  simp only [List.cons.injEq, and_true] at h
  obtain ⟨h3, h2, h1, h0⟩ := h
  have h3 := ofNat_eq h3
  have h2 := ofNat_eq h2
  have h1 := ofNat_eq h1
  have h0 := ofNat_eq h0
  omega

theorem frame_nil : frame [] = [] := rfl

theorem frame_cons (p : Bytes) (ps : List Bytes) : frame (p :: ps) = four p.length ++ (p ++ frame ps) := by
  simp [frame]

theorem frame_snoc (p : Bytes) (ps : List Bytes) : frame (ps ++ [p]) = frame ps ++ (four p.length ++ p) := by
  simp [frame]

theorem frame_inj {a b : List Bytes} (ha : ∀ p ∈ a, p.length < 2 ^ 32) (hb : ∀ p ∈ b, p.length < 2 ^ 32)
    (h : frame a = frame b) : a = b := by
  induction a generalizing b with
  | nil =>
    cases b with
    | nil => rfl
    | cons q qs => rw [frame_cons, frame_nil] at h; simp [four] at h
  | cons p ps ih =>
    cases b with
    | nil => rw [frame_cons, frame_nil] at h; simp [four] at h
    | cons q qs =>
      rw [frame_cons, frame_cons] at h
      obtain ⟨h1, h2⟩ := List.append_inj h rfl
      have hl := four_inj (ha p (by simp)) (hb q (by simp)) h1
      obtain ⟨h3, h4⟩ := List.append_inj h2 hl
      rw [h3, ih (fun x hx => ha x (by simp [hx])) (fun x hx => hb x (by simp [hx])) h4]

theorem hashData_eq (ctx d : Bytes) (h : d.length < 2 ^ 32) : hashData ctx d = ctx ++ (four d.length ++ d) := by
  unfold hashData hashLength four
  rw [List.append_assoc]
  congr 2
  rw [Nat.mod_eq_of_lt h, Nat.shiftRight_eq_div_pow, Nat.shiftRight_eq_div_pow, Nat.shiftRight_eq_div_pow]
  rfl

theorem mpiBytes_zero : mpiBytes 0 = [] := by unfold mpiBytes; simp

theorem mpiBytes_length (n k : Nat) (h : n < 256 ^ k) : (mpiBytes n).length ≤ k := by
  induction k generalizing n with
  | zero =>
    have : n = 0 := by simpa using h
    rw [this, mpiBytes_zero]; simp
  | succ k ih =>
    unfold mpiBytes
    split
    · simp
    · rw [List.length_append]
      have := ih (n / 256) (Nat.div_lt_of_lt_mul (by rw [Nat.mul_comm, ← Nat.pow_succ]; exact h))
      simp; exact this

theorem num_snoc (b : Bytes) (x : UInt8) : num (b ++ [x]) = num b * 256 + x.toNat := by
  unfold num; rw [List.foldl_append]; rfl

theorem num_mpiBytes (n : Nat) : num (mpiBytes n) = n := by
  induction n using Nat.strongRecOn with
  | _ n ih =>
    unfold mpiBytes
    split
    · next h => rw [h]; rfl
    · next h =>
      rw [num_snoc, ih (n / 256) (Nat.div_lt_self (Nat.pos_of_ne_zero h) (by decide))]
      have : (UInt8.ofNat (n % 256)).toNat = n % 256 := by
        rw [UInt8.toNat_ofNat']; omega
      rw [this]
      omega

theorem mpiBytes_inj {a b : Nat} (h : mpiBytes a = mpiBytes b) : a = b := by
  rw [← num_mpiBytes a, h, num_mpiBytes]

theorem num_lt (b : Bytes) : num b < 256 ^ b.length := by
  induction b using List.reverseRecOn with
  | nil => simp [num]
  | append_singleton b x ih =>
    rw [num_snoc, List.length_append]
    have := x.toNat_lt
    simp only [List.length_singleton, Nat.pow_succ]
    omega

theorem num_inj {a b : Bytes} (hl : a.length = b.length) (h : num a = num b) : a = b := by
  induction a using List.reverseRecOn generalizing b with
  | nil => simpa using hl.symm
  | append_singleton a x ih =>
    rcases List.eq_nil_or_concat b with rfl | ⟨b', y, rfl⟩
    · simp at hl
    · rw [List.concat_eq_append] at hl h ⊢
      rw [num_snoc, num_snoc] at h
      have hx := x.toNat_lt
      have hy := y.toNat_lt
      have h1 : num a = num b' := by omega
      have h2 : x.toNat = y.toNat := by omega
      rw [ih (by simpa using hl) h1, UInt8.toNat_inj.1 h2]

section

variable {G : Type} [AddCommGroup G] {c : Crypto G}

theorem zsmul_mod (h : Sound c) (k : Int) (P : G) : (k % (c.order : Int)) • P = k • P := by
  have e : k = k % (c.order : Int) + (c.order : Int) * (k / (c.order : Int)) := (Int.emod_add_mul_ediv k c.order).symm
  conv_rhs => rw [e]
  rw [add_zsmul, Int.mul_comm, mul_zsmul, natCast_zsmul, h.order, zsmul_zero, add_zero]

/-- The number which takes away the password from the message of the client. -/
theorem mbedK (h : Sound c) (y w : Nat) (T : G) :
    y • T + ((-1 * (y : Int) * (w : Int)) % (c.order : Int)) • c.M = y • (T - w • c.M) := by
  rw [zsmul_mod h, nsmul_sub, ← mul_nsmul', Int.neg_one_mul, Int.neg_mul, neg_zsmul, ← sub_eq_add_neg]
  congr 1
  rw [← natCast_zsmul]; congr 1

theorem wolfK_eq (h : Sound c) (y w : Nat) (T : G) : wolfK c y T w = y • (T - w • c.M) := by
  rw [← mbedK h]
  unfold wolfK
  dsimp only
  congr 2
  have e : ∀ a b d n : Int, a % n * b % n * d % n = a * d * b % n := by
    intro a b d n
    rw [Int.mul_right_comm a d b]
    simp only [Int.mul_emod, Int.emod_emod]
  exact e _ _ _ _

/-- What `finish` gives. -/
theorem finish_eq (h : Sound c) (req : Req) (T S K : G) (w : Nat) (hw : w < 256 ^ 32)
    (hc : req.clientFp.length = 32) (hd : req.deviceFp.length = 32) :
    finish c req T S K w = do
      let t ← c.write T
      let s ← c.write S
      let k ← c.write K
      return (s, c.sha (frame [req.clientFp, req.deviceFp, t, s, k, mpiBytes w])) := by
  have hm := mpiBytes_length w 32 hw
  unfold finish hashPoint hashMpi
  cases ht : c.write T with
  | none => rfl
  | some t =>
    cases hs : c.write S with
    | none => rfl
    | some s =>
      cases hk : c.write K with
      | none => rfl
      | some k =>
        have lt := h.size _ _ ht
        have ls := h.size _ _ hs
        have lk := h.size _ _ hk
        simp only [Option.map_some, Option.bind_eq_bind, Option.bind_some]
        rw [if_neg (by omega)]
        simp only [Option.bind_some]
        rw [hashData_eq _ _ (by omega), hashData_eq _ _ (by omega), hashData_eq _ _ (by omega), hashData_eq _ _ (by omega),
          hashData_eq _ _ (by omega), hashData_eq _ _ (by omega)]
        simp [frame]

end

variable {G : Type} [AddCommGroup G] {c : Crypto G}

/-- The number which the device uses for the password. -/
def secret (l : Lib) (c : Crypto G) (password : Option Bytes) (rng : Rng) : Option Nat :=
  match l, password with
  | _, some p => some (num (c.sha p))
  | .mbedtls, none => if rng.rc = 0 then some (num rng.block) else none
  | .wolfssl, none => if rng.rc = 32 then some (num rng.block) else if rng.rc < 0 then none else some 0

theorem calculate_eq (l : Lib) (h : Sound c) (req : Req) (password : Option Bytes) (y : Nat) (rng : Rng) :
    calculateKey l c req password y rng = (c.read req.T).bind fun T => (secret l c password rng).bind fun w =>
      finish c req T (y • c.base + w • c.N) (y • (T - w • c.M)) w := by
  cases l with
  | mbedtls =>
    unfold calculateKey calculateMbed secret
    cases c.read req.T with
    | none => rfl
    | some T =>
      cases password with
      | none =>
        dsimp only
        by_cases hr : rng.rc = 0
        · simp only [hr, if_true, Option.bind_eq_bind, Option.bind_some]
          rw [mbedK h, one_nsmul, add_comm]
        · simp only [hr, if_false]; rfl
      | some p =>
        simp only [Option.bind_eq_bind, Option.bind_some]
        rw [mbedK h, one_nsmul, add_comm]
  | wolfssl =>
    unfold calculateKey calculateWolf secret passwordToMpi
    cases c.read req.T with
    | none => rfl
    | some T =>
      cases password with
      | none =>
        dsimp only
        by_cases hr : rng.rc = 32
        · simp only [hr, if_true, Option.bind_eq_bind, Option.bind_some, ne_eq, not_true, if_false]
          rw [if_neg (by decide), wolfK_eq h, one_nsmul, add_comm]
        · by_cases hn : rng.rc < 0
          · simp only [hr, hn, ne_eq, not_false_eq_true, if_true, if_false]; rfl
          · simp only [hr, hn, ne_eq, not_false_eq_true, if_true, if_false, Option.bind_eq_bind, Option.bind_some]
            rw [wolfK_eq h, one_nsmul, add_comm]
      | some p =>
        simp only [Option.bind_eq_bind, Option.bind_some]
        rw [if_neg (by decide), wolfK_eq h, one_nsmul, add_comm]

theorem secret_lt (l : Lib) (h : Sound c) (password : Option Bytes) (rng : Rng) (hb : rng.block.length = 32) {w : Nat}
    (hw : secret l c password rng = some w) : w < 256 ^ 32 := by
  unfold secret at hw
  have h1 : ∀ b : Bytes, b.length = 32 → num b < 256 ^ 32 := fun b hb => hb ▸ num_lt b
  split at hw
  · injection hw with e; rw [← e]; exact h1 _ (h.hash _)
  · split at hw
    · injection hw with e; rw [← e]; exact h1 _ hb
    · cases hw
  · split at hw
    · injection hw with e; rw [← e]; exact h1 _ hb
    · split at hw
      · cases hw
      · injection hw with e; rw [← e]; decide

/-- A client with the number the device uses gets the key of the device. -/
theorem agree (l : Lib) (h : Sound c) (password : Option Bytes) (x y w : Nat) (rng : Rng) (hb : rng.block.length = 32)
    (req : Req) (hc : req.clientFp.length = 32) (hd : req.deviceFp.length = 32) (s k : Bytes)
    (hw : secret l c password rng = some w)
    (ht : c.write (clientT c x w) = some req.T) (hs : c.write (y • c.base + w • c.N) = some s)
    (hk : c.write ((x * y) • c.base) = some k) :
    ∃ key, calculateKey l c req password y rng = some (s, key) ∧
      clientKey c req.clientFp req.deviceFp req.T s x w = some key ∧
      keyConfirmation c (proof c key) key = .ok (answer c key) := by
  refine ⟨c.sha (frame [req.clientFp, req.deviceFp, req.T, s, k, mpiBytes w]), ?_, ?_, ?_⟩
  · rw [calculate_eq l h, h.read _ _ ht, hw]
    simp only [Option.bind_some]
    rw [finish_eq h _ _ _ _ _ (secret_lt l h password rng hb hw) hc hd]
    have e : y • (clientT c x w - w • c.M) = (x * y) • c.base := by
      unfold clientT
      rw [add_sub_cancel_right, mul_nsmul]
    rw [e, ht, hs, hk]; rfl
  · unfold clientKey clientK
    rw [h.read _ _ hs]
    have e : x • (y • c.base + w • c.N - w • c.N) = (x * y) • c.base := by
      rw [add_sub_cancel_right, Nat.mul_comm, mul_nsmul]
    simp only [Option.bind_eq_bind, Option.bind_some]
    rw [e, hk]; rfl
  · unfold keyConfirmation proof answer
    rw [if_neg (by simp [h.hash])]
    simp

/-- The client is authenticated exactly if it sends the proof of the key of the device, and only then it gets the
answer. -/
theorem confirm_iff (h : Sound c) (payload key a : Bytes) (hk : key.length = 32) :
    keyConfirmation c payload key = .ok a ↔ payload = proof c key ∧ a = answer c key := by
  unfold keyConfirmation proof answer
  constructor
  · intro e
    split at e
    · cases e
    · dsimp only at e
      split at e
      · cases e
      · next hp =>
        injection e with e
        exact ⟨by simpa using hp, e.symm⟩
  · rintro ⟨rfl, rfl⟩
    rw [if_neg (by simp [h.hash, hk])]
    simp

omit [AddCommGroup G] in
theorem broken_of_proof {a b : Bytes} (h : proof c (c.sha a) = proof c (c.sha b)) : a = b ∨ Broken c a b := by
  by_cases h1 : a = b
  · exact Or.inl h1
  · refine Or.inr ?_
    by_cases h2 : c.sha a = c.sha b
    · exact Or.inl ⟨h1, h2⟩
    · by_cases h3 : c.sha (c.sha a) = c.sha (c.sha b)
      · exact Or.inr (Or.inl ⟨h2, h3⟩)
      · exact Or.inr (Or.inr ⟨h3, h⟩)

/-- Who is authenticated has all parts of the transcript of the device, or has broken the hash. -/
theorem reject (l : Lib) (h : Sound c) (password : Option Bytes) (y : Nat) (rng : Rng) (hb : rng.block.length = 32)
    (req : Req) (hc : req.clientFp.length = 32) (hd : req.deviceFp.length = 32) (s key : Bytes)
    (hr : calculateKey l c req password y rng = some (s, key))
    (cf df t s' k a : Bytes) (w' : Nat) (hl : ∀ b ∈ [cf, df, t, s', k, mpiBytes w'], b.length < 2 ^ 32)
    (hv : keyConfirmation c (proof c (c.sha (frame [cf, df, t, s', k, mpiBytes w']))) key = .ok a) :
    ∃ T w kd, c.read req.T = some T ∧ secret l c password rng = some w ∧ c.write (y • (T - w • c.M)) = some kd ∧
      ((cf = req.clientFp ∧ df = req.deviceFp ∧ c.write T = some t ∧ s' = s ∧ k = kd ∧ w' = w) ∨
        ∃ td, c.write T = some td ∧ Broken c (frame [cf, df, t, s', k, mpiBytes w'])
          (frame [req.clientFp, req.deviceFp, td, s, kd, mpiBytes w])) := by
  rw [calculate_eq l h] at hr
  cases hT : c.read req.T with
  | none => rw [hT] at hr; cases hr
  | some T =>
    cases hw : secret l c password rng with
    | none => rw [hT, hw] at hr; cases hr
    | some w =>
      rw [hT, hw] at hr
      simp only [Option.bind_some] at hr
      have hwl := secret_lt l h password rng hb hw
      rw [finish_eq h _ _ _ _ _ hwl hc hd] at hr
      cases h1 : c.write T with
      | none => rw [h1] at hr; cases hr
      | some td =>
        cases h2 : c.write (y • c.base + w • c.N) with
        | none => rw [h1, h2] at hr; cases hr
        | some sd =>
          cases h3 : c.write (y • (T - w • c.M)) with
          | none => rw [h1, h2, h3] at hr; cases hr
          | some kd =>
            rw [h1, h2, h3] at hr
            obtain ⟨rfl, rfl⟩ : sd = s ∧ c.sha (frame [req.clientFp, req.deviceFp, td, sd, kd, mpiBytes w]) = key := by
              have e : some (sd, c.sha (frame [req.clientFp, req.deviceFp, td, sd, kd, mpiBytes w])) = some (s, key) := hr
              injection e with e
              injection e with e1 e2
              exact ⟨e1, e2⟩
            refine ⟨T, w, kd, rfl, rfl, h3, ?_⟩
            have hp := ((confirm_iff h _ _ _ (h.hash _)).1 hv).1
            rcases broken_of_proof hp with he | hbk
            · left
              have hm := mpiBytes_length w 32 hwl
              have lt := h.size _ _ h1
              have ls := h.size _ _ h2
              have lk := h.size _ _ h3
              have := frame_inj hl (by
                intro b hb
                simp only [List.mem_cons, List.not_mem_nil, or_false] at hb
                rcases hb with rfl | rfl | rfl | rfl | rfl | rfl <;> omega) he
              simp only [List.cons.injEq, and_true] at this
              obtain ⟨e1, e2, e3, e4, e5, e6⟩ := this
              exact ⟨e1, e2, by rw [e3]; exact h1, e4, e5, mpiBytes_inj e6⟩
            · exact Or.inr ⟨td, h1, hbk⟩

end Verif.Core.Pake
