import Verif.Apps.PasswordLemmas
import Verif.Apps.Defaults

/-!
# Generated passwords — properties
-/

namespace Verif.Apps

open Spec

/-! ## C115: generated passwords -/

/-- A generated password has the length asked for and only readable characters, and its buffer ends with it. -/
theorem C115_shape (seeded allocated : Bool) (n : Nat) (draws : List Draw) (buffer : List Char)
    (h : randomPassword seeded allocated n draws = .done buffer) :
    buffer.length = n + 1 ∧ (bufferString buffer).length = n ∧ ∀ c ∈ bufferString buffer, Readable c := by
  have hs : seeded = true ∧ allocated = true := by
    unfold randomPassword at h
    cases seeded <;> cases allocated <;> simp at h ⊢
  obtain ⟨rfl, rfl⟩ := hs
  have key : ∀ bs : List (Fin 256), randomPassword true true n (bs.map .byte) = .done buffer →
      buffer.length = n + 1 ∧ (bufferString buffer).length = n ∧ ∀ c ∈ bufferString buffer, Readable c := by
    intro bs hb
    rw [random_bytes] at hb
    split at hb
    · rename_i hl
      cases hb
      have hchars : ∀ c ∈ ((accepted bs).take n).map charOf, c ∈ alphabet := by
        intro c hc
        obtain ⟨i, hi, rfl⟩ := List.mem_map.mp hc
        exact charOf_mem (accepted_lt (List.mem_of_mem_take hi))
      rw [buffer_string hchars]
      refine ⟨by simp; omega, by simp; omega, fun c hc => (readable_iff c).mp (hchars c hc)⟩
    · cases hb
  rcases random_draws n draws with ⟨bs, _, h2⟩ | ⟨bs, r, _, h2⟩
  · rw [h2] at h; exact key bs h
  · rw [h2] at h
    split at h
    · cases h
    · exact key bs h

/-- Nothing outside of an array is touched. -/
theorem C115_memory_safe (seeded allocated : Bool) (n : Nat) (draws : List Draw) :
    randomPassword seeded allocated n draws ≠ .ub := by
  intro h
  have hs : seeded = true ∧ allocated = true := by
    unfold randomPassword at h
    cases seeded <;> cases allocated <;> simp at h ⊢
  obtain ⟨rfl, rfl⟩ := hs
  have key : ∀ bs : List (Fin 256), randomPassword true true n (bs.map .byte) ≠ .ub := by
    intro bs
    rw [random_bytes]
    split <;> simp
  rcases random_draws n draws with ⟨bs, _, h2⟩ | ⟨bs, r, _, h2⟩
  · rw [h2] at h; exact key bs h
  · rw [h2] at h
    split at h
    · cases h
    · exact key bs h

/-- It ends as soon as the generator has given as many bytes below 47 as characters are needed. -/
theorem C115_ends (n : Nat) (bs : List (Fin 256)) :
    (∃ buffer, randomPassword true true n (bs.map .byte) = .done buffer) ↔ n ≤ (bs.filter (fun b => b.val < 47)).length := by
  rw [random_bytes]
  have : (accepted bs).length = (bs.filter (fun b => b.val < 47)).length := by
    simp only [accepted, alphabet_length]
    rw [List.filter_map, List.length_map]
    rfl
  rw [this]
  split
  · rename_i h; exact ⟨fun _ => h, fun _ => ⟨_, rfl⟩⟩
  · rename_i h
    constructor
    · rintro ⟨_, hb⟩; cases hb
    · intro hb; exact absurd hb h

/-- All passwords are equally likely: however many bytes were drawn, there are as many sequences of bytes which give one
password as give another one. -/
theorem C115_equally_likely (n k : Nat) (p q : List Char) (hp : ∀ c ∈ p, Readable c) (hq : ∀ c ∈ q, Readable c)
    (hpl : p.length = n) (hql : q.length = n) : ways n k p = ways n k q := by
  obtain ⟨is, h1, h2, rfl⟩ := indices p (fun c hc => (readable_iff c).mpr (hp c hc))
  obtain ⟨js, h3, h4, rfl⟩ := indices q (fun c hc => (readable_iff c).mpr (hq c hc))
  simp only [List.length_map] at hpl hql
  subst hpl
  rw [ways_hits is h2 k, ← hql, ways_hits js h4 k]
  exact hits_length k is js h2 h4 hql.symm

/-- Every password is possible: with as many bytes as characters there is exactly one sequence for it. -/
theorem C115_all_possible (n : Nat) (p : List Char) (hp : ∀ c ∈ p, Readable c) (hpl : p.length = n) : ways n n p = 1 := by
  obtain ⟨is, h1, h2, rfl⟩ := indices p (fun c hc => (readable_iff c).mpr (hp c hc))
  simp only [List.length_map] at hpl
  subst hpl
  rw [ways_hits is h2]
  exact (hits_self is h2).1

/-- The claim: a device which was set up has an administrator with a password. -/
def C115_admin_claim : Prop := ∀ seeded allocated draws,
  randomPassword seeded allocated 12 draws ≠ .asking →
  ∀ pw sct opw osct, (∀ b, randomPassword seeded allocated 12 draws = .done b → pw = some (String.ofList (bufferString b))) →
    (randomPassword seeded allocated 12 draws = .null → pw = none) →
    ∀ u ∈ (defaultState pw sct opw osct).users, u.password ≠ none

/-- Without entropy `random_password` returns `NULL`, nobody checks it, and the device is set up with an administrator who has
no password, no key and no way to pair (`tcp_tunnel_init.c:201`). -/
theorem C115_admin_without_password_violated : ¬ C115_admin_claim := by
  intro h
  exact h false true [] (by decide) none none none none (by intro b hb; cases hb) (fun _ => rfl) _
    (List.mem_singleton.mpr rfl) rfl

-- examples
example : randomPassword true true 2 [.byte 200, .byte 0, .byte 46] = .done ['a', '9', '\x00'] := by decide
example : randomPassword true true 2 [.byte 200, .byte 0, .fail] = .null := by decide
example : ∀ c ∈ "xK9".toList, Readable c := by decide

end Verif.Apps
