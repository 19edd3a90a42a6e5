import Verif.Dtls.IdentityLemmas

/-!
# C151: a started device has the key which was set last
-/

namespace Verif.Dtls.Identity

open Spec

/-- What a start which got through the keys says. -/
theorem keys_ok {l : Lib} {t : Tolerance} {s : St} {w : Works} (h : (s.start l t w).2 = .ok) :
    ∃ k, s.key = some k ∧ (s.setKeys l t k w).2 = true := by
  unfold St.start at h
  split at h
  · cases h
  · rename_i k hk
    dsimp only at h
    split at h
    · cases h
    · rename_i hb
      exact ⟨k, hk, by simpa using hb⟩

/-- C151 for wolfSSL: whatever was set and started before, after a start which worked client and server have the key which was
set last. No memory is lost. -/
theorem C151_wolf (t : Tolerance) (ops : List Op) (w : Works) (h : ((run .wolf t ops).start .wolf t w).2 = .ok) :
    ∃ k, LastKey ops k ∧ Is (run .wolf t (ops ++ [.start w])) k := by
  obtain ⟨k, hk, hs⟩ := keys_ok h
  refine ⟨k, (key_iff _ _ _ _).1 hk, ?_⟩
  rw [run_snoc]
  show Is ((run .wolf t ops).start .wolf t w).1 k
  rw [start_fst .wolf t hk w]
  generalize run .wolf t ops = s at hs
  obtain ⟨_, _, _, a4, a5⟩ := cliWolf_rest { s with fp := some k } k w
  obtain ⟨_, _, _, b4, b5, b6, b7⟩ := srvWolf_rest (St.cliWolf { s with fp := some k } k w).1 k w
  unfold St.setKeys at hs ⊢
  dsimp only at hs ⊢
  split at hs
  · rename_i hc
    simp [hs] at hc
  · rename_i hc
    rw [if_neg hc]
    obtain ⟨a6, a7⟩ := a5 (by simpa using hc)
    obtain ⟨b8, b9⟩ := b7 hs
    exact ⟨b5.trans a6, b6.trans a7, by rw [b8]; rfl, b9, b4.trans a4⟩

theorem C151_wolf_memory (t : Tolerance) (ops : List Op) : (run .wolf t ops).lost = [] ∧ (run .wolf t ops).misuse = false := by
  induction ops using snoc_ops with
  | h0 => exact ⟨rfl, rfl⟩
  | h1 ops o ih =>
    rw [run_snoc]
    cases o with
    | setKey k => exact ih
    | setIds => exact ih
    | start w =>
      show ((run .wolf t ops).start .wolf t w).1.lost = [] ∧ ((run .wolf t ops).start .wolf t w).1.misuse = false
      cases hk : (run .wolf t ops).key with
      | none =>
        unfold St.start
        rw [hk]
        exact ih
      | some k =>
        rw [start_fst .wolf t hk w]
        generalize run .wolf t ops = s at ih
        obtain ⟨_, a2, a3, _⟩ := cliWolf_rest { s with fp := some k } k w
        obtain ⟨_, b2, b3, _⟩ := srvWolf_rest (St.cliWolf { s with fp := some k } k w).1 k w
        unfold St.setKeys
        dsimp only
        split
        · exact ⟨a2.trans ih.1, a3.trans ih.2⟩
        · exact ⟨b2.trans (a2.trans ih.1), b3.trans (a3.trans ih.2)⟩

/-- C151 for MbedTLS, the first start: it leaves client and server with the key which was set last, nothing is lost, and the
library is used as its documentation says. -/
theorem C151_first_partial (t : Tolerance) (ops : List Op) (w : Works) (hu : Untried ops)
    (h : ((run .mbed t ops).start .mbed t w).2 = .ok) :
    (∃ k, LastKey ops k ∧ Is (run .mbed t (ops ++ [.start w])) k) ∧ (run .mbed t (ops ++ [.start w])).lost = [] ∧
    (run .mbed t (ops ++ [.start w])).misuse = false := by
  obtain ⟨k, hk, hs⟩ := keys_ok h
  have hf := untried_fresh .mbed t ops hu
  have hl := (key_iff _ _ _ _).1 hk
  rw [run_snoc]
  change (∃ k, LastKey ops k ∧ Is ((run .mbed t ops).start .mbed t w).1 k) ∧ ((run .mbed t ops).start .mbed t w).1.lost = [] ∧
    ((run .mbed t ops).start .mbed t w).1.misuse = false
  rw [start_fst .mbed t hk w]
  generalize run .mbed t ops = s at hs hf
  obtain ⟨f1, f2, f3, f4, f5, f6, f7⟩ := hf
  obtain ⟨_, _, a3, a4, a5, a6, a7, a8⟩ := cliMbed_rest { s with fp := some k } k w
  have a9 := cliMbed_ok { s with fp := some k } k w
  unfold St.setKeys at hs ⊢
  dsimp only at hs ⊢
  split at hs
  · rename_i hc
    simp [hs] at hc
  · rename_i hc
    rw [if_neg hc, srvMbed_fresh t _ k w (a3.trans f3) (a4.trans f4) (a5.trans f5) hs]
    obtain ⟨a10, a11⟩ := a9 (by simpa using hc)
    refine ⟨⟨k, hl, a10, a11, rfl, rfl, a7⟩, ?_, a6.trans f7⟩
    show (St.cliMbed { s with fp := some k } k w).1.lost = []
    rw [a8]
    simp [f1, f2, f6]

/-- C151 does not hold for a second start with MbedTLS. The server goes on showing the certificate it was given first, whatever
is set and started afterwards, even if the library puts up with being used in this way. -/
theorem C151_certificate_violated (t : Tolerance) (ops more : List Op) (k : Nat)
    (h : (run .mbed t ops).srvCrt.head? = some k) : (run .mbed t (ops ++ more)).srvCrt.head? = some k := by
  induction more using snoc_ops with
  | h0 => simpa using h
  | h1 more o ih =>
    rw [← List.append_assoc, run_snoc]
    cases o with
    | setKey j => exact ih
    | setIds => exact ih
    | start w =>
      show ((run .mbed t (ops ++ more)).start .mbed t w).1.srvCrt.head? = some k
      obtain ⟨_, ⟨m, hm⟩, _⟩ := start_mbed t (run .mbed t (ops ++ more)) w
      rw [hm]
      cases hc : (run .mbed t (ops ++ more)).srvCrt with
      | nil => rw [hc] at ih; cases ih
      | cons x xs => rw [hc] at ih; exact ih

/-- C151, the consequence: who sets another key after a start which was refused for the missing ids, as the header has it,
gets a device which says it was started, shows the certificate of the old key and has the private key and the fingerprint of
the new one. -/
theorem C151_mixed_violated (t : Tolerance) (ht : t.seed = true) (hp : ∀ j k, t.pk j k = (some k, true)) (k k' : Nat) :
    let ops : List Op := [.setKey k, .start {}, .setKey k', .setIds]
    let s := run .mbed t (ops ++ [.start {}])
    ((run .mbed t [.setKey k]).start .mbed t {}).2 = .invalidState ∧ ((run .mbed t ops).start .mbed t {}).2 = .ok ∧
    s.srvCrt.head? = some k ∧ s.srvPk = some k' ∧ s.fp = some k' ∧ s.cliCrt = [k'] := by
  refine ⟨rfl, ?_, ?_, ?_, ?_, ?_⟩ <;>
    simp [run, step, St.start, St.setKeys, St.cliMbed, St.srvMbed, St.seeds, ht, hp]

/-- C151: a start after a start uses MbedTLS against its documentation, whatever happens in between. -/
theorem C151_misuse_violated (t : Tolerance) (ops more : List Op) (k : Nat) (h : LastKey ops k) :
    (run .mbed t (ops ++ [.start {}] ++ more ++ [.start {}])).misuse = true := by
  have key : ∀ more, ∃ j, (run .mbed t (ops ++ [.start {}] ++ more)).key = some j ∧
      (run .mbed t (ops ++ [.start {}] ++ more)).seeded = true := by
    intro more
    induction more using snoc_ops with
    | h0 =>
      have hk := (key_iff .mbed t ops k).2 h
      rw [List.append_nil, run_snoc]
      exact ⟨k, (start_key .mbed t _ _).trans hk, (start_works t _ k hk).2.2.1⟩
    | h1 more o ih =>
      obtain ⟨j, h1, h2⟩ := ih
      rw [← List.append_assoc, run_snoc]
      cases o with
      | setKey i => exact ⟨i, rfl, h2⟩
      | setIds => exact ⟨j, h1, h2⟩
      | start w => exact ⟨j, (start_key .mbed t _ _).trans h1, (start_mbed t _ w).2.2.1 h2⟩
  obtain ⟨j, h1, h2⟩ := key more
  rw [run_snoc]
  exact (start_works t _ j h1).2.2.2 h2

/-- C151: and the certificate and the key which the client was given before are lost. -/
theorem C151_lost_violated (t : Tolerance) (ops more : List Op) (k : Nat) (h : LastKey ops k) :
    Obj.cert k ∈ (run .mbed t (ops ++ [.start {}] ++ more ++ [.start {}])).lost ∧
    Obj.key k ∈ (run .mbed t (ops ++ [.start {}] ++ more ++ [.start {}])).lost := by
  have key : ∀ more, (run .mbed t (ops ++ [.start {}] ++ more)).key ≠ none ∧
      (((run .mbed t (ops ++ [.start {}] ++ more)).cliCrt = [k] ∧ (run .mbed t (ops ++ [.start {}] ++ more)).cliPk = some k) ∨
        (Obj.cert k ∈ (run .mbed t (ops ++ [.start {}] ++ more)).lost ∧
          Obj.key k ∈ (run .mbed t (ops ++ [.start {}] ++ more)).lost)) := by
    intro more
    induction more using snoc_ops with
    | h0 =>
      have hk := (key_iff .mbed t ops k).2 h
      rw [List.append_nil, run_snoc]
      refine ⟨?_, Or.inl ⟨(start_works t _ k hk).1, (start_works t _ k hk).2.1⟩⟩
      show ((run .mbed t ops).start .mbed t {}).1.key ≠ none
      rw [start_key, hk]
      simp
    | h1 more o ih =>
      obtain ⟨h1, h2⟩ := ih
      rw [← List.append_assoc, run_snoc]
      cases o with
      | setKey i => exact ⟨by simp [step], h2⟩
      | setIds => exact ⟨h1, h2⟩
      | start w =>
        generalize run .mbed t (ops ++ [.start {}] ++ more) = s at h1 h2
        show (s.start .mbed t w).1.key ≠ none ∧ _
        refine ⟨by rw [start_key]; exact h1, Or.inr ?_⟩
        show Obj.cert k ∈ (s.start .mbed t w).1.lost ∧ Obj.key k ∈ (s.start .mbed t w).1.lost
        rcases (start_mbed t s w).2.2.2.2 with ⟨h3, _⟩ | h3
        · exact absurd h3 h1
        · rw [h3]
          rcases h2 with ⟨a, b⟩ | ⟨a, b⟩
          · simp [a, b]
          · simp [a, b]
  obtain ⟨h1, h2⟩ := key more
  rw [run_snoc]
  generalize run .mbed t (ops ++ [.start {}] ++ more) = s at h1 h2
  show Obj.cert k ∈ (s.start .mbed t {}).1.lost ∧ Obj.key k ∈ (s.start .mbed t {}).1.lost
  rcases (start_mbed t s {}).2.2.2.2 with ⟨h3, _⟩ | h3
  · exact absurd h3 h1
  · rw [h3]
    rcases h2 with ⟨a, b⟩ | ⟨a, b⟩
    · simp [a, b]
    · simp [a, b]

/-! The hypotheses are met. -/

/-- A library which refuses to be used against its documentation. -/
def strict : Tolerance := ⟨false, fun j _ => (some j, false)⟩

example : ((run .mbed strict [.setIds, .setKey 7]).start .mbed strict {}).2 = .ok ∧
    Is (run .mbed strict [.setIds, .setKey 7, .start {}]) 7 := ⟨by decide, ⟨rfl, rfl, rfl, rfl, rfl⟩⟩

example : Untried [.setIds, .start {}, .setKey 7, .setKey 8] := by
  intro pre k post w h hw
  match pre with
  | [] => simp at h
  | [a] => simp at h
  | [a, b] => simp at h; obtain ⟨_, _, _, rfl⟩ := h; simp at hw
  | [a, b, c] => simp at h; obtain ⟨_, _, _, _, rfl⟩ := h; simp at hw
  | a :: b :: c :: d :: l => simp at h

/-- Refused for the missing ids, the device is not started with MbedTLS afterwards, with wolfSSL it is. -/
example : ((run .mbed strict [.setKey 7, .start {}, .setIds]).start .mbed strict {}).2 = .unknown ∧
    ((run .wolf strict [.setKey 7, .start {}, .setIds]).start .wolf strict {}).2 = .ok := by decide

example : (run .mbed strict [.setKey 7, .start {}]).srvCrt.head? = some 7 := by decide

example : LastKey [.setKey 7, .setIds] 7 := ⟨[], [.setIds], rfl, by simp⟩

end Verif.Dtls.Identity
