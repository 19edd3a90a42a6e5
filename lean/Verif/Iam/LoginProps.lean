import Verif.Iam.LoginLemmas

/-!
# C147: only who proved the password of a user is taken for that user
-/

namespace Verif.Iam.Login

open Verif.Core.Spake2 (Conn isAuthenticated getUsername)
open Spec

/-- C147 does not hold, in any state of the device: a client who knows the password of some user `g` becomes any other
user `a`, also one who has no password. It proves the password of `g` and then merely asks to be authenticated as `a`. From
then on every access check answers for it what it answers for `a`. -/
theorem C147_takeover_violated (s : Sys) (c : Nat) (k : Conn) (ci : ConnInfo) (g a w : String) (u : User)
    (h : Idle s c k) (ho : OnlyPassword s c ci)
    (hg : Password s.iam.state g w) (ha : a ≠ "")
    (hu : s.iam.state.users.find? (fun x => x.username == a) = some u) :
    acting (run s (attack s c g w a)) c ci = .ok (some u) ∧
    ∀ E action attrs, checkAccess E (run s (attack s c g w a)).iam (info (run s (attack s c g w a)) c ci) c action attrs =
      checkAccess E s.iam { ci with pwAuth := true, pwUser := some a } c action attrs := by
  obtain ⟨s1, e1, i1, n1, h1⟩ := ask_reply h g
  rw [pakePassword_iff.2 hg] at h1
  obtain ⟨s2, e2, i2, n2, h2⟩ := prove (w := w) h1 rfl rfl
  obtain ⟨s3, e3, i3, n3, h3⟩ := ask_reply h2 a
  have er : run s (attack s c g w a) = s3 := by
    have hn : s2.core.nextId = s.core.nextId + 1 := by rw [n2, n1]
    show run (step (run s [_, _]) _).1 [_, _] = s3
    rw [← e3, hn, ← e2, ← e1]
  rw [er]
  have hiam : s3.iam = s.iam := by rw [i3, i2, i1]
  have hA : isAuthenticated s3.core c = true := by
    unfold isAuthenticated
    rw [h3.conn]
  have hN : getUsername s3.core c = .ok a := by
    unfold getUsername
    rw [h3.conn]
    exact if_neg ha
  have hi : info s3 c ci = { ci with pwAuth := true, pwUser := some a } := by
    unfold info
    rw [hA, hN]
  constructor
  · unfold acting
    rw [hN, if_neg (by simp), hi, hiam]
    unfold actingUser
    have hu' : findUser s.iam.state (some a) = some u := hu
    rw [ho.1]
    simp only [if_true, hu']
  · intro E action attrs
    rw [hi, hiam]

/-- C147, what does hold: if a connection asked for one name only, and memory never was short, then it is taken for a user
by password only if that is the user of this name, and it proved the password this name had in the IAM module when it
asked. -/
theorem C147_one_name_partial (i : Iam) (ops : List Op) (c : Nat) (ci : ConnInfo) (n : String) (u : User)
    (hm : MemoryOk ops) (hone : ∀ m, Asked ops c m → m = n) (ho : OnlyPassword (after i ops) c ci)
    (h : acting (after i ops) c ci = .ok (some u)) : u.username = n ∧ Proved i ops c n := by
  unfold acting at h
  split at h
  · cases h
  · have hauth : (after i ops).iam.authorized.find? (fun x => x.1 == c) = none := by
      rw [List.find?_eq_none]
      intro x hx
      simpa using ho.2 x hx
    unfold actingUser at h
    have hfp : findUserByFp (after i ops).iam.state (info (after i ops) c ci).fingerprint = none := ho.1
    rw [hfp, hauth] at h
    simp only at h
    split at h
    · rename_i u' hu
      cases h
      split at hu
      · rename_i hA
        have hA : isAuthenticated (after i ops).core c = true := hA
        rw [core_after] at hA
        obtain ⟨k, hk, hkn, hp⟩ := Verif.Core.Spake2.C09_one_username_partial _ (memory_trace hm) c n
          (fun m hm' => hone m (asked_trace hm')) hA
        have hN : (info (after i ops) c ci).pwUser = if n = "" then none else some n := by
          show (match getUsername (after i ops).core c with | .ok n => some n | _ => none) = _
          rw [core_after]
          unfold getUsername
          rw [hk]
          simp only [hkn]
          by_cases hn : n = ""
          · rw [if_pos hn, if_pos hn]
          · rw [if_neg hn, if_neg hn]
        rw [hN] at hu
        split at hu
        · cases hu
        · refine ⟨?_, proved_trace hp⟩
          simpa using List.find?_some hu
      · cases hu
    · cases h

/-- C147, what does hold of the proof itself: when the device accepts a password, whatever was asked before, then for the name
it holds at that moment the password was the one of the IAM module. -/
theorem C147_accepted_partial (i : Iam) (ops : List Op) (c : Nat) (l : Bool) (w : String) (f : Bool) (hm : MemoryOk ops)
    (h : (step (after i ops) (.net (.step2 c l w f))).2 = some 201) :
    ∃ n k, (after i (ops ++ [.net (.step2 c l w f)])).core.conns.lookup c = some k ∧ k.username = some n ∧
      Proved i (ops ++ [.net (.step2 c l w f)]) c n := by
  have h' : (Verif.Core.Spake2.step (Verif.Core.Spake2.Spec.after (trace { iam := i } ops)) (.step2 c l w f)).2 = some 201 := by
    rw [← core_after]
    exact h
  have ht : trace { iam := i } (ops ++ [.net (.step2 c l w f)]) = trace { iam := i } ops ++ [.step2 c l w f] := by
    generalize ({ iam := i } : Sys) = s
    clear h h' hm
    induction ops generalizing s with
    | nil => rfl
    | cons o ops ih =>
      show (event s o).toList ++ trace (step s o).1 (ops ++ _) = ((event s o).toList ++ trace (step s o).1 ops) ++ _
      rw [ih, List.append_assoc]
  obtain ⟨k, n, h1, h2, h3, _⟩ := Verif.Core.Spake2.C09_accepted_confirmation_partial _ (memory_trace hm) c l w f h'
  refine ⟨n, k, ?_, h2, ?_⟩
  · rw [core_after, ht]
    exact h1
  · refine proved_trace ?_
    rw [ht]
    exact h3

/-! The hypotheses are met. -/

/-- A guest with a password and an administrator without one, who paired with a key. -/
def demo : Iam :=
  { state := { users := [{ addr := 0, username := "admin", role := some "Administrator", fingerprints := [⟨"f", none⟩] },
                         { addr := 1, username := "guest", role := some "Guest", password := some "pw" }] } }

def demoOps : List Op :=
  [.net .setHandler, .net .open_, .net (.step1 0 true true true "guest"), .reply 0 true true, .net (.step2 0 true "pw" true)]

example : Idle (after demo [.net .setHandler, .net .open_]) 0 {} :=
  ⟨by decide +kernel, by decide +kernel, by decide +kernel, by decide +kernel⟩
example : acting (after demo demoOps) 0 { fingerprint := some "x" } = .ok (demo.state.users[1]?) := by decide +kernel
example : acting (run (after demo [.net .setHandler, .net .open_])
    (attack (after demo [.net .setHandler, .net .open_]) 0 "guest" "pw" "admin")) 0 { fingerprint := some "x" } =
    .ok (demo.state.users[0]?) := by decide +kernel

end Verif.Iam.Login
