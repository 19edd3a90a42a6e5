import Verif.Iam.PairingSpec
import Verif.Iam.LoginLemmas
import Verif.Iam.EffectProps

/-!
# Pairing with a password — lemmas
-/

namespace Verif.Iam.Pairing

open Verif.Core.Spake2 (Conn isAuthenticated getUsername)
open Verif.Iam.Login (Sys info)
open Spec

def ofRes (s : Sys) : HRes → Login.Op
  | .done i _ => .iam i
  | .ub => .iam s.iam

/-- What an operation is for the password authentication. -/
def image (E : Env) (s : Sys) : Op → Login.Op
  | .login o => o
  | .request c d r => ofRes s (request E s c d r)

def proj (E : Env) : Sys → List Op → List Login.Op
  | _, [] => []
  | s, o :: ops => image E s o :: proj E (Login.step s (image E s o)).1 ops

theorem step_image {E : Env} {s t : Sys} {o : Op} (h : step E s o = some t) : t = (Login.step s (image E s o)).1 := by
  cases o with
  | login o => cases h; rfl
  | request c d r =>
    change (match request E s c d r with | .ub => none | .done iam' _ => some { s with iam := iam' }) = some t at h
    show t = (Login.step s (ofRes s (request E s c d r))).1
    cases hr : request E s c d r with
    | ub => rw [hr] at h; cases h
    | done i k => rw [hr] at h; cases h; rfl

theorem run_proj {E : Env} (ops : List Op) : ∀ {s t : Sys}, run E s ops = some t → t = Login.run s (proj E s ops) := by
  induction ops with
  | nil => intro s t h; cases h; rfl
  | cons o ops ih =>
    intro s t h
    change (step E s o).bind (run E · ops) = some t at h
    cases ho : step E s o with
    | none => rw [ho] at h; cases h
    | some u =>
      rw [ho] at h
      have := step_image ho
      subst this
      exact ih h

theorem run_append {E : Env} (a : List Op) : ∀ {s : Sys} {b : List Op} {t : Sys}, run E s (a ++ b) = some t →
    ∃ u, run E s a = some u ∧ run E u b = some t := by
  induction a with
  | nil => intro s b t h; exact ⟨s, rfl, h⟩
  | cons o a ih =>
    intro s b t h
    change (step E s o).bind (run E · (a ++ b)) = some t at h
    cases ho : step E s o with
    | none => rw [ho] at h; cases h
    | some u =>
      rw [ho] at h
      obtain ⟨v, h1, h2⟩ := ih h
      refine ⟨v, ?_, h2⟩
      show (step E s o).bind (run E · a) = some v
      rw [ho]
      exact h1

/-- What is not a change of the IAM module was there before. -/
theorem proj_split {E : Env} (ops : List Op) : ∀ {s : Sys} {a : List Login.Op} {o : Login.Op} {b : List Login.Op},
    proj E s ops = a ++ o :: b → (∀ i, o ≠ .iam i) → ∃ pre post, ops = pre ++ .login o :: post ∧ proj E s pre = a := by
  induction ops with
  | nil => intro s a o b h; cases a <;> cases h
  | cons x ops ih =>
    intro s a o b h ho
    change image E s x :: proj E (Login.step s (image E s x)).1 ops = a ++ o :: b at h
    cases a with
    | nil =>
      injection h with h1 h2
      cases x with
      | login y => cases h1; exact ⟨[], ops, rfl, rfl⟩
      | request c d r =>
        exfalso
        change ofRes s (request E s c d r) = o at h1
        cases hr : request E s c d r with
        | ub => rw [hr] at h1; exact ho _ h1.symm
        | done i k => rw [hr] at h1; exact ho _ h1.symm
    | cons y a =>
      injection h with h1 h2
      obtain ⟨pre, post, g1, g2⟩ := ih h2 ho
      refine ⟨x :: pre, post, by rw [g1]; rfl, ?_⟩
      show image E s x :: proj E (Login.step s (image E s x)).1 pre = y :: a
      rw [g2, h1]

theorem mem_proj {E : Env} {ops : List Op} {s : Sys} {o : Login.Op} (h : o ∈ proj E s ops) (ho : ∀ i, o ≠ .iam i) :
    Op.login o ∈ ops := by
  obtain ⟨a, b, e⟩ := List.append_of_mem h
  obtain ⟨pre, post, h1, _⟩ := proj_split ops e ho
  rw [h1]
  exact List.mem_append_right _ List.mem_cons_self

theorem after_prefix {E : Env} {i : Iam} {pre post : List Op} {s : Sys} (h : after E i (pre ++ post) = some s) :
    ∃ u, after E i pre = some u ∧ u = Login.Spec.after i (proj E { iam := i } pre) := by
  obtain ⟨u, h1, _⟩ := run_append pre h
  exact ⟨u, h1, run_proj pre h1⟩

theorem told_of {E : Env} {i : Iam} {ops : List Op} {s : Sys} {c : Nat} {n w : String} (hs : after E i ops = some s)
    (h : Login.Spec.Told i (proj E { iam := i } ops) c n w) : Told E i ops c n w := by
  obtain ⟨a, id, b, e, hp, hw⟩ := h
  obtain ⟨pre, post, h1, h2⟩ := proj_split ops e (by intro i h; cases h)
  subst h1
  obtain ⟨u, h3, h4⟩ := after_prefix hs
  rw [h2] at h4
  subst h4
  exact ⟨pre, id, post, _, rfl, h3, hp, (Login.iam_after i a).symm ▸ hw⟩

theorem proved_of {E : Env} {i : Iam} {ops : List Op} {s : Sys} {c : Nat} {n : String} (hs : after E i ops = some s)
    (h : Login.Spec.Proved i (proj E { iam := i } ops) c n) : Proved E i ops c n := by
  obtain ⟨a, l, w, b, e, hr, ht⟩ := h
  obtain ⟨pre, post, h1, h2⟩ := proj_split ops e (by intro i h; cases h)
  subst h1
  obtain ⟨u, h3, h4⟩ := after_prefix hs
  rw [← h2] at ht
  have ht' := told_of h3 ht
  rw [h2] at h4
  subst h4
  exact ⟨pre, l, w, post, _, rfl, h3, hr, ht'⟩

/-- A connection which asked for one name only and counts as authenticated has proved the password of this name. -/
theorem auth_proved {E : Env} {i : Iam} {ops : List Op} {s : Sys} {c : Nat} {n : String} (hs : after E i ops = some s)
    (hm : MemoryOk ops) (hone : ∀ m, Asked ops c m → m = n) (ha : isAuthenticated s.core c = true) :
    (∃ k, s.core.conns.lookup c = some k ∧ k.username = some n) ∧ Proved E i ops c n := by
  have e := run_proj ops hs
  have e : s = Login.Spec.after i (proj E { iam := i } ops) := e
  have hm' : Login.Spec.MemoryOk (proj E { iam := i } ops) := by
    intro id k h
    exact hm id k (mem_proj h (by intro i h; cases h))
  rw [e, Login.core_after] at ha
  obtain ⟨k, hk, hkn, hp⟩ := Verif.Core.Spake2.C09_one_username_partial _ (Login.memory_trace hm') c n
    (fun m hm'' => by
      obtain ⟨f, p, w, h⟩ := Login.asked_trace hm''
      exact hone m ⟨f, p, w, mem_proj h (by intro i h; cases h)⟩) ha
  refine ⟨⟨k, ?_, hkn⟩, proved_of hs (Login.proved_trace hp)⟩
  rw [e, Login.core_after]
  exact hk

theorem request_handle {E : Env} {s : Sys} {c : Nat} {d : Dev} {r : Req} {iam' : Iam} {k : Nat}
    (h : request E s c d r = .done iam' k) : handle E s.iam (dev s c d) c r = .done iam' k := by
  unfold request at h
  split at h
  · cases h
  · exact h

/-- After the proof of a password. -/
theorem prove_run {s : Sys} {c : Nat} {k : Conn} {g w : String} (h : Login.Spec.Idle s c k)
    (hg : Login.Spec.Password s.iam.state g w) :
    ∃ s', Login.run s (prove s c g w) = s' ∧ s'.iam = s.iam ∧ s'.core.nextId = s.core.nextId + 1 ∧
      ∃ k', Login.Spec.Idle s' c k' ∧ k'.authenticated = true ∧ k'.username = some g := by
  obtain ⟨s1, e1, i1, n1, h1⟩ := Login.ask_reply h g
  rw [Login.pakePassword_iff.2 hg] at h1
  obtain ⟨s2, e2, i2, n2, h2⟩ := Login.prove (w := w) h1 rfl rfl
  refine ⟨s2, ?_, by rw [i2, i1], by rw [n2, n1], _, h2, rfl, rfl⟩
  show (Login.step (Login.run s [_, _]) _).1 = s2
  rw [← e2, ← e1]

theorem info_of {s : Sys} {c : Nat} {k : Conn} {g : String} (ci : ConnInfo) (h : s.core.conns.lookup c = some k)
    (ha : k.authenticated = true) (hn : k.username = some g) (hg : g ≠ "") :
    isAuthenticated s.core c = true ∧ getUsername s.core c = .ok g ∧
      info s c ci = { ci with pwAuth := true, pwUser := some g } := by
  have hA : isAuthenticated s.core c = true := by
    unfold isAuthenticated
    rw [h]
    exact ha
  have hN : getUsername s.core c = .ok g := by
    unfold getUsername
    rw [h]
    simp only [hn]
    exact if_neg hg
  refine ⟨hA, hN, ?_⟩
  unfold info
  rw [hA, hN]

end Verif.Iam.Pairing
