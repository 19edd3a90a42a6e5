import Verif.Dtls.Attach

/-!
# What a user relies on when the device attaches (C141)
-/

namespace Verif.Dtls.Attach.Spec

/-- The host name the device was started with: the first `start`. -/
def hostOf : List Op → Option Nat
  | [] => none
  | .start h :: _ => some h
  | _ :: r => hostOf r

/-- The root certificates the user has ever given to the device before it was started. -/
def given : List Op → List Nat
  | [] => []
  | .start _ :: _ => []
  | .setRoots t _ _ :: r => t ++ given r
  | _ :: r => given r

/-- The root certificates given by calls which reported success before the device was started. -/
def givenOk : List Op → List Nat
  | [] => []
  | .start _ :: _ => []
  | .setRoots t _ ok :: r => (if ok then t else []) ++ givenOk r
  | _ :: r => givenOk r

/-- A server with certificate `x` completes the handshake when it answers after the history. -/
def accepts (l : Lib) (ops : List Op) (x : Cert) : Prop :=
  (run l (ops ++ [.answer x])).accepted = x :: (run l ops).accepted

/-- Connections which are allocated and which the device can still reach: at most the one in use. -/
def tidy (s : St) : Prop :=
  s.crash = false ∧ s.heap.length = (if s.up then 1 else 0) ∧ (s.up = true ↔ s.dtls.isSome = true)

/-- The event queue never fails to create an event. -/
def eventsWork (ops : List Op) : Prop :=
  ∀ w, .attempt w ∈ ops → w.timer = true ∧ w.start = true ∧ w.sender = true

/-- The TLS library never fails to take the host name. -/
def namesWork (ops : List Op) : Prop := ∀ w, .attempt w ∈ ops → w.sni = true ∧ w.domain = true

end Verif.Dtls.Attach.Spec
