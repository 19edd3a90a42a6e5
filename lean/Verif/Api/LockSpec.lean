import Verif.Api.Lock

/-!
# What correct locking is

Stated on what threads do with locks, without the checker.
-/

namespace Verif.Api.Lock.Spec

/-- After `t` the thread holds `m`: it has taken it more often than it has released it. -/
def Holds (t : List Ev) (m : Mutex) : Prop := t.count (.unlock m) < t.count (.lock m)

instance (t m) : Decidable (Holds t m) := inferInstanceAs (Decidable (_ < _))

/-- The thread never takes a lock it holds (which would block for ever), and never releases one it does not hold. -/
def WellLocked (t : List Ev) : Prop :=
  (∀ p m, p ++ [.lock m] <+: t → ¬ Holds p m) ∧ (∀ p m, p ++ [.unlock m] <+: t → Holds p m)

/-- At the end all locks are released. -/
def Released (t : List Ev) : Prop := ∀ m, ¬ Holds t m

/-- State protected by the device's lock is only used by a thread that holds it. -/
def Guarded (t : List Ev) : Prop := ∀ p, p ++ [.touch] <+: t → Holds p .event

/-! ## Several threads -/

/-- A thread: what it has done with locks and what it has yet to do. -/
structure Thread where
  did : List Ev
  todo : List Ev

/-- Whether a thread can go on: the next thing it does is not taking a lock, or the lock is not held by any thread. -/
def Enabled (ths : List Thread) (th : Thread) : Prop :=
  match th.todo with
  | [] => False
  | .lock m :: _ => ∀ other ∈ ths, ¬ Holds other.did m
  | _ :: _ => True

/-- A thread does its next action. -/
inductive Step : List Thread → List Thread → Prop
  | mk {pre post did e todo} :
      Enabled (pre ++ ⟨did, e :: todo⟩ :: post) ⟨did, e :: todo⟩ →
      Step (pre ++ ⟨did, e :: todo⟩ :: post) (pre ++ ⟨did ++ [e], todo⟩ :: post)

/-- Any number of steps. -/
inductive Steps : List Thread → List Thread → Prop
  | refl {a} : Steps a a
  | tail {a b c} : Steps a b → Step b c → Steps a c

end Verif.Api.Lock.Spec
