import Verif.Api.Future

/-!
# Futures — specification

What an application may do with a future and what it is owed, in terms of the calls it makes and the results
of the operations.
-/

namespace Verif.Api.Future.Spec

/-- A call of a callback: callback, code, data. -/
abbrev Call := Nat × Err × Nat

/-- Where a future is in its use. -/
inductive Phase
  /-- never used in an operation -/
  | unused
  /-- the operation runs; the callback and data set so far -/
  | started (cb : Option (Nat × Nat))
  /-- the operation completed with this code -/
  | done (e : Err)
  deriving DecidableEq, Repr

/-- The use of one future: its phase and all callback calls the application is owed, oldest first. A call is
owed as soon as the operation has completed and a callback is set. -/
structure Use where
  phase : Phase := .unused
  owed : List Call := []
  deriving DecidableEq, Repr

/-- The effect of one step on the use of future `f`. -/
def Use.next (f : Nat) (u : Use) : Ev → Use
  | .reset g => if g = f then { u with phase := .started none } else u
  | .setCallback g cb d =>
    if g = f then
      match u.phase with
      | .unused => u
      | .started _ => { u with phase := .started (some (cb, d)) }
      | .done e => { u with owed := u.owed ++ [(cb, e, d)] }
    else u
  | .resolve g e _ =>
    if g = f then
      match u.phase with
      | .unused => u
      | .started none => { u with phase := .done e }
      | .started (some (cb, d)) => { phase := .done e, owed := u.owed ++ [(cb, e, d)] }
      | .done _ => u
    else u
  | _ => u

/-- The use of future `f` after a history. -/
def use (f : Nat) (evs : List Ev) : Use := evs.foldl (Use.next f) {}

/-- The callback calls of future `f` in a log. -/
def calls (f : Nat) : List Obs → List Call
  | [] => []
  | .called g cb ec d :: os => if g = f then (cb, ec, d) :: calls f os else calls f os
  | _ :: os => calls f os

/-- The rules for using a future. A future is used again only when the operation has completed and the
callback, if one was set, has been called. One callback is set per operation, after the operation was started.
An operation completes once. -/
def Allowed (past : List Ev) (log : List Obs) : Ev → Prop
  | .reset f => (∀ c, (use f past).phase ≠ .started c) ∧ calls f log = (use f past).owed
  | .setCallback f _ _ =>
    (use f past).phase = .started none ∨
      (∃ e, (use f past).phase = .done e) ∧ calls f log = (use f past).owed
  | .resolve f _ _ => ∃ c, (use f past).phase = .started c
  | _ => True

/-- Every step of the history keeps the rules. -/
def Legal (evs : List Ev) : Prop :=
  ∀ past e rest, evs = past ++ e :: rest → ∀ w, run init past = some w → Allowed past w.log e

/-- The rules as the header states them (`nabto_device.h:1833-1837`): a future may be used again as soon as it
is polled to be resolved. -/
def AllowedByHeader (past : List Ev) : Ev → Prop
  | .reset f => ∀ c, (use f past).phase ≠ .started c
  | .setCallback f _ _ => (use f past).phase = .started none
  | .resolve f _ _ => ∃ c, (use f past).phase = .started c
  | _ => True

end Verif.Api.Future.Spec
