import Verif.Api.Authorization

/-!
# What the core and the application may do with authorization requests
-/

namespace Verif.Api.Auth.Spec

open Verif.Api Verif.Api.Auth

/-- The verdicts the core has been given for a request. -/
def given (i : Nat) : List Obs → List Bool
  | [] => []
  | .given j v :: os => if j = i then v :: given i os else given i os
  | _ :: os => given i os

/-- How often a request has been handed to the application. -/
def handed (i : Nat) : List Obs → Nat
  | [] => 0
  | .handed j _ :: os => (if j = i then 1 else 0) + handed i os
  | _ :: os => handed i os

/-- The application's first answer for a request: freeing it without a verdict is a denial. -/
def answer (i : Nat) : List Ev → Option Bool
  | [] => none
  | .verdict j v :: es => if j = i then some v else answer i es
  | .free j :: es => if j = i then some false else answer i es
  | _ :: es => answer i es

/-- What is allowed after a history with these events and observations, in which `n` requests have been created:
the core uses a request it has created once, the application a request it has been handed until it frees it, the
listener is initialised, stopped and freed in this order. -/
def Allowed (n : Nat) (evs : List Ev) (log : List Obs) : Ev → Prop
  | .create => True
  | .discard i => i < n ∧ .discard i ∉ evs ∧ .check i ∉ evs
  | .check i => i < n ∧ .discard i ∉ evs ∧ .check i ∉ evs
  | .run _ => True
  | .initListener => .freeListener ∉ evs ∧ .stopListener ∉ evs
  | .listen _ => .freeListener ∉ evs
  | .stopListener => .freeListener ∉ evs
  | .freeListener => .freeListener ∉ evs ∧ .stopListener ∈ evs
  | .verdict i _ => 0 < handed i log ∧ .free i ∉ evs
  | .free i => 0 < handed i log ∧ .free i ∉ evs

/-- A history in which every event was allowed when it happened. -/
def Legal (evs : List Ev) : Prop :=
  ∀ p e rest, evs = p ++ e :: rest → ∀ w, run init p = some w → Allowed w.next p w.log e

/-- The core does not ask for access once the listener has been freed. -/
def NoCheckAfterFree (evs : List Ev) : Prop :=
  ∀ p i rest, evs = p ++ .check i :: rest → .freeListener ∉ p

end Verif.Api.Auth.Spec
