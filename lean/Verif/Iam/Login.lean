import Verif.Core.Spake2
import Verif.Iam.State

/-!
# Logging in with a password, from the network to the access check — model

The password authentication of the core (`Core/Spake2`) with the IAM module as the one who answers its requests
(`nm_iam_pake_handler.c`) and who asks for its result (`nm_iam_internal.c:47-54`).

Simplifications: those of `Core/Spake2` and `Iam/State`. The IAM module may be changed in any way at any time (`Op.iam`),
which includes all its operations.
-/

namespace Verif.Iam.Login

open Verif.Core.Spake2 (St Ev Conn Pending isAuthenticated getUsername)

/-- A device with the IAM module. -/
structure Sys where
  core : St := Verif.Core.Spake2.init
  iam : Iam

inductive Op
  /-- what peers, the clock and the application do; answers are left to the IAM module -/
  | net (e : Ev)
  /-- the IAM module answers a request; with the results of `calculate_key` and `nn_strdup` -/
  | reply (id : Nat) (calcOk allocOk : Bool)
  /-- the IAM module is changed -/
  | iam (i : Iam)

/-- What an operation is for the core. `request_callback` and `handle_request`, `nm_iam_pake_handler.c:51-89`: a request
which is left unanswered is answered without a password when it is freed (C56). -/
def event (s : Sys) : Op → Option Ev
  | .net (.answer ..) => none
  | .net e => some e
  | .reply id k a =>
    match s.core.pending.find? (fun x => x.id == id) with
    | none => none
    | some p => some (.answer id (pakePassword s.iam.state p.username) k a)
  | .iam _ => none

/-- One step: new state and the CoAP response sent, if any. -/
def step (s : Sys) (op : Op) : Sys × Option Nat :=
  let r := match event s op with
    | none => (s.core, none)
    | some e => Verif.Core.Spake2.step s.core e
  ({ core := r.1, iam := match op with | .iam i => i | _ => s.iam }, r.2)

def run (s : Sys) (ops : List Op) : Sys := ops.foldl (fun s op => (step s op).1) s

/-- What the IAM module sees of a connection. -/
def info (s : Sys) (c : Nat) (ci : ConnInfo) : ConnInfo :=
  { ci with
    pwAuth := isAuthenticated s.core c
    pwUser := match getUsername s.core c with | .ok n => some n | _ => none }

/-- The user a connection acts as, `nm_iam_internal.c:38-65`. -/
def acting (s : Sys) (c : Nat) (ci : ConnInfo) : Res (Option User) :=
  if findUserByFp s.iam.state ci.fingerprint = none ∧ isAuthenticated s.core c = true ∧ getUsername s.core c = .ub then .ub
  else actingUser s.iam (info s c ci) c

end Verif.Iam.Login
