import Verif.Iam.Pairing
import Verif.Iam.LoginSpec
import Verif.Iam.CoapSpec

/-!
# Pairing with a password — specification
-/

namespace Verif.Iam.Pairing.Spec

open Verif.Iam.Login (Sys)
open Verif.Iam.Login.Spec (Password)

/-- The device after a history. -/
def after (E : Env) (i : Iam) (ops : List Op) : Option Sys := run E { iam := i } ops

/-- A peer asked on connection `c` to be authenticated as `n`. -/
def Asked (ops : List Op) (c : Nat) (n : String) : Prop := ∃ f p w, Op.login (.net (.step1 c f p w n)) ∈ ops

/-- A request of connection `c` to be authenticated as `n` was answered when `w` was the password of `n` in the IAM
module. -/
def Told (E : Env) (i : Iam) (ops : List Op) (c : Nat) (n w : String) : Prop :=
  ∃ pre id post s, ops = pre ++ .login (.reply id true true) :: post ∧ after E i pre = some s ∧
    ⟨id, c, n⟩ ∈ s.core.pending ∧ Password s.iam.state n w

/-- The peer on `c` proved the password `n` had when it asked. -/
def Proved (E : Env) (i : Iam) (ops : List Op) (c : Nat) (n : String) : Prop :=
  ∃ pre l w post s, ops = pre ++ .login (.net (.step2 c l w true)) :: post ∧ after E i pre = some s ∧
    (Login.step s (.net (.step2 c l w true))).2 = some 201 ∧ Told E i pre c n w

/-- No allocation of a username failed. -/
def MemoryOk (ops : List Op) : Prop := ∀ id k, Op.login (.reply id k false) ∉ ops

/-- The request was successful, or changed something. -/
def Paired (s : Sys) : HRes → Prop
  | .done iam' code => code < 400 ∨ iam'.state ≠ s.iam.state
  | .ub => False

/-- The key of the client is known, and no user has it. -/
structure Unknown (iam : Iam) (d : Dev) (f : String) : Prop where
  fpOk : d.ci2.fpOk = true
  key : d.ci2.fingerprint = some f
  none : findUserByFp iam.state (some f) = none

/-- A new user named `x` can be made. -/
structure Fresh (iam : Iam) (d : Dev) (x : String) : Prop where
  valid : validateUsername x = true
  short : strlen x ≤ iam.limits.usernameMax
  size : x.utf8ByteSize < 1024
  cstr : cstr x = x
  free : findUser iam.state (some x) = Option.none
  role : ∃ r, iam.state.openPairingRole = some r
  sct : ∃ t, d.newSct = some t ∧ strlen t ≤ iam.limits.sctMax
  add : d.addSctOk = true

/-- Someone who knows the password `w` of `g` proves it. -/
def prove (s : Sys) (c : Nat) (g w : String) : List Login.Op :=
  [.net (.step1 c true true true g), .reply s.core.nextId true true, .net (.step2 c true w true)]

end Verif.Iam.Pairing.Spec
