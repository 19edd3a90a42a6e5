import Verif.Iam.Login

/-!
# Logging in with a password — specification
-/

namespace Verif.Iam.Login.Spec

open Verif.Core.Spake2 (Ev Conn)

/-- The device after a history. -/
def after (i : Iam) (ops : List Op) : Sys := run { iam := i } ops

/-- The IAM module after a history: as it was changed last. -/
def iamAt (i : Iam) : List Op → Iam
  | [] => i
  | .iam j :: ops => iamAt j ops
  | _ :: ops => iamAt i ops

/-- A peer asked on connection `c` to be authenticated as `n`. -/
def Asked (ops : List Op) (c : Nat) (n : String) : Prop := ∃ f p w, Op.net (.step1 c f p w n) ∈ ops

/-- `w` is what a client has to prove to be `n`: the password of that user, or for no name the password of open pairing
while that is enabled. -/
def Password (st : IamState) (n w : String) : Prop :=
  (n = "" ∧ st.passwordOpenPairing = true ∧ st.passwordOpenPassword = some w) ∨
  (n ≠ "" ∧ ∃ u, st.users.find? (fun u => u.username == n) = some u ∧ u.password = some w)

/-- A request of connection `c` to be authenticated as `n` was answered when `w` was the password of `n`. -/
def Told (i : Iam) (ops : List Op) (c : Nat) (n w : String) : Prop :=
  ∃ pre id post, ops = pre ++ .reply id true true :: post ∧ ⟨id, c, n⟩ ∈ (after i pre).core.pending ∧
    Password (iamAt i pre).state n w

/-- The peer on `c` proved the password `n` had when it asked. -/
def Proved (i : Iam) (ops : List Op) (c : Nat) (n : String) : Prop :=
  ∃ pre l w post, ops = pre ++ .net (.step2 c l w true) :: post ∧
    (step (after i pre) (.net (.step2 c l w true))).2 = some 201 ∧ Told i pre c n w

/-- No allocation of a username failed. -/
def MemoryOk (ops : List Op) : Prop := ∀ id k, Op.reply id k false ∉ ops

/-- Neither the key of the client nor an authorisation names a user. -/
def OnlyPassword (s : Sys) (c : Nat) (ci : ConnInfo) : Prop :=
  findUserByFp s.iam.state ci.fingerprint = none ∧ ∀ x ∈ s.iam.authorized, x.1 ≠ c

/-- A device which can take a password on connection `c`. -/
structure Idle (s : Sys) (c : Nat) (k : Conn) : Prop where
  handler : s.core.handler = true
  tokens : s.core.tokens ≠ 0
  pending : s.core.pending = []
  conn : s.core.conns.lookup c = some k

/-- What a client does who knows the password `w` of `g` and wants to be `a`; the requests are answered as always. -/
def attack (s : Sys) (c : Nat) (g w a : String) : List Op :=
  [.net (.step1 c true true true g), .reply s.core.nextId true true, .net (.step2 c true w true),
   .net (.step1 c true true true a), .reply (s.core.nextId + 1) true true]

end Verif.Iam.Login.Spec
