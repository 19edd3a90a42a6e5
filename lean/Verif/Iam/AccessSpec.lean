import Verif.Iam.State
import Verif.Iam.PolicySpec

/-!
# Access check — specification

Who a connection is and which attributes a policy sees, without reference to the functions of
`Verif.Iam.State` (only its data types are used).
-/

namespace Verif.Iam.Spec

open Verif.Iam

/-- `u` is the first element of `l` with property `P`. -/
def FirstWith {α : Type} (P : α → Prop) (l : List α) (u : α) : Prop :=
  ∃ pre post, l = pre ++ u :: post ∧ P u ∧ ∀ w ∈ pre, ¬ P w

/-- The user owns the client key. -/
def Owns (fp : String) (u : User) : Prop := ∃ f ∈ u.fingerprints, f.fingerprint = fp

/-- The connection presented a client key that some user owns. -/
def KnownKey (iam : Iam) (ci : ConnInfo) : Prop :=
  ∃ fp, ci.fingerprint = some fp ∧ ∃ u ∈ iam.state.users, Owns fp u

/-- The connection is password authenticated as an existing user. -/
def KnownPassword (iam : Iam) (ci : ConnInfo) : Prop :=
  ci.pwAuth = true ∧ ∃ n, ci.pwUser = some n ∧ ∃ u ∈ iam.state.users, u.username = n

/-- Which user, if any, a connection acts as. -/
inductive ActsAs (iam : Iam) (ci : ConnInfo) (ref : Nat) : Option User → Prop
  | key (fp u) : ci.fingerprint = some fp → FirstWith (Owns fp) iam.state.users u →
      ActsAs iam ci ref (some u)
  | password (n u) : ¬ KnownKey iam ci → ci.pwAuth = true → ci.pwUser = some n →
      FirstWith (fun u => u.username = n) iam.state.users u → ActsAs iam ci ref (some u)
  | authorized (c u) : ¬ KnownKey iam ci → ¬ KnownPassword iam ci →
      FirstWith (fun c => c.1 = ref) iam.authorized c →
      FirstWith (fun u => u.addr = c.2) iam.state.users u → ActsAs iam ci ref (some u)
  | unpaired : ¬ KnownKey iam ci → ¬ KnownPassword iam ci → (∀ c ∈ iam.authorized, c.1 ≠ ref) →
      ActsAs iam ci ref none

/-- The identity of the connection rests on an authorisation of a user object that no longer exists. -/
def Dangling (iam : Iam) (ci : ConnInfo) (ref : Nat) : Prop :=
  ¬ KnownKey iam ci ∧ ¬ KnownPassword iam ci ∧
  ∃ c, FirstWith (fun c => c.1 = ref) iam.authorized c ∧ ∀ u ∈ iam.state.users, u.addr ≠ c.2

/-- The attributes policies see: those derived from the connection before those supplied with the
request. -/
def requestAttrs (ci : ConnInfo) (user : Option User) (supplied : Attrs) : Attrs :=
  (match user with | some u => [("Connection:Username", u.username)] | none => []) ++
  [("Connection:IsLocal", if ci.isLocal then "true" else "false")] ++ supplied.reverse

/-- The role that applies: the user's, or the unpaired role. -/
def roleId (iam : Iam) : Option User → Option String
  | some u => u.role
  | none => iam.conf.unpairedRole

/-- Inserting in a map makes the new value the value of the key and changes nothing else. -/
def Overwrites (ins : Attrs → String → String → Attrs) : Prop :=
  ∀ m k v k', (ins m k v).lookup k' = if k' = k then some v else m.lookup k'

/-- Inserting in a map that already has the key does nothing. -/
def KeepsFirst (ins : Attrs → String → String → Attrs) : Prop :=
  ∀ m k v k', (ins m k v).lookup k' = if k' = k ∧ m.lookup k = none then some v else m.lookup k'

end Verif.Iam.Spec
