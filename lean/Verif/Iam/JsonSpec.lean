import Verif.Iam.Json

/-!
# IAM serializer — specification
-/

namespace Verif.Iam

open Verif.Json (Json Strtod enc lower)

namespace Spec

/-- A C string has no zero byte inside. -/
def CString (s : String) : Prop := Char.ofNat 0 ∉ s.toList

instance (s : String) : Decidable (CString s) := inferInstanceAs (Decidable (Char.ofNat 0 ∉ s.toList))

/-- The strings of a user. -/
def userStrings (u : User) : List String :=
  u.username :: u.displayName.toList ++ u.role.toList ++ u.password.toList ++ u.sct.toList ++ u.fcmToken.toList ++
    u.fcmProjectId.toList ++ u.notificationCategories ++ u.oauthSubject.toList ++
    u.fingerprints.flatMap (fun f => f.fingerprint :: f.name.toList)

/-- The strings of a state. -/
def stateStrings (st : IamState) : List String :=
  st.passwordOpenPassword.toList ++ st.passwordOpenSct.toList ++ st.openPairingRole.toList ++
    st.initialPairingUsername.toList ++ st.friendlyName.toList ++ st.users.flatMap userStrings

/-- The strings of a configuration. -/
def configStrings (c : Config) : List String :=
  c.unpairedRole.toList ++ c.roles.flatMap (fun r => r.id :: r.policies) ++
    c.policies.flatMap (fun p => p.id :: p.statements.flatMap (fun s =>
      s.actions ++ s.conditions.flatMap (fun c => c.key :: c.values)))

/-- Loading a text into a new state (`nm_iam_state_new`) succeeds with a state. -/
def StateLoads (S : Strtod) (text : Json.Bytes) (st : IamState) : Prop :=
  ∃ doc : Doc, Json.parse S text = .ok (doc.map enc) ∧ stateFromJson {} doc = some st

/-- Loading a text into a new configuration (`nm_iam_configuration_new`) succeeds with a configuration. -/
def ConfigLoads (S : Strtod) (text : Json.Bytes) (c : Config) : Prop :=
  ∃ doc : Doc, Json.parse S text = .ok (doc.map enc) ∧ configFromJson ⟨[], [], none⟩ doc = some c

/-- The same state up to the identities of the user objects. -/
def SameState (a b : IamState) : Prop :=
  { a with users := a.users.map (fun u : User => { u with addr := 0 }) } =
    { b with users := b.users.map (fun u : User => { u with addr := 0 }) }

/-- A restriction as written in a document: operator, attribute and values. -/
abbrev Restriction := String × String × Doc

/-- The restrictions in one condition, `{"Operator": {"attribute": [...], ...}, ...}`. -/
def inCondition : Doc → List Restriction
  | .obj ops => ops.flatMap (fun o =>
      match o.2 with
      | .obj kv => kv.map (fun m => (o.1, m.1, m.2))
      | _ => [])
  | _ => []

/-- The restrictions in the value of a member `Conditions`: a list of conditions or one condition. -/
def inConditions : Doc → List Restriction
  | .arr l => l.flatMap inCondition
  | j => inCondition j

/-- The restrictions in the document of a statement. -/
def written : Doc → List Restriction
  | .obj ms => (ms.filter (fun m => lower m.1 = lower "Conditions")).flatMap (fun m => inConditions m.2)
  | _ => []

/-- The names of the operators. -/
def opNames : List (String × Op) := [
  ("StringEquals", .stringEquals), ("StringNotEquals", .stringNotEquals), ("NumericEquals", .numericEquals),
  ("NumericNotEquals", .numericNotEquals), ("NumericLessThan", .numericLessThan),
  ("NumericLessThanEquals", .numericLessThanEquals), ("NumericGreaterThan", .numericGreaterThan),
  ("NumericGreaterThanEquals", .numericGreaterThanEquals), ("Bool", .bool)]

/-- A condition is the one which was written. -/
def Means (r : Restriction) (c : Condition) : Prop :=
  (r.1, c.op) ∈ opNames ∧ c.key = r.2.1 ∧ ∃ vs : List String, r.2.2 = .arr (vs.map .str) ∧ ∀ v, v ∈ c.values ↔ v ∈ vs

/-- A statement enforces a restriction. -/
def Enforced (s : Statement) (r : Restriction) : Prop := ∃ c ∈ s.conditions, Means r c

/-- A statement document in the form which the dump function writes: at most one member `Conditions`, which is a list of
conditions with one operator and one attribute. -/
def Canonical : Doc → Prop
  | .obj ms => ∀ m ∈ ms, lower m.1 = lower "Conditions" →
      (ms.filter (fun m => lower m.1 = lower "Conditions")).length = 1 ∧
      ∃ l, m.2 = .arr l ∧ ∀ c ∈ l, (∃ op kv, c = .obj [(op, .obj kv)] ∧ kv.length ≤ 1)
  | _ => True

end Spec

end Verif.Iam
