import Verif.Iam.State
import Verif.Json.Cjson

/-!
# IAM serializer — model

Transcription of `/repo/src/modules/iam/nm_iam_serializer.c`, `nm_iam_to_json.c`, `nm_iam_from_json.c`,
`policies/nm_policies_to_json.c` and `policies/nm_policies_from_json.c`.

Simplifications:
* Allocations of the dump functions can fail (the monad `M`); allocations of the load functions succeed.
* `nn_string_set_insert` (not in the repository) appends a string which is not in the set, and the set is iterated in
  that order.
* A function which returns `NULL` or `false` is `none`.
* The users made by the loader get the identity 0 (`addr`).
-/

namespace Verif.Iam

open Verif.Json (Json M create createString addItem addElem addString addOpt addAll addArray alloc getItem asStr asArr
  asBool asNum isObj)

abbrev Doc := Json String

/-! ## Dump -/

/-- `nm_string_set_to_json`, `nm_policies_to_json.c:45-53`; the loops in `nm_iam_to_json.c:13-17` and `68-72` are the
same. -/
def setToJson (set : List String) : M (Option Doc) := do
  addAll createString (← create (.arr [])) set

/-- `nm_condition_operator_to_string`, `nm_condition.c:165-179`. -/
def opToString : Op → String
  | .stringEquals => "StringEquals"
  | .stringNotEquals => "StringNotEquals"
  | .numericEquals => "NumericEquals"
  | .numericNotEquals => "NumericNotEquals"
  | .numericLessThan => "NumericLessThan"
  | .numericLessThanEquals => "NumericLessThanEquals"
  | .numericGreaterThan => "NumericGreaterThan"
  | .numericGreaterThanEquals => "NumericGreaterThanEquals"
  | .bool => "Bool"

/-- `nm_condition_to_json`, `nm_policies_to_json.c:27-35`. -/
def conditionToJson (c : Condition) : M (Option Doc) := do
  let kv ← create (.obj [])
  let kv ← addItem kv c.key (← setToJson c.values)
  let op ← create (.obj [])
  addItem op (opToString c.op) kv

/-- `nm_conditions_to_json`, `nm_policies_to_json.c:37-44`. -/
def conditionsToJson (l : List Condition) : M (Option Doc) := do
  addAll conditionToJson (← create (.arr [])) l

/-- The effect, `nm_policies_to_json.c:59-63`. -/
def addEffect (json : Option Doc) (e : Effect) : M (Option Doc) := do
  match e with
  | .allow => do addItem json "Effect" (← createString "Allow")
  | .deny => do addItem json "Effect" (← createString "Deny")
  | _ => pure json

/-- `nm_statement_to_json`, `nm_policies_to_json.c:56-73`. -/
def statementToJson (s : Statement) : M (Option Doc) := do
  let json ← create (.obj [])
  let json ← addEffect json s.effect
  let json ← addItem json "Actions" (← setToJson s.actions)
  if s.conditions ≠ [] then
    addItem json "Conditions" (← conditionsToJson s.conditions)
  else pure json

/-- `nm_policy_to_json`, `nm_policies_to_json.c:17-24`, with `nm_statements_to_json`, 75-83. -/
def policyToJson (p : Policy) : M (Option Doc) := do
  let json ← create (.obj [])
  let json ← addItem json "Id" (← createString p.id)
  addItem json "Statements" (← addAll statementToJson (← create (.arr [])) p.statements)

/-- `nm_iam_role_to_json`, `nm_iam_to_json.c:8-21`. -/
def roleToJson (r : Role) : M (Option Doc) := do
  let root ← create (.obj [])
  let root ← addItem root "Id" (← createString r.id)
  addItem root "Policies" (← setToJson r.policies)

/-- The document of `nm_iam_serializer_configuration_dump_json`, `nm_iam_serializer.c:16-34`. -/
def configToJson (conf : Config) : M (Option Doc) := do
  let root ← create (.obj [])
  let root ← addItem root "Version" (← create (.num 1))
  let root ← addItem root "Policies" (← addAll policyToJson (← create (.arr [])) conf.policies)
  let root ← addItem root "Roles" (← addAll roleToJson (← create (.arr [])) conf.roles)
  let config ← create (.obj [])
  let config ← addString config "UnpairedRole" conf.unpairedRole
  addItem root "Config" config

/-- One fingerprint, `nm_iam_to_json.c:31-38`. (A fingerprint is never `NULL`.) -/
def fpToJson (f : Fp) : M (Option Doc) := do
  let o ← create (.obj [])
  let o ← addItem o "Fingerprint" (← createString f.fingerprint)
  addOpt o "Name" f.name

/-- The notification data, `nm_iam_to_json.c:55-64`. -/
def addFcm (root : Option Doc) (u : User) : M (Option Doc) := do
  if u.fcmToken ≠ none ∨ u.fcmProjectId ≠ none then do
    let fcm ← create (.obj [])
    let fcm ← addOpt fcm "Token" u.fcmToken
    let fcm ← addOpt fcm "ProjectId" u.fcmProjectId
    addItem root "Fcm" fcm
  else pure root

/-- The notification categories, `nm_iam_to_json.c:66-73`. -/
def addCategories (root : Option Doc) (u : User) : M (Option Doc) := do
  if u.notificationCategories ≠ [] then do
    addItem root "NotificationCategories" (← setToJson u.notificationCategories)
  else pure root

/-- `nm_iam_user_to_json`, `nm_iam_to_json.c:24-82`. -/
def userToJson (u : User) : M (Option Doc) := do
  let root ← create (.obj [])
  let root ← addItem root "Username" (← createString u.username)
  let root ← addArray root "Fingerprints" fpToJson u.fingerprints
  let root ← addOpt root "DisplayName" u.displayName
  let root ← addOpt root "ServerConnectToken" u.sct
  let root ← addOpt root "Password" u.password
  let root ← addOpt root "Role" u.role
  let root ← addFcm root u
  let root ← addCategories root u
  addOpt root "OauthSubject" u.oauthSubject

/-- The document of `nm_iam_serializer_state_dump_json`, `nm_iam_serializer.c:141-181`, of a state which is not
`NULL`. -/
def stateToJson (st : IamState) : M (Option Doc) := do
  let json ← create (.obj [])
  let json ← addItem json "Version" (← create (.num 2))
  let json ← addOpt json "OpenPairingPassword" st.passwordOpenPassword
  let json ← addOpt json "OpenPairingSct" st.passwordOpenSct
  let json ← addItem json "LocalOpenPairing" (← create (.bool st.localOpenPairing))
  let json ← addItem json "PasswordOpenPairing" (← create (.bool st.passwordOpenPairing))
  let json ← addItem json "PasswordInvitePairing" (← create (.bool st.passwordInvitePairing))
  let json ← addItem json "LocalInitialPairing" (← create (.bool st.localInitialPairing))
  let json ← addOpt json "OpenPairingRole" st.openPairingRole
  let json ← addOpt json "InitialPairingUsername" st.initialPairingUsername
  let json ← addOpt json "FriendlyName" st.friendlyName
  addItem json "Users" (← addAll userToJson (← create (.arr [])) st.users)

/-- The end of both dump functions, `nm_iam_serializer.c:36-43` and `182-188`: the text, or `none` for the result
`false`. The allocations of the printer are one. -/
def finishDump (root : Option Doc) : M (Option Json.Bytes) := do
  match root with
  | none => pure none
  | some root => do
    if ← alloc then pure (some (Json.text root)) else pure none

/-- `nm_iam_serializer_configuration_dump_json`, `nm_iam_serializer.c:14-44`. -/
def configDump (conf : Config) : M (Option Json.Bytes) := do finishDump (← configToJson conf)

/-- `nm_iam_serializer_state_dump_json`, `nm_iam_serializer.c:139-189`. -/
def stateDump (st : IamState) : M (Option Json.Bytes) := do finishDump (← stateToJson st)

/-! ## Load -/

/-- `nn_string_set_insert`. -/
def setInsert (set : List String) (s : String) : List String := if s ∈ set then set else set ++ [s]

/-- `nm_condition_parse_operator`, `nm_condition.c:148-163`. -/
def parseOp (s : String) : Option Op :=
  if s = "StringEquals" then some .stringEquals
  else if s = "StringNotEquals" then some .stringNotEquals
  else if s = "NumericEquals" then some .numericEquals
  else if s = "NumericNotEquals" then some .numericNotEquals
  else if s = "NumericLessThan" then some .numericLessThan
  else if s = "NumericLessThanEquals" then some .numericLessThanEquals
  else if s = "NumericGreaterThan" then some .numericGreaterThan
  else if s = "NumericGreaterThanEquals" then some .numericGreaterThanEquals
  else if s = "Bool" then some .bool
  else none

/-- A loop over an array which inserts strings into a set and fails on another type, `nm_policies_from_json.c:55-63`
and `107-116`. -/
def insertAll (set : List String) : List Doc → Option (List String)
  | [] => some set
  | .str s :: l => insertAll (setInsert set s) l
  | _ :: _ => none

/-- A loop over an array which inserts strings into a set and skips other types, `nm_iam_from_json.c:25-32` and
`119-123`. -/
def insertStrings (set : List String) : List Doc → List String
  | [] => set
  | .str s :: l => insertStrings (setInsert set s) l
  | _ :: l => insertStrings set l

/-- `nm_condition_from_json`, `nm_policies_from_json.c:18-42`, and `nm_condition_from_json_parse`, 44-67. -/
def conditionFromJson (json : Doc) : Option Condition :=
  match json with
  | .obj ((name, .obj kv) :: _) =>
    match parseOp name with
    | none => none
    | some op =>
      match kv with
      | (key, .arr values) :: _ => (insertAll [] values).map (fun v => ⟨op, key, v⟩)
      | _ => none
  | _ => none

/-- A loop over an array which fails when an element fails, for example `nm_policies_from_json.c:120-127`. -/
def loadAll {α} (f : Doc → Option α) : List Doc → Option (List α)
  | [] => some []
  | x :: l =>
    match f x with
    | none => none
    | some a => (loadAll f l).map (a :: ·)

/-- The effect, `nm_policies_from_json.c:86-96`. -/
def parseEffect (s : String) : Option Effect :=
  if s = "Allow" then some .allow else if s = "Deny" then some .deny else none

/-- `nm_statement_from_json`, `nm_policies_from_json.c:69-106`, and `nm_statement_from_json_parse`, 108-134. -/
def statementFromJson (json : Doc) : Option Statement :=
  if !isObj (some json) then none
  else match asStr (getItem json "Effect"), asArr (getItem json "Actions") with
    | some e, some actions =>
      match parseEffect e with
      | none => none
      | some e =>
        match insertAll [] actions with
        | none => none
        | some actions =>
          match asArr (getItem json "Conditions") with
          | some l => (loadAll conditionFromJson l).map (fun c => ⟨e, actions, c⟩)
          | none => some ⟨e, actions, []⟩
    | _, _ => none

/-- `nm_policy_from_json`, `nm_policies_from_json.c:136-161`, and `nm_policy_from_json_parse`, 163-175. -/
def policyFromJson (json : Doc) : Option Policy :=
  if !isObj (some json) then none
  else match asStr (getItem json "Id"), asArr (getItem json "Statements") with
    | some id, some l => (loadAll statementFromJson l).map (fun s => ⟨id, s⟩)
    | _, _ => none

/-- `nm_iam_role_from_json`, `nm_iam_from_json.c:10-34`. -/
def roleFromJson (json : Doc) : Option Role :=
  match asStr (getItem json "Id"), asArr (getItem json "Policies") with
  | some id, some l => some ⟨id, insertStrings [] l⟩
  | _, _ => none

/-- `nm_iam_serializer_configuration_load_json`, `nm_iam_serializer.c:46-128`, for the parsed document. -/
def configFromJson (conf : Config) (root : Doc) : Option Config :=
  if !isObj (some root) then none
  else match asArr (getItem root "Policies"), asArr (getItem root "Roles") with
    | some policies, some roles =>
      if asNum (getItem root "Version") ≠ some 1 then none
      else match getItem root "Config" with
        | some (.obj config) =>
          match loadAll policyFromJson policies with
          | none => none
          | some ps =>
            match loadAll roleFromJson roles with
            | none => none
            | some rs => some {
                policies := conf.policies ++ ps
                roles := conf.roles ++ rs
                unpairedRole := (asStr (getItem (.obj config) "UnpairedRole")).or conf.unpairedRole }
        | _ => none
    | _, _ => none

/-- One element of the fingerprints, `nm_iam_from_json.c:79-93`. -/
def fpFromJson (item : Doc) : Option Fp :=
  match asStr (getItem item "Fingerprint") with
  | some fp => some ⟨fp, asStr (getItem item "Name")⟩
  | none => none

/-- The fingerprints, `nm_iam_from_json.c:69-97`. -/
def fpsFromJson (json : Doc) (version : Int) : List Fp :=
  if version = 1 then
    match asStr (getItem json "Fingerprint") with
    | some fp => [⟨fp, none⟩]
    | none => []
  else if version = 2 then
    match asArr (getItem json "Fingerprints") with
    | some l => l.filterMap fpFromJson
    | none => []
  else []

/-- The categories, `nm_iam_from_json.c:115-127`. -/
def categoriesFromJson (json : Doc) : List String :=
  match asArr (getItem json "NotificationCategories") with
  | some l => insertStrings [] l
  | none => []

/-- `nm_iam_user_from_json`, `nm_iam_from_json.c:36-134`. -/
def userFromJson (json : Doc) (version : Int) : Option User :=
  match asStr (getItem json "Username") with
  | none => none
  | some username =>
    if !validateUsername username then none
    else
      let fcm := (getItem json "Fcm").filter (fun j => isObj (some j))
      some {
        addr := 0
        username := username
        displayName := asStr (getItem json "DisplayName")
        role := asStr (getItem json "Role")
        password := asStr (getItem json "Password")
        sct := asStr (getItem json "ServerConnectToken")
        fcmToken := asStr (fcm.bind (getItem · "Token"))
        fcmProjectId := asStr (fcm.bind (getItem · "ProjectId"))
        notificationCategories := categoriesFromJson json
        oauthSubject := asStr (getItem json "OauthSubject")
        fingerprints := fpsFromJson json version }

/-- `nm_iam_serializer_state_load_json`, `nm_iam_serializer.c:197-285`, for the parsed document: what the document
does not say stays as it is. -/
def stateFromJson (st : IamState) (root : Doc) : Option IamState :=
  if !isObj (some root) then none
  else match asNum (getItem root "Version") with
    | none => none
    | some version =>
      if version > 2 then none
      else some {
        users := st.users ++ (match asArr (getItem root "Users") with
          | some l => l.filterMap (userFromJson · version)
          | none => [])
        passwordOpenPassword := (asStr (getItem root "OpenPairingPassword")).or st.passwordOpenPassword
        passwordOpenSct := (asStr (getItem root "OpenPairingSct")).or st.passwordOpenSct
        passwordOpenPairing := (asBool (getItem root "PasswordOpenPairing")).getD st.passwordOpenPairing
        localOpenPairing := (asBool (getItem root "LocalOpenPairing")).getD st.localOpenPairing
        passwordInvitePairing := (asBool (getItem root "PasswordInvitePairing")).getD st.passwordInvitePairing
        localInitialPairing := (asBool (getItem root "LocalInitialPairing")).getD st.localInitialPairing
        openPairingRole := (asStr (getItem root "OpenPairingRole")).or st.openPairingRole
        initialPairingUsername := (asStr (getItem root "InitialPairingUsername")).or st.initialPairingUsername
        friendlyName := (asStr (getItem root "FriendlyName")).or st.friendlyName }

end Verif.Iam
