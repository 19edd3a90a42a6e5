import Verif.Iam.State
import Verif.Cbor.Item
import Verif.Json.Cjson

/-!
# IAM resources which are read — specification

The documents which the resources of the IAM module promise.
-/

namespace Verif.Iam.Listing.Spec
open Verif.Cbor Verif.Iam

/-- A string. -/
def text (s : String) : Item := .text (Verif.Json.enc s)

/-- A field of a map. -/
def field (k : String) (v : Item) : List (Item × Item) := [(text k, v)]

/-- A string field which may be absent. -/
def optField (k : String) (v : Option String) : List (Item × Item) :=
  match v with
  | none => []
  | some v => field k (text v)

/-- A fingerprint of a user. -/
def fpItem (fp : Fp) : Item := .map true (field "Fingerprint" (text fp.fingerprint) ++ optField "Name" fp.name)

/-- The FCM settings of a user. -/
def fcmField (u : User) : List (Item × Item) :=
  if u.fcmToken.isSome || u.fcmProjectId.isSome then
    field "Fcm" (.map true (optField "Token" u.fcmToken ++ optField "ProjectId" u.fcmProjectId))
  else []

/-- A user. -/
def userItem (u : User) : Item :=
  .map true (
    field "Username" (text u.username) ++
    optField "DisplayName" u.displayName ++
    optField "Role" u.role ++
    field "Fingerprints" (.arr true (u.fingerprints.map fpItem)) ++
    optField "Fingerprint" (u.fingerprints.getLast?.map (·.fingerprint)) ++
    optField "Sct" u.sct ++
    fcmField u ++
    field "NotificationCategories" (.arr true (u.notificationCategories.map text)) ++
    optField "OauthSubject" u.oauthSubject)

/-- The settings. -/
def settingsItem (st : IamState) : Item :=
  .map true (
    field "PasswordOpenPairing" (.bool st.passwordOpenPairing) ++
    field "PasswordInvitePairing" (.bool st.passwordInvitePairing) ++
    field "LocalOpenPairing" (.bool st.localOpenPairing) ++
    optField "PasswordOpenSct" st.passwordOpenSct ++
    optField "PasswordOpenPassword" st.passwordOpenPassword)

/-- A list of names. -/
def names (l : List String) : Item := .arr true (l.map text)

/-- What pairing offers: the modes, and descriptions under their keys. -/
def pairingItem (modes : List String) (about : List (String × Option String)) : Item :=
  .map true (field "Modes" (names modes) ++ about.flatMap fun kv => optField kv.1 kv.2)

/-- Everything about a user except the password. -/
structure Public where
  username : String
  displayName : Option String
  role : Option String
  sct : Option String
  fcmToken : Option String
  fcmProjectId : Option String
  notificationCategories : List String
  oauthSubject : Option String
  fingerprints : List Fp
  deriving DecidableEq, Repr

def publicOf (u : User) : Public :=
  { username := u.username, displayName := u.displayName, role := u.role, sct := u.sct, fcmToken := u.fcmToken,
    fcmProjectId := u.fcmProjectId, notificationCategories := u.notificationCategories, oauthSubject := u.oauthSubject,
    fingerprints := u.fingerprints }

/-- The same module, but other passwords of the users. -/
def withPasswords (pw : User → Option String) (iam : Iam) : Iam :=
  { iam with state := { iam.state with users := iam.state.users.map fun u => { u with password := pw u } } }

end Verif.Iam.Listing.Spec
