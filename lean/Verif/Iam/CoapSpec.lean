import Verif.Iam.Coap
import Verif.Iam.AccessSpec

/-!
# IAM CoAP requests — specification

The documented permission of each request, what each pairing mode demands, and what a success response
promises.
-/

namespace Verif.Iam.Spec

open Verif.Iam

/-- The documented IAM action of a request and the attributes it is checked with. -/
inductive Needs : Req → String → Attrs → Prop
  | createUser (p) : Needs (.createUser p) "IAM:CreateUser" []
  | deleteUser (u) : Needs (.deleteUser u) "IAM:DeleteUser" [("IAM:Username", u)]
  | setRole (u s) : Needs (.setRole u (.value (.text s))) "IAM:SetUserRole"
      [("IAM:Username", u), ("IAM:RoleId", cstr s)]
  | setUsername (u p) : Needs (.setUsername u p) "IAM:SetUserUsername" [("IAM:Username", u)]
  | setDisplayName (u p) : Needs (.setDisplayName u p) "IAM:SetUserDisplayName" [("IAM:Username", u)]
  | setFingerprint (u p) : Needs (.setFingerprint u p) "IAM:SetUserFingerprint" [("IAM:Username", u)]
  | addFingerprint (u f p) : Needs (.addFingerprint u f p) "IAM:SetUserFingerprint" [("IAM:Username", u)]
  | deleteFingerprint (u f) : Needs (.deleteFingerprint u f) "IAM:SetUserFingerprint" [("IAM:Username", u)]
  | setSct (u p) : Needs (.setSct u p) "IAM:SetUserSct" [("IAM:Username", u)]
  | setPassword (u p) : Needs (.setPassword u p) "IAM:SetUserPassword" [("IAM:Username", u)]
  | setFcm (u p) : Needs (.setFcm u p) "IAM:SetUserFcm" [("IAM:Username", u)]
  | setCategories (u p) : Needs (.setCategories u p) "IAM:SetUserNotificationCategories" [("IAM:Username", u)]
  | setOauthSubject (u p) : Needs (.setOauthSubject u p) "IAM:SetUserOauthSubject" [("IAM:Username", u)]
  | setSettings (k p) : Needs (.setSettings k p) "IAM:SetSettings" []
  | setDeviceInfo (k p) : Needs (.setDeviceInfo k p) "IAM:SetDeviceInfo" []
  | pairLocalInitial (p) : Needs (.pairLocalInitial p) "IAM:PairingLocalInitial" []
  | pairLocalOpen (p) : Needs (.pairLocalOpen p) "IAM:PairingLocalOpen" []
  | pairPasswordInvite (p) : Needs (.pairPasswordInvite p) "IAM:PairingPasswordInvite" []
  | pairPasswordOpen (p) : Needs (.pairPasswordOpen p) "IAM:PairingPasswordOpen" []

/-- What each pairing mode demands besides the permission: the mode is enabled and possible, and the
client has given the mode's proof. -/
inductive PairingOk (iam : Iam) (d : Dev) : Req → Prop
  | localInitial (p n u) : iam.state.localInitialPairing = true → d.ci2.isLocal = true →
      iam.state.initialPairingUsername = some n → FirstWith (fun u => u.username = n) iam.state.users u →
      u.fingerprints = [] → u.oauthSubject = none → PairingOk iam d (.pairLocalInitial p)
  | localOpen (p) : iam.state.localOpenPairing = true → d.ci2.isLocal = true →
      PairingOk iam d (.pairLocalOpen p)
  | passwordInvite (p n u) : iam.state.passwordInvitePairing = true → d.ci2.pwAuth = true →
      d.ci2.pwUser = some n → FirstWith (fun u => u.username = n) iam.state.users u →
      PairingOk iam d (.pairPasswordInvite p)
  | passwordOpen (p) : iam.state.passwordOpenPairing = true → iam.state.passwordOpenPassword ≠ none →
      iam.state.openPairingRole ≠ none → d.ci2.pwAuth = true → PairingOk iam d (.pairPasswordOpen p)

/-- The request is one of the four pairing requests. -/
def IsPairing : Req → Prop
  | .pairLocalInitial _ => True
  | .pairLocalOpen _ => True
  | .pairPasswordInvite _ => True
  | .pairPasswordOpen _ => True
  | _ => False

/-- The text a payload carries. -/
def Texts (p : Payload) (s : String) : Prop := ∃ t, p = .value (.text t) ∧ s = cstr t

/-- The text under a key of a payload. -/
def TextAt (p : Payload) (key s : String) : Prop :=
  ∃ kvs t, p = .value (.map kvs) ∧ kvs.lookup key = some (.text t) ∧ s = cstr t

/-- An optional text: a text or null. -/
def OptText (p : Payload) : Option String → Prop
  | some s => Texts p s
  | none => p = .value .null

/-- The first user with this name in `st'` looks as `Q` says. -/
def UserLooks (st : IamState) (n : String) (Q : User → Prop) : Prop :=
  ∃ u, FirstWith (fun u => u.username = n) st.users u ∧ Q u

/-- The text under a key of a payload, `none` if there is no such text of less than 1024 bytes. -/
def OptTextAt (p : Payload) (key : String) : Option String → Prop
  | some s => TextAt p key s
  | none => ∀ kvs t, p = .value (.map kvs) → kvs.lookup key = some (.text t) → 1024 ≤ t.utf8ByteSize

/-- The only difference between two states: the first user named `n` went from `u` to `u'`. -/
def Replaced (st st' : IamState) (n : String) (u u' : User) : Prop :=
  ∃ pre post, st.users = pre ++ u :: post ∧ u.username = n ∧ (∀ w ∈ pre, w.username ≠ n) ∧
    st' = { st with users := pre ++ u' :: post }

/-- The only difference between two states: the first user named `n` was changed by `f`. -/
def Changes (st st' : IamState) (n : String) (f : User → User) : Prop :=
  ∃ u, Replaced st st' n u (f u)

/-- The only difference between two states: the first user named `n` is gone. -/
def Removed (st st' : IamState) (n : String) : Prop :=
  ∃ pre u post, st.users = pre ++ u :: post ∧ u.username = n ∧ (∀ w ∈ pre, w.username ≠ n) ∧
    st' = { st with users := pre ++ post }

/-- The only difference between two states: the user `u`, with a name nobody had, was appended. -/
def Appended (st st' : IamState) (u : User) : Prop :=
  (∀ w ∈ st.users, w.username ≠ u.username) ∧ st' = { st with users := st.users ++ [u] }

/-- What open pairing does for a client with key `f` under the name `n`: a new user with the open pairing
role, or nothing if the client is paired under this name already. -/
inductive OpenPaired (iam iam' : Iam) (d : Dev) (p : Payload) (n f : String) : Prop
  | new (a role sct name) : iam.state.openPairingRole = some role → d.newSct = some sct →
      OptTextAt p "FingerprintName" name → (∀ w ∈ iam.state.users, ¬ Owns f w) →
      Appended iam.state iam'.state
        { addr := a, username := n, role := some role, sct := some sct, fingerprints := [⟨f, name⟩] } →
      OpenPaired iam iam' d p n f
  | already : iam'.state = iam.state → UserLooks iam.state n (Owns f) → OpenPaired iam iam' d p n f

/-- The key of the client is known, and it is `f`. -/
def KeyIs (ci : ConnInfo) (f : String) : Prop := ci.fpOk = true ∧ ci.fingerprint = some f

/-- What a success response to a request promises: exactly this change of the state and no other. -/
inductive TookEffect (iam iam' : Iam) (d : Dev) : Req → Prop
  | createUser (p n sct a) : TextAt p "Username" n → d.newSct = some sct →
      Appended iam.state iam'.state { addr := a, username := n, sct := some sct } →
      TookEffect iam iam' d (.createUser p)
  | deleteUser (n) : Removed iam.state iam'.state n → TookEffect iam iam' d (.deleteUser n)
  | setRole (n p r) : Texts p r → (∃ x ∈ iam.conf.roles, x.id = r) →
      Changes iam.state iam'.state n (fun u => { u with role := some r }) →
      TookEffect iam iam' d (.setRole n p)
  | setUsername (n p m) : Texts p m → (∀ w ∈ iam.state.users, w.username ≠ m) →
      Changes iam.state iam'.state n (fun u => { u with username := m }) →
      TookEffect iam iam' d (.setUsername n p)
  | setDisplayName (n p v) : OptText p v →
      Changes iam.state iam'.state n (fun u => { u with displayName := v }) →
      TookEffect iam iam' d (.setDisplayName n p)
  | setPassword (n p v) : OptText p v →
      Changes iam.state iam'.state n (fun u => { u with password := v }) →
      TookEffect iam iam' d (.setPassword n p)
  | setOauthSubject (n p v) : OptText p v →
      Changes iam.state iam'.state n (fun u => { u with oauthSubject := v }) →
      TookEffect iam iam' d (.setOauthSubject n p)
  | setSct (n p s) : Texts p s →
      Changes iam.state iam'.state n (fun u => { u with sct := some s }) →
      TookEffect iam iam' d (.setSct n p)
  | firstFingerprint (n p f u) : Texts p f → u.fingerprints = [] →
      Replaced iam.state iam'.state n u { u with fingerprints := [⟨f, none⟩] } →
      TookEffect iam iam' d (.setFingerprint n p)
  | setFingerprint (n p f u g name xs) : Texts p f → u.fingerprints = ⟨g, name⟩ :: xs →
      Replaced iam.state iam'.state n u { u with fingerprints := ⟨f, name⟩ :: xs } →
      TookEffect iam iam' d (.setFingerprint n p)
  | clearFingerprint (n u x xs) : u.fingerprints = x :: xs →
      Replaced iam.state iam'.state n u { u with fingerprints := xs } →
      TookEffect iam iam' d (.setFingerprint n (.value .null))
  | addFingerprint (n f p name) : OptTextAt p "FingerprintName" name → (∀ w ∈ iam.state.users, ¬ Owns f w) →
      Changes iam.state iam'.state n (fun u => { u with fingerprints := u.fingerprints ++ [⟨f, name⟩] }) →
      TookEffect iam iam' d (.addFingerprint n f p)
  | deleteFingerprint (n f u pre x post) : u.fingerprints = pre ++ x :: post → x.fingerprint = f →
      (∀ y ∈ pre, y.fingerprint ≠ f) →
      Replaced iam.state iam'.state n u { u with fingerprints := pre ++ post } →
      TookEffect iam iam' d (.deleteFingerprint n f)
  | setFcm (n p t i) : TextAt p "Token" t → TextAt p "ProjectId" i →
      Changes iam.state iam'.state n (fun u => { u with fcmToken := some t, fcmProjectId := some i }) →
      TookEffect iam iam' d (.setFcm n p)
  | setCategories (n cs) (ts : List String) : (∀ c, c ∈ cs ↔ c ∈ ts.map cstr) → cs.Nodup →
      (∀ c ∈ cs, c ∈ iam.categories) →
      Changes iam.state iam'.state n (fun u => { u with notificationCategories := cs }) →
      TookEffect iam iam' d (.setCategories n (.value (.array (ts.map CV.text))))
  | passwordOpen (b) : iam'.state = { iam.state with passwordOpenPairing := b } →
      TookEffect iam iam' d (.setSettings "password-open-pairing" (.value (.bool b)))
  | passwordInvite (b) : iam'.state = { iam.state with passwordInvitePairing := b } →
      TookEffect iam iam' d (.setSettings "password-invite-pairing" (.value (.bool b)))
  | localOpen (b) : iam'.state = { iam.state with localOpenPairing := b } →
      TookEffect iam iam' d (.setSettings "local-open-pairing" (.value (.bool b)))
  | friendlyName (p s) : Texts p s → iam'.state = { iam.state with friendlyName := some s } →
      TookEffect iam iam' d (.setDeviceInfo "friendly-name" p)
  | pairLocalInitial (p n f name) : iam.state.initialPairingUsername = some n → KeyIs d.ci2 f →
      OptTextAt p "FingerprintName" name →
      Changes iam.state iam'.state n (fun u => { u with fingerprints := u.fingerprints ++ [⟨f, name⟩] }) →
      TookEffect iam iam' d (.pairLocalInitial p)
  | pairLocalOpen (p n f) : TextAt p "Username" n → KeyIs d.ci2 f →
      OpenPaired iam iam' d p n f → TookEffect iam iam' d (.pairLocalOpen p)
  | pairPasswordOpen (p n f) : TextAt p "Username" n → KeyIs d.ci2 f →
      OpenPaired iam iam' d p n f → TookEffect iam iam' d (.pairPasswordOpen p)
  | pairPasswordInvite (p n f name) : d.ci2.pwUser = some n → KeyIs d.ci2 f →
      OptTextAt p "FingerprintName" name → (∀ w ∈ iam.state.users, ¬ Owns f w) →
      Changes iam.state iam'.state n
        (fun u => { u with fingerprints := u.fingerprints ++ [⟨f, name⟩], password := none }) →
      TookEffect iam iam' d (.pairPasswordInvite p)
  | alreadyPaired (p n f) : d.ci2.pwUser = some n → KeyIs d.ci2 f →
      UserLooks iam.state n (Owns f) → iam'.state = iam.state →
      TookEffect iam iam' d (.pairPasswordInvite p)

end Verif.Iam.Spec
