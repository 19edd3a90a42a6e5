import Verif.Iam.Json

/-!
# Users and states of the IAM module as blocks of memory — model

Transcription of `/repo/src/modules/iam/nm_iam_user.c`, `nm_iam_state.c`, the part of `nm_iam_from_json.c` that makes a
user and the part of `nm_iam_serializer.c` that loads a state, where every request for memory may fail.

Every string and every structure is a block of its own with an identity. A request for memory is answered by an oracle,
the number of the request is the identity of the block. Giving back a block that is not in use is recorded as `bad`.

Simplifications:
* Identities are never reused.
* `nn_string_set` is not in the repository. An element is one block. An insertion of a string the set has does nothing
  and succeeds; another one either adds the string and says so or changes nothing and says that it failed.
* The memory of the parsed document itself is one block.
-/

namespace Verif.Iam.Record

open Verif.Iam Verif.Json

/-! ## Memory -/

/-- The allocator, `nm_iam_allocator.c`: `ok n` is the answer to request number `n`. -/
structure Mem where
  ok : Nat → Bool
  asked : Nat := 0
  live : List Nat := []
  bad : Bool := false

/-- `nm_iam_calloc`. -/
def alloc (m : Mem) : Option Nat × Mem :=
  if m.ok m.asked then (some m.asked, { m with asked := m.asked + 1, live := m.asked :: m.live })
  else (none, { m with asked := m.asked + 1 })

/-- `nm_iam_free` of a block. -/
def free (m : Mem) (b : Nat) : Mem :=
  if b ∈ m.live then { m with live := m.live.erase b } else { m with bad := true }

/-- A string in memory. -/
structure Str where
  blk : Nat
  val : String
  deriving DecidableEq, Repr

/-- `nm_iam_free` of a string, which may be `NULL`. -/
def freeStr (m : Mem) : Option Str → Mem
  | none => m
  | some s => free m s.blk

/-- `nn_strdup`. -/
def strdup (m : Mem) (s : String) : Option Str × Mem :=
  match alloc m with
  | (some b, m) => (some ⟨b, s⟩, m)
  | (none, m) => (none, m)

/-- `nn_string_set_insert`. -/
def insert (m : Mem) (set : List Str) (s : String) : Bool × List Str × Mem :=
  if s ∈ set.map Str.val then (true, set, m)
  else
    match strdup m s with
    | (some x, m) => (true, set ++ [x], m)
    | (none, m) => (false, set, m)

/-- `nn_string_set_clear` and `nn_string_set_deinit`. -/
def freeSet (m : Mem) (set : List Str) : Mem := set.foldl (fun m s => free m s.blk) m

/-! ## Users -/

/-- `struct nm_iam_user_fingerprint`, `nm_iam_state.h:11-15`. -/
structure RFp where
  self : Nat
  fingerprint : Str
  name : Option Str
  deriving DecidableEq, Repr

/-- `struct nm_iam_user`, `nm_iam_state.h:17-30`. -/
structure RUser where
  self : Nat
  username : Str
  displayName : Option Str := none
  role : Option Str := none
  password : Option Str := none
  sct : Option Str := none
  fcmToken : Option Str := none
  fcmProjectId : Option Str := none
  categories : List Str := []
  oauthSubject : Option Str := none
  fingerprints : List RFp := []
  deriving DecidableEq, Repr

/-- `nm_iam_free` of a pointer that may be `NULL`. -/
def freeOpt (m : Mem) : Option Nat → Mem
  | none => m
  | some b => free m b

/-- `nm_iam_user_new`, `nm_iam_user.c:29-45`: both requests are made before either answer is looked at. -/
def userNew (m : Mem) (name : String) : Option RUser × Mem :=
  let (username, m) := strdup m name
  let (self, m) := alloc m
  match username, self with
  | some u, some b =>
    if validateUsername name then (some { self := b, username := u }, m)
    else (none, free (free m u.blk) b)
  | u, b => (none, freeOpt (freeStr m u) b)

/-- Freeing a fingerprint, `nm_iam_user.c:56-59`. -/
def freeFp (m : Mem) (f : RFp) : Mem := free (free (freeStr m f.name) f.fingerprint.blk) f.self

/-- `nm_iam_user_free`, `nm_iam_user.c:47-74`. -/
def userFree (m : Mem) (u : RUser) : Mem :=
  let m := free m u.username.blk
  let m := freeStr m u.displayName
  let m := u.fingerprints.foldl freeFp m
  let m := freeStr m u.sct
  let m := freeStr m u.role
  let m := freeStr m u.password
  let m := freeStr m u.fcmToken
  let m := freeStr m u.fcmProjectId
  let m := freeSet m u.categories
  let m := freeStr m u.oauthSubject
  free m u.self

/-- `nm_iam_user_add_fingerprint`, `nm_iam_user.c:100-124`. -/
def addFp (m : Mem) (u : RUser) (fingerprint : Option String) (name : Option String) : Bool × RUser × Mem :=
  match fingerprint with
  | none => (false, u, m)
  | some fingerprint =>
    match alloc m with
    | (none, m) => (false, u, m)
    | (some self, m) =>
      let (n, m) := match name with
        | none => (none, m)
        | some n => strdup m n
      let (f, m) := strdup m fingerprint
      match f, name.isSome && n.isNone with
      | some f, false => (true, { u with fingerprints := u.fingerprints ++ [⟨self, f, n⟩] }, m)
      | f, _ => (false, u, free (freeStr (freeStr m f) n) self)

/-- `nm_iam_user_set_fingerprint`, `nm_iam_user.c:76-98`. -/
def setFp (m : Mem) (u : RUser) (fingerprint : Option String) : Bool × RUser × Mem :=
  match fingerprint, u.fingerprints with
  | none, f :: l => (true, { u with fingerprints := l }, free (freeStr (free m f.fingerprint.blk) f.name) f.self)
  | fingerprint, [] => addFp m u fingerprint none
  | some fingerprint, f :: l =>
    match strdup m fingerprint with
    | (none, m) => (false, u, m)
    | (some s, m) => (true, { u with fingerprints := { f with fingerprint := s } :: l }, free m f.fingerprint.blk)

/-- The loop of `removeFp`, `nm_iam_user.c:131-143`. -/
def dropFp (m : Mem) (fingerprint : String) : List RFp → Bool × List RFp × Mem
  | [] => (false, [], m)
  | f :: l =>
    if f.fingerprint.val = fingerprint then
      (true, l, free (freeStr (free m f.fingerprint.blk) f.name) f.self)
    else
      let (r, l, m) := dropFp m fingerprint l
      (r, f :: l, m)

/-- `nm_iam_user_remove_fingerprint`, `nm_iam_user.c:126-145`. -/
def removeFp (m : Mem) (u : RUser) (fingerprint : Option String) : Bool × RUser × Mem :=
  match fingerprint with
  | none => (false, u, m)
  | some f =>
    let (r, l, m) := dropFp m f u.fingerprints
    (r, { u with fingerprints := l }, m)

/-- The body of a setter whose value may be `NULL`, for example `nm_iam_user.c:150-160`: what it answers, what the field
is afterwards. -/
def setStr (m : Mem) (old : Option Str) (value : Option String) : Bool × Option Str × Mem :=
  match value with
  | none => (true, none, freeStr m old)
  | some v =>
    match strdup m v with
    | (some s, m) => (true, some s, freeStr m old)
    | (none, m) => (false, old, m)

/-- The fields of a user with a setter that accepts `NULL`, and the role. -/
inductive Field | displayName | role | password | sct | fcmToken | fcmProjectId | oauthSubject
  deriving DecidableEq, Repr

/-- The field of a user. -/
def RUser.get (u : RUser) : Field → Option Str
  | .displayName => u.displayName
  | .role => u.role
  | .password => u.password
  | .sct => u.sct
  | .fcmToken => u.fcmToken
  | .fcmProjectId => u.fcmProjectId
  | .oauthSubject => u.oauthSubject

/-- Writing the field of a user. -/
def RUser.put (u : RUser) (f : Field) (s : Option Str) : RUser :=
  match f with
  | .displayName => { u with displayName := s }
  | .role => { u with role := s }
  | .password => { u with password := s }
  | .sct => { u with sct := s }
  | .fcmToken => { u with fcmToken := s }
  | .fcmProjectId => { u with fcmProjectId := s }
  | .oauthSubject => { u with oauthSubject := s }

/-- `nm_iam_user_set_password`, `_fcm_token`, `_fcm_project_id`, `_oauth_subject`, `_sct`, `_display_name` and `_role`,
`nm_iam_user.c:148-191`, `203-231` and `247-275`. The role may not be `NULL`. -/
def setField (m : Mem) (u : RUser) (f : Field) (value : Option String) : Bool × RUser × Mem :=
  if f = .role ∧ value = none then (false, u, m)
  else
    let (r, s, m) := setStr m (u.get f) value
    (r, u.put f s, m)

/-- `nm_iam_user_set_username`, `nm_iam_user.c:233-245`. -/
def setUsername (m : Mem) (u : RUser) (name : Option String) : Bool × RUser × Mem :=
  match name with
  | none => (false, u, m)
  | some n =>
    if !validateUsername n then (false, u, m)
    else
      match strdup m n with
      | (none, m) => (false, u, m)
      | (some s, m) => (true, { u with username := s }, free m u.username.blk)

/-- A loop that inserts strings and does not look at the answers. -/
def insertAll (m : Mem) (set : List Str) : List String → List Str × Mem
  | [] => (set, m)
  | s :: l =>
    let (_, set, m) := insert m set s
    insertAll m set l

/-- `nm_iam_user_set_notification_categories`, `nm_iam_user.c:193-201`: the answers of the insertions are not looked
at. -/
def setCategories (m : Mem) (u : RUser) (categories : List String) : Bool × RUser × Mem :=
  let m := freeSet m u.categories
  let (set, m) := insertAll m [] categories
  (true, { u with categories := set }, m)

/-! ## Copies -/

/-- Copying a string that may be `NULL`, for example `nm_iam_user.c:284-289`: the copy and whether it failed. -/
def copyStr (m : Mem) (s : Option Str) : Option Str × Bool × Mem :=
  match s with
  | none => (none, false, m)
  | some s =>
    match strdup m s.val with
    | (some c, m) => (some c, false, m)
    | (none, m) => (none, true, m)

/-- Copying the fingerprints, `nm_iam_user.c:291-296`. -/
def copyFps (m : Mem) (c : RUser) (failed : Bool) : List RFp → RUser × Bool × Mem
  | [] => (c, failed, m)
  | f :: l =>
    let (r, c, m) := addFp m c (some f.fingerprint.val) (f.name.map Str.val)
    copyFps m c (failed || !r) l

/-- Copying the categories, `nm_iam_user.c:333-338`. -/
def copySet (m : Mem) (c : List Str) (failed : Bool) : List Str → List Str × Bool × Mem
  | [] => (c, failed, m)
  | s :: l =>
    let (r, c, m) := insert m c s.val
    copySet m c (failed || !r) l

/-- `nm_iam_user_copy`, `nm_iam_user.c:277-352`. -/
def userCopy (m : Mem) (u : RUser) : Option RUser × Mem :=
  match userNew m u.username.val with
  | (none, m) => (none, m)
  | (some c, m) =>
    let (s, f1, m) := copyStr m u.displayName
    let c := { c with displayName := s }
    let (c, f2, m) := copyFps m c false u.fingerprints
    let (s, f3, m) := copyStr m u.password
    let c := { c with password := s }
    let (s, f4, m) := copyStr m u.role
    let c := { c with role := s }
    let (s, f5, m) := copyStr m u.sct
    let c := { c with sct := s }
    let (s, f6, m) := copyStr m u.fcmToken
    let c := { c with fcmToken := s }
    let (s, f7, m) := copyStr m u.fcmProjectId
    let c := { c with fcmProjectId := s }
    let (set, f8, m) := copySet m c.categories false u.categories
    let c := { c with categories := set }
    let (s, f9, m) := copyStr m u.oauthSubject
    let c := { c with oauthSubject := s }
    if f1 || f2 || f3 || f4 || f5 || f6 || f7 || f8 || f9 then (none, userFree m c) else (some c, m)

/-! ## States -/

/-- `struct nm_iam_state`, `nm_iam_state.h:32-43`. -/
structure RState where
  self : Nat
  users : List RUser := []
  passwordOpenPassword : Option Str := none
  passwordOpenSct : Option Str := none
  passwordOpenPairing : Bool := false
  localOpenPairing : Bool := false
  passwordInvitePairing : Bool := false
  localInitialPairing : Bool := false
  openPairingRole : Option Str := none
  initialPairingUsername : Option Str := none
  friendlyName : Option Str := none
  deriving DecidableEq, Repr

/-- `nm_iam_state_new`, `nm_iam_state.c:8-17`. -/
def stateNew (m : Mem) : Option RState × Mem :=
  match alloc m with
  | (some b, m) => (some { self := b }, m)
  | (none, m) => (none, m)

/-- `nm_iam_state_free`, `nm_iam_state.c:19-40`. -/
def stateFree (m : Mem) (s : RState) : Mem :=
  let m := s.users.foldl userFree m
  let m := freeStr m s.passwordOpenPassword
  let m := freeStr m s.passwordOpenSct
  let m := freeStr m s.openPairingRole
  let m := freeStr m s.initialPairingUsername
  let m := freeStr m s.friendlyName
  free m s.self

/-- Copying the users, `nm_iam_state.c:258-266`. -/
def copyUsers (m : Mem) (c : List RUser) (failed : Bool) : List RUser → List RUser × Bool × Mem
  | [] => (c, failed, m)
  | u :: l =>
    match userCopy m u with
    | (none, m) => copyUsers m c true l
    | (some x, m) => copyUsers m (c ++ [x]) failed l

/-- `nm_iam_state_copy`, `nm_iam_state.c:209-272`, which is also `nm_iam_dump_state`, `nm_iam.c:143-149`. -/
def stateCopy (m : Mem) (st : RState) : Option RState × Mem :=
  match stateNew m with
  | (none, m) => (none, m)
  | (some c, m) =>
    let (s, f1, m) := copyStr m st.passwordOpenPassword
    let c := { c with passwordOpenPassword := s }
    let (s, f2, m) := copyStr m st.passwordOpenSct
    let c := { c with passwordOpenSct := s }
    let c := { c with
      passwordOpenPairing := st.passwordOpenPairing
      localOpenPairing := st.localOpenPairing
      passwordInvitePairing := st.passwordInvitePairing
      localInitialPairing := st.localInitialPairing }
    let (s, f3, m) := copyStr m st.openPairingRole
    let c := { c with openPairingRole := s }
    let (s, f4, m) := copyStr m st.initialPairingUsername
    let c := { c with initialPairingUsername := s }
    let (s, f5, m) := copyStr m st.friendlyName
    let c := { c with friendlyName := s }
    let (l, f6, m) := copyUsers m c.users false st.users
    let c := { c with users := l }
    if f1 || f2 || f3 || f4 || f5 || f6 then (none, stateFree m c) else (some c, m)

/-- The strings of a state. -/
inductive SField | passwordOpenPassword | passwordOpenSct | openPairingRole | initialPairingUsername | friendlyName
  deriving DecidableEq, Repr

/-- A string of a state. -/
def RState.get (s : RState) : SField → Option Str
  | .passwordOpenPassword => s.passwordOpenPassword
  | .passwordOpenSct => s.passwordOpenSct
  | .openPairingRole => s.openPairingRole
  | .initialPairingUsername => s.initialPairingUsername
  | .friendlyName => s.friendlyName

/-- Writing a string of a state. -/
def RState.put (s : RState) (f : SField) (x : Option Str) : RState :=
  match f with
  | .passwordOpenPassword => { s with passwordOpenPassword := x }
  | .passwordOpenSct => { s with passwordOpenSct := x }
  | .openPairingRole => { s with openPairingRole := x }
  | .initialPairingUsername => { s with initialPairingUsername := x }
  | .friendlyName => { s with friendlyName := x }

/-- `nm_iam_state_set_password_open_password`, `_password_open_sct`, `_initial_pairing_username`, `_friendly_name` and
`_open_pairing_role`, `nm_iam_state.c:42-70` and `92-135`. -/
def setSField (m : Mem) (s : RState) (f : SField) (value : Option String) : Bool × RState × Mem :=
  let (r, x, m) := setStr m (s.get f) value
  (r, s.put f x, m)

/-! ## Loading a state -/

/-- `if (cJSON_IsString(x)) nm_iam_user_set_…(user, x->valuestring)`, for example `nm_iam_from_json.c:65-67`: the answer
of the setter is not looked at. -/
def loadField (m : Mem) (u : RUser) (f : Field) (value : Option String) : RUser × Mem :=
  match value with
  | none => (u, m)
  | some v => let (_, u, m) := setField m u f (some v); (u, m)

/-- The loop over the fingerprints, `nm_iam_from_json.c:79-93`: the answer is not looked at. -/
def loadFps (m : Mem) (u : RUser) : List Doc → RUser × Mem
  | [] => (u, m)
  | item :: l =>
    match fpFromJson item with
    | none => loadFps m u l
    | some f =>
      let (_, u, m) := addFp m u (some f.fingerprint) f.name
      loadFps m u l

/-- The fingerprints, `nm_iam_from_json.c:69-97`. -/
def loadAllFps (m : Mem) (u : RUser) (json : Doc) (version : Int) : RUser × Mem :=
  if version = 1 then
    match asStr (getItem json "Fingerprint") with
    | some fp => let (_, u, m) := setFp m u (some fp); (u, m)
    | none => (u, m)
  else if version = 2 then
    match asArr (getItem json "Fingerprints") with
    | some l => loadFps m u l
    | none => (u, m)
  else (u, m)

/-- The strings of an array. -/
def strings : List Doc → List String
  | [] => []
  | .str s :: l => s :: strings l
  | _ :: l => strings l

/-- The categories, `nm_iam_from_json.c:115-127`: a set on the stack is filled, copied into the user and freed. -/
def loadCategories (m : Mem) (u : RUser) (json : Doc) : RUser × Mem :=
  match asArr (getItem json "NotificationCategories") with
  | none => (u, m)
  | some l =>
    let (cs, m) := insertAll m [] (strings l)
    let (_, u, m) := setCategories m u (cs.map Str.val)
    (u, freeSet m cs)

/-- `nm_iam_user_from_json`, `nm_iam_from_json.c:36-134`. -/
def loadUser (m : Mem) (json : Doc) (version : Int) : Option RUser × Mem :=
  match asStr (getItem json "Username") with
  | none => (none, m)
  | some username =>
    match userNew m username with
    | (none, m) => (none, m)
    | (some u, m) =>
      let fcm := (getItem json "Fcm").filter (fun j => isObj (some j))
      let (u, m) := loadField m u .displayName (asStr (getItem json "DisplayName"))
      let (u, m) := loadAllFps m u json version
      let (u, m) := loadField m u .password (asStr (getItem json "Password"))
      let (u, m) := loadField m u .sct (asStr (getItem json "ServerConnectToken"))
      let (u, m) := loadField m u .role (asStr (getItem json "Role"))
      let (u, m) := loadField m u .fcmToken (asStr (fcm.bind (getItem · "Token")))
      let (u, m) := loadField m u .fcmProjectId (asStr (fcm.bind (getItem · "ProjectId")))
      let (u, m) := loadCategories m u json
      let (u, m) := loadField m u .oauthSubject (asStr (getItem json "OauthSubject"))
      (some u, m)

/-- The loop over the users, `nm_iam_serializer.c:274-281`: a user that could not be made is left out. -/
def loadUsers (m : Mem) (version : Int) (users : List RUser) : List Doc → List RUser × Mem
  | [] => (users, m)
  | item :: l =>
    match loadUser m item version with
    | (none, m) => loadUsers m version users l
    | (some u, m) => loadUsers m version (users ++ [u]) l

/-- The users if there is an array of them, `nm_iam_serializer.c:272-283`. -/
def loadArray (m : Mem) (version : Int) (users : List RUser) : Option (List Doc) → List RUser × Mem
  | none => (users, m)
  | some l => loadUsers m version users l

/-- `if (x != NULL && cJSON_IsString(x)) nm_iam_state_set_…`, for example `nm_iam_serializer.c:237-239`. -/
def loadSField (m : Mem) (s : RState) (f : SField) (value : Option String) : RState × Mem :=
  match value with
  | none => (s, m)
  | some v => let (_, s, m) := setSField m s f (some v); (s, m)

/-- `nm_iam_serializer_state_load_json`, `nm_iam_serializer.c:197-285`, once the text is parsed: what it answers, the
state and the memory. The parsed document is the block that `alloc` gives here; the early return for a version above 2
does not give it back. -/
def loadState (m : Mem) (s : RState) (root : Doc) : Bool × RState × Mem :=
  match alloc m with
  | (none, m) => (false, s, m)
  | (some doc, m) =>
    if !isObj (some root) then (false, s, free m doc)
    else match asNum (getItem root "Version") with
      | none => (false, s, free m doc)
      | some version =>
        if version > 2 then (false, s, m)
        else
          let (s, m) := loadSField m s .passwordOpenPassword (asStr (getItem root "OpenPairingPassword"))
          let (s, m) := loadSField m s .passwordOpenSct (asStr (getItem root "OpenPairingSct"))
          let s := { s with
            localOpenPairing := (asBool (getItem root "LocalOpenPairing")).getD s.localOpenPairing
            passwordOpenPairing := (asBool (getItem root "PasswordOpenPairing")).getD s.passwordOpenPairing
            passwordInvitePairing := (asBool (getItem root "PasswordInvitePairing")).getD s.passwordInvitePairing
            localInitialPairing := (asBool (getItem root "LocalInitialPairing")).getD s.localInitialPairing }
          let (s, m) := loadSField m s .initialPairingUsername (asStr (getItem root "InitialPairingUsername"))
          let (s, m) := loadSField m s .friendlyName (asStr (getItem root "FriendlyName"))
          let (s, m) := loadSField m s .openPairingRole (asStr (getItem root "OpenPairingRole"))
          let (users, m) := loadArray m version s.users (asArr (getItem root "Users"))
          (true, { s with users := users }, free m doc)

end Verif.Iam.Record
