import Verif.Iam.Policy

/-!
# IAM state, users and access check — model

Transcription of `/repo/src/modules/iam/nm_iam_user.c`, `nm_iam_state.c`, `nm_iam_internal.c`,
`nm_iam.c` (API), `nm_iam_pairing.c`, `nm_iam_connection_events.c`, `nm_iam_pake_handler.c`.

Simplifications:
* Every public function takes the module's mutex for its whole body, so an operation is one atomic step.
* A heap object has an identity (`addr`) that is never reused; using the identity of a freed object is the
  outcome `ub`. (The C allocator may reuse addresses; in C that is undefined behaviour as well.)
* Allocations succeed, except the one made by a user setter on behalf of a CoAP request (`Dev.allocOk`)
  and the device calls that create and register server connect tokens (`Dev.newSct`, `Dev.addSctOk`).
* `nn_string_set` is a list without order assumptions, `nn_vector` a list.
-/

namespace Verif.Iam

/-- A computation that may run into undefined behaviour. -/
inductive Res (α : Type) | ok (a : α) | ub
  deriving DecidableEq, Repr

/-- `strlen`. -/
def strlen (s : String) : Nat := s.utf8ByteSize

/-- `struct nm_iam_user_fingerprint`, `nm_iam_state.h:11-15`. -/
structure Fp where
  fingerprint : String
  name : Option String := none
  deriving DecidableEq, Repr

/-- `struct nm_iam_user`, `nm_iam_state.h:17-30`; `addr` is the identity of the heap object. -/
structure User where
  addr : Nat
  username : String
  displayName : Option String := none
  role : Option String := none
  password : Option String := none
  sct : Option String := none
  fcmToken : Option String := none
  fcmProjectId : Option String := none
  notificationCategories : List String := []
  oauthSubject : Option String := none
  fingerprints : List Fp := []
  deriving DecidableEq, Repr

/-- `struct nm_iam_state`, `nm_iam_state.h:32-43`. -/
structure IamState where
  users : List User := []
  passwordOpenPassword : Option String := none
  passwordOpenSct : Option String := none
  passwordOpenPairing : Bool := false
  localOpenPairing : Bool := false
  passwordInvitePairing : Bool := false
  localInitialPairing : Bool := false
  openPairingRole : Option String := none
  initialPairingUsername : Option String := none
  friendlyName : Option String := none
  deriving DecidableEq, Repr

/-- The limits in `struct nm_iam` with the defaults of `nm_iam_init`, `nm_iam.c:36-45`
(`SIZE_MAX` of a 64 bit machine). -/
structure Limits where
  usernameMax : Nat := 64
  displayNameMax : Nat := 64
  passwordMin : Nat := 4
  passwordMax : Nat := 64
  fcmTokenMax : Nat := 1024
  fcmProjectIdMax : Nat := 256
  oauthSubjectMax : Nat := 64
  sctMax : Nat := 64
  maxUsers : Nat := 18446744073709551615
  friendlyNameMax : Nat := 64
  deriving DecidableEq, Repr

/-- `struct nm_iam` (the parts that matter), `nm_iam.h`. `nextAddr` is the next unused object identity.
`due` counts the threads that have released the mutex and will call `nm_iam_internal_do_callbacks`;
`persisted` is the state the application saw in the last state-changed callback (it dumps the state
there, as the header tells it to). -/
structure Iam where
  conf : Config := ⟨[], [], none⟩
  state : IamState := {}
  limits : Limits := {}
  categories : List String := []
  authorized : List (Nat × Nat) := []
  changed : Bool := false
  nextAddr : Nat := 0
  due : Nat := 0
  persisted : IamState := {}
  deriving DecidableEq, Repr

/-- What the device API answers about a connection at one moment
(`nabto_device_connection_get_client_fingerprint`, `_is_virtual`, `_is_local`,
`_is_password_authenticated`, `_get_password_authentication_username`). `fpOk` is the error code of the
first, `pwUser = none` means the last failed. -/
structure ConnInfo where
  fpOk : Bool := true
  fingerprint : Option String := none
  isVirtual : Bool := false
  isLocal : Bool := false
  pwAuth : Bool := false
  pwUser : Option String := none
  deriving DecidableEq, Repr

/-- The fixed environment: numeric comparison and the behaviour of `nn_string_map_insert`
(not in the repository). -/
structure Env where
  N : NumSem
  ins : Attrs → String → String → Attrs

/-! ## Lookup -/

/-- `nm_iam_user_validate_username`, `nm_iam_user.c:8-26`. -/
def validateUsername (s : String) : Bool :=
  s.toList ≠ [] &&
  s.toList.all (fun c => ('a' ≤ c && c ≤ 'z') || ('0' ≤ c && c ≤ '9') || c = '_' || c = '.' || c = '-')

/-- `nm_iam_state_find_user_by_username`, `nm_iam_state.c:275-287`. -/
def findUser (st : IamState) (username : Option String) : Option User :=
  match username with
  | none => none
  | some n => st.users.find? (fun u => u.username == n)

/-- `nm_iam_internal_find_user_by_fingerprint`, `nm_iam_internal.c:118-133`. -/
def findUserByFp (st : IamState) (fp : Option String) : Option User :=
  match fp with
  | none => none
  | some f => st.users.find? (fun u => u.fingerprints.any (fun x => x.fingerprint == f))

/-- Dereferencing a `struct nm_iam_user*`: `none` if the object was freed. -/
def deref (st : IamState) (addr : Nat) : Option User := st.users.find? (fun u => u.addr == addr)

/-! ## Access check -/

/-- Building the attribute map, `nm_iam_internal.c:22-36`. -/
def baseAttrs (E : Env) (ci : ConnInfo) (attributesIn : Attrs) : Attrs :=
  let copy := attributesIn.foldl (fun m kv => E.ins m kv.1 kv.2) []
  E.ins copy "Connection:IsLocal" (if ci.isLocal then "true" else "false")

/-- The user a connection acts as, `nm_iam_internal.c:38-65` (same code in `nm_iam_get_me.c:20-43`). -/
def actingUser (iam : Iam) (ci : ConnInfo) (ref : Nat) : Res (Option User) :=
  match findUserByFp iam.state ci.fingerprint with
  | some u => .ok (some u)
  | none =>
    match (if ci.pwAuth then findUser iam.state ci.pwUser else none) with
    | some u => .ok (some u)
    | none =>
      match iam.authorized.find? (fun c => c.1 == ref) with
      | none => .ok none
      | some c =>
        match deref iam.state c.2 with
        | some u => .ok (some u)
        | none => .ub

/-- `nm_iam_internal_check_access`, `nm_iam_internal.c:13-95`. -/
def checkAccess (E : Env) (iam : Iam) (ci : ConnInfo) (ref : Nat) (action : String)
    (attributesIn : Attrs) : Res Bool :=
  if !ci.fpOk && !ci.isVirtual then .ok false
  else
    match actingUser iam ci ref with
    | .ub => .ub
    | .ok user =>
      let attrs := baseAttrs E ci attributesIn
      let (attrs, roleStr) :=
        match user with
        | some u => (E.ins attrs "Connection:Username" u.username, u.role)
        | none => (attrs, iam.conf.unpairedRole)
      match findRole iam.conf roleStr with
      | none => .ok false
      | some role => .ok (checkAccessRole E.N iam.conf role action attrs == .allow)

/-! ## User setters (`nm_iam_user.c`) -/

/-- `nm_iam_user_set_fingerprint`, `nm_iam_user.c:76-98`; `none` is the result `false`. -/
def userSetFingerprint (u : User) (fp : Option String) : Option User :=
  match fp, u.fingerprints with
  | none, _ :: rest => some { u with fingerprints := rest }
  | none, [] => none
  | some f, [] => some { u with fingerprints := [⟨f, none⟩] }
  | some f, x :: rest => some { u with fingerprints := { x with fingerprint := f } :: rest }

/-- `nm_iam_user_add_fingerprint`, `nm_iam_user.c:100-124`. -/
def userAddFingerprint (u : User) (fp : Option String) (name : Option String) : Option User :=
  match fp with
  | none => none
  | some f => some { u with fingerprints := u.fingerprints ++ [⟨f, name⟩] }

/-- `nm_iam_user_remove_fingerprint`, `nm_iam_user.c:126-145`. -/
def userRemoveFingerprint (u : User) (fp : String) : Option User :=
  if u.fingerprints.any (fun x => x.fingerprint == fp) then
    some { u with fingerprints := u.fingerprints.eraseP (fun x => x.fingerprint == fp) }
  else none

/-! ## Primitive updates of the module -/

/-- `nm_iam_internal_state_has_changed`, `nm_iam_internal.c:270-273`. -/
def hasChanged (iam : Iam) : Iam := { iam with changed := true }

/-- In-place update of the object `addr` (a write through the pointer returned by a find function). -/
def updUser (iam : Iam) (addr : Nat) (f : User → User) : Iam :=
  { iam with state := { iam.state with
      users := iam.state.users.map (fun u => if u.addr = addr then f u else u) } }

/-- `nm_iam_user_new` followed by the caller's initialisation: a new object. The `addr` of `u` is
replaced by a fresh identity. -/
def allocUser (iam : Iam) (u : User) : Iam × User :=
  ({ iam with nextAddr := iam.nextAddr + 1 }, { u with addr := iam.nextAddr })

/-- `nm_iam_internal_add_user`, `nm_iam_internal.c:216-229`; `none` is the result `false`. -/
def addUser (iam : Iam) (addSctOk : Bool) (u : User) : Option Iam :=
  if u.sct.isSome && !addSctOk then none
  else some (hasChanged { iam with state := { iam.state with users := iam.state.users ++ [u] } })

/-- Removing the first user with this name and freeing it, `nm_iam_internal.c:793-805`. -/
def eraseUser (iam : Iam) (addr : Nat) : Iam :=
  { iam with state := { iam.state with users := iam.state.users.filter (fun u => u.addr != addr) } }

/-- `enum nm_iam_error`, `nm_iam.h`. -/
inductive Err
  | ok | noSuchUser | noSuchRole | userExists | internal | invalidArgument | noSuchCategory
  deriving DecidableEq, Repr

/-- The device calls made during one operation: `ci` what the device answers about the connection during
the access check, `ci2` what it answers afterwards (the connection may have changed or gone in between),
`newSct` the result of `nabto_device_create_server_connect_token`, `addSctOk` whether
`nabto_device_add_server_connect_token` succeeds, `allocOk` whether the allocations of a user or state
setter succeed, `respOk` whether building the response payload succeeds. -/
structure Dev where
  ci : ConnInfo := {}
  ci2 : ConnInfo := {}
  newSct : Option String := none
  addSctOk : Bool := true
  allocOk : Bool := true
  respOk : Bool := true
  deriving DecidableEq, Repr

/-- `nm_iam_internal_pair_new_client`, `nm_iam_internal.c:170-214`. -/
def pairNewClient (iam : Iam) (d : Dev) (username fingerprint fpName : Option String) : Iam × Err :=
  match username, fingerprint with
  | some name, some fp =>
    if !validateUsername name || strlen name > iam.limits.usernameMax then (iam, .invalidArgument)
    else
      match findUser iam.state (some name), findUserByFp iam.state (some fp) with
      | none, none =>
        match iam.state.openPairingRole, d.newSct with
        | some role, some sct =>
          if strlen sct > iam.limits.sctMax then (iam, .internal)
          else
            let (iam', user) := allocUser iam
              { addr := 0, username := name, role := some role, fingerprints := [⟨fp, fpName⟩],
                sct := some sct }
            match addUser iam' d.addSctOk user with
            | none => (iam', .internal)
            | some iam'' => (iam'', .ok)
        | _, _ => (iam, .internal)
      | some a, some b => if a.addr = b.addr then (iam, .ok) else (iam, .userExists)
      | _, _ => (iam, .userExists)
  | _, _ => (iam, .invalidArgument)

/-! ## Loading -/

/-- `check_length`, `nm_iam_internal.c:343-352`. -/
def checkLength (lo hi : Nat) (s : Option String) : Bool :=
  match s with
  | none => true
  | some s => !(strlen s < lo || strlen s > hi)

/-- The body of the user loop of `validate_state`, `nm_iam_internal.c:372-402`, with
`validate_user_fingerprints`, `nm_iam_internal.c:326-334`. -/
def validateUser (l : Limits) (categories : List String) (u : User) : Bool :=
  !(strlen u.username > l.usernameMax) &&
  checkLength 0 l.displayNameMax u.displayName &&
  checkLength l.passwordMin l.passwordMax u.password &&
  u.fingerprints.all (fun f => strlen f.fingerprint == 64) &&
  checkLength 0 l.sctMax u.sct &&
  checkLength 0 l.fcmTokenMax u.fcmToken &&
  checkLength 0 l.fcmProjectIdMax u.fcmProjectId &&
  checkLength 0 l.oauthSubjectMax u.oauthSubject &&
  u.notificationCategories.all (fun c => categories.contains c)

/-- `validate_state`, `nm_iam_internal.c:354-404`. -/
def validateState (l : Limits) (categories : List String) (st : IamState) : Bool :=
  !(st.users.length > l.maxUsers) &&
  checkLength l.passwordMin l.passwordMax st.passwordOpenPassword &&
  checkLength 0 l.sctMax st.passwordOpenSct &&
  checkLength 0 l.usernameMax st.initialPairingUsername &&
  checkLength 0 l.friendlyNameMax st.friendlyName &&
  st.users.all (validateUser l categories)

/-- Give every user of a list a fresh identity starting at `n`. -/
def freshen : Nat → List User → List User
  | _, [] => []
  | n, u :: us => { u with addr := n } :: freshen (n + 1) us

/-- `nm_iam_internal_load_state`, `nm_iam_internal.c:406-438`, when registering the tokens and the
friendly name succeeds (`devOk`); the old users are freed, the new ones are new objects. -/
def loadState (iam : Iam) (devOk : Bool) (st : IamState) : Iam × Bool :=
  if !validateState iam.limits iam.categories st || !devOk then (iam, false)
  else
    ({ iam with
        state := { st with users := freshen iam.nextAddr st.users },
        nextAddr := iam.nextAddr + st.users.length }, true)

/-- `nm_iam_internal_load_configuration`, `nm_iam_internal.c:295-324`. -/
def loadConfiguration (iam : Iam) (conf : Config) : Iam × Bool :=
  if conf.unpairedRole.isSome && (findRole conf conf.unpairedRole).isNone then (iam, false)
  else ({ iam with conf := conf }, true)

/-! ## API functions (`nm_iam.c:259-389`, bodies in `nm_iam_internal.c:555-817`) -/

/-- The application's calls. -/
inductive ApiOp
  | createUser (username : String)
  | setUserFingerprint (username fp : String)
  | addUserFingerprint (username fp : String) (name : Option String)
  | removeUserFingerprint (username fp : String)
  | setUserSct (username sct : String)
  | setUserPassword (username password : String)
  | setUserRole (username role : String)
  | setUserDisplayName (username name : String)
  | setUserFcmToken (username token : String)
  | setUserFcmProjectId (username id : String)
  | setUserNotificationCategories (username : String) (categories : List String)
  | setUserOauthSubject (username subject : String)
  | deleteUser (username : String)
  | authorizeConnection (ref : Nat) (username : String)
  | setLocalOpenPairing (b : Bool)
  | setPasswordOpenPairing (b : Bool)
  | setPasswordInvitePairing (b : Bool)
  | setLocalInitialPairing (b : Bool)
  | loadState (devOk : Bool) (st : IamState)
  | loadConfiguration (conf : Config)
  | setNotificationCategories (categories : List String)
  | setLimits (limits : Limits)
  deriving DecidableEq, Repr

/-- Find the user and apply a setter that cannot fail, as `nm_iam_internal_set_user_*` do. -/
def setField (iam : Iam) (username : String) (f : User → User) : Iam × Err :=
  match findUser iam.state (some username) with
  | none => (iam, .noSuchUser)
  | some u => (hasChanged (updUser iam u.addr f), .ok)

/-- `nm_iam_internal_create_user`, `nm_iam_internal.c:555-585`. The result of adding is ignored. -/
def createUser (iam : Iam) (d : Dev) (username : String) : Iam × Err :=
  if strlen username > iam.limits.usernameMax || !validateUsername username then (iam, .invalidArgument)
  else if iam.state.users.length ≥ iam.limits.maxUsers then (iam, .internal)
  else if (findUser iam.state (some username)).isSome then (iam, .userExists)
  else
    match d.newSct with
    | none => (iam, .internal)
    | some sct =>
      let (iam', user) := allocUser iam { addr := 0, username := username, sct := some sct }
      match addUser iam' d.addSctOk user with
      | none => (iam', .ok)
      | some iam'' => (iam'', .ok)

/-- `nm_iam_internal_set_user_fingerprint`, `nm_iam_internal.c:587-605`. -/
def setUserFingerprint (iam : Iam) (username fp : String) : Iam × Err :=
  if strlen fp ≠ 64 then (iam, .invalidArgument)
  else
    match findUser iam.state (some username) with
    | none => (iam, .noSuchUser)
    | some u =>
      match userSetFingerprint u (some fp) with
      | none => (hasChanged iam, .internal)
      | some u' => (hasChanged (updUser iam u.addr (fun _ => u')), .ok)

/-- `nm_iam_internal_add_user_fingerprint`, `nm_iam_internal.c:607-625`. `strlen(NULL)` is undefined. -/
def addUserFingerprint (iam : Iam) (username fp : String) (name : Option String) : Res (Iam × Err) :=
  if strlen fp ≠ 64 then .ok (iam, .invalidArgument)
  else
    match name with
    | none => .ub
    | some n =>
      if strlen n > iam.limits.displayNameMax then .ok (iam, .invalidArgument)
      else
        match findUser iam.state (some username) with
        | none => .ok (iam, .noSuchUser)
        | some u =>
          match userAddFingerprint u (some fp) (some n) with
          | none => .ok (hasChanged iam, .internal)
          | some u' => .ok (hasChanged (updUser iam u.addr (fun _ => u')), .ok)

/-- `nm_iam_internal_remove_user_fingerprint`, `nm_iam_internal.c:627-641`. -/
def removeUserFingerprint (iam : Iam) (username fp : String) : Iam × Err :=
  match findUser iam.state (some username) with
  | none => (iam, .noSuchUser)
  | some u =>
    match userRemoveFingerprint u fp with
    | none => (hasChanged iam, .internal)
    | some u' => (hasChanged (updUser iam u.addr (fun _ => u')), .ok)

/-- `nm_iam_internal_set_user_role`, `nm_iam_internal.c:679-697`. -/
def setUserRole (iam : Iam) (username role : String) : Iam × Err :=
  match findUser iam.state (some username) with
  | none => (iam, .noSuchUser)
  | some u =>
    match findRole iam.conf (some role) with
    | none => (iam, .noSuchRole)
    | some _ => (hasChanged (updUser iam u.addr (fun u => { u with role := some role })), .ok)

/-- `nm_iam_user_set_notification_categories`, `nm_iam_user.c:193-201`: a set insert per category. -/
def categorySet (cs : List String) : List String :=
  cs.foldl (fun acc c => if acc.contains c then acc else acc ++ [c]) []

/-- `nm_iam_internal_set_user_notification_categories`, `nm_iam_internal.c:753-773`. -/
def setUserCategories (iam : Iam) (username : String) (cs : List String) : Iam × Err :=
  match findUser iam.state (some username) with
  | none => (iam, .noSuchUser)
  | some u =>
    if cs.all (fun c => iam.categories.contains c) then
      (hasChanged (updUser iam u.addr (fun u => { u with notificationCategories := categorySet cs })), .ok)
    else (iam, .noSuchCategory)

/-- `nm_iam_internal_delete_user`, `nm_iam_internal.c:793-805`: the authorised connections keep their
pointer. -/
def deleteUser (iam : Iam) (username : String) : Iam × Err :=
  match findUser iam.state (some username) with
  | none => (iam, .noSuchUser)
  | some u => (hasChanged (eraseUser iam u.addr), .ok)

/-- `nm_iam_internal_authorize_connection`, `nm_iam_internal.c:807-817`. -/
def authorizeConnection (iam : Iam) (ref : Nat) (username : String) : Iam × Err :=
  match findUser iam.state (some username) with
  | none => (iam, .noSuchUser)
  | some u => ({ iam with authorized := iam.authorized ++ [(ref, u.addr)] }, .ok)

/-- Change the pairing flags and schedule the callback, `nm_iam.c:223-257`. -/
def setMode (iam : Iam) (f : IamState → IamState) : Iam :=
  let iam := hasChanged { iam with state := f iam.state }
  { iam with due := iam.due + 1 }

/-- All API functions. -/
def api (iam : Iam) (d : Dev) : ApiOp → Res (Iam × Err)
  | .createUser u => .ok (createUser iam d u)
  | .setUserFingerprint u fp => .ok (setUserFingerprint iam u fp)
  | .addUserFingerprint u fp n => addUserFingerprint iam u fp n
  | .removeUserFingerprint u fp => .ok (removeUserFingerprint iam u fp)
  -- nm_iam_internal_set_user_sct, nm_iam_internal.c:643-659
  | .setUserSct u sct => .ok (
      if strlen sct > iam.limits.sctMax then (iam, .invalidArgument)
      else setField iam u (fun x => { x with sct := some sct }))
  -- nm_iam_internal_set_user_password, nm_iam_internal.c:661-677
  | .setUserPassword u p => .ok (
      if strlen p > iam.limits.passwordMax || strlen p < iam.limits.passwordMin then (iam, .invalidArgument)
      else setField iam u (fun x => { x with password := some p }))
  | .setUserRole u r => .ok (setUserRole iam u r)
  -- nm_iam_internal_set_user_display_name, nm_iam_internal.c:699-715
  | .setUserDisplayName u n => .ok (
      if strlen n > iam.limits.displayNameMax then (iam, .invalidArgument)
      else setField iam u (fun x => { x with displayName := some n }))
  -- nm_iam_internal_set_user_fcm_token, nm_iam_internal.c:717-733
  | .setUserFcmToken u t => .ok (
      if strlen t > iam.limits.fcmTokenMax then (iam, .invalidArgument)
      else setField iam u (fun x => { x with fcmToken := some t }))
  -- nm_iam_internal_set_user_fcm_project_id, nm_iam_internal.c:735-751
  | .setUserFcmProjectId u i => .ok (
      if strlen i > iam.limits.fcmProjectIdMax then (iam, .invalidArgument)
      else setField iam u (fun x => { x with fcmProjectId := some i }))
  | .setUserNotificationCategories u cs => .ok (setUserCategories iam u cs)
  -- nm_iam_internal_set_user_oauth_subject, nm_iam_internal.c:775-791
  | .setUserOauthSubject u s => .ok (
      if strlen s > iam.limits.oauthSubjectMax then (iam, .invalidArgument)
      else setField iam u (fun x => { x with oauthSubject := some s }))
  | .deleteUser u => .ok (deleteUser iam u)
  | .authorizeConnection ref u => .ok (authorizeConnection iam ref u)
  | .setLocalOpenPairing b => .ok (setMode iam (fun s => { s with localOpenPairing := b }), .ok)
  | .setPasswordOpenPairing b => .ok (setMode iam (fun s => { s with passwordOpenPairing := b }), .ok)
  | .setPasswordInvitePairing b => .ok (setMode iam (fun s => { s with passwordInvitePairing := b }), .ok)
  | .setLocalInitialPairing b => .ok (setMode iam (fun s => { s with localInitialPairing := b }), .ok)
  | .loadState devOk st =>
      let r := loadState iam devOk st
      .ok (r.1, if r.2 then .ok else .internal)
  | .loadConfiguration c =>
      let r := loadConfiguration iam c
      .ok (r.1, if r.2 then .ok else .internal)
  -- nm_iam_set_notification_categories, nm_iam.c:151-165
  | .setNotificationCategories cs => .ok ({ iam with categories := cs }, .ok)
  -- nm_iam_set_*_length, nm_iam_set_max_users, nm_iam.c:167-218
  | .setLimits l => .ok ({ iam with limits := l }, .ok)

/-! ## Connection events, callbacks, password requests -/

/-- `request_callback` for a closed connection, `nm_iam_connection_events.c:58-73`: the first entry for
the connection is erased. -/
def connectionClosed (iam : Iam) (ref : Nat) : Iam :=
  { iam with authorized := iam.authorized.eraseP (fun c => c.1 == ref) }

/-- `nm_iam_internal_do_callbacks`, `nm_iam_internal.c:275-291`, executed by a thread counted in `due`;
a callback is registered and dumps the state. -/
def doCallbacks (iam : Iam) : Iam :=
  if iam.due = 0 then iam
  else
    let iam := { iam with due := iam.due - 1 }
    if iam.changed then { iam with changed := false, persisted := iam.state } else iam

/-- `handle_request` of the password authentication handler, `nm_iam_pake_handler.c:66-89`: the password
the peer must prove for this username, `none` if the request is left unanswered (which the device answers
with a random password). -/
def pakePassword (st : IamState) (username : String) : Option String :=
  if username = "" then
    if st.passwordOpenPairing then st.passwordOpenPassword else none
  else
    match findUser st (some username) with
    | some u => u.password
    | none => none

/-! ## Pairing modes (`nm_iam_pairing.c`) -/

/-- `nm_iam_pairing_is_user_paired`, `nm_iam_pairing.c:92-98`. -/
def isUserPaired (u : User) : Bool := !u.fingerprints.isEmpty || u.oauthSubject.isSome

/-- `nm_iam_pairing_is_password_open_possible`, `nm_iam_pairing.c:27-43`. -/
def passwordOpenPossible (E : Env) (iam : Iam) (ci : ConnInfo) (ref : Nat) : Res Bool :=
  match checkAccess E iam ci ref "IAM:PairingPasswordOpen" [] with
  | .ub => .ub
  | .ok a => .ok (a && iam.state.passwordOpenPairing && iam.state.passwordOpenPassword.isSome &&
      iam.state.openPairingRole.isSome)

end Verif.Iam
