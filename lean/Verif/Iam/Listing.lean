import Verif.Iam.State
import Verif.Cbor.Encoder
import Verif.Json.Cjson

/-!
# IAM resources which are read — model

Transcription of `nm_iam_cbor_encode_user` and of the GET handlers in `/repo/src/modules/iam/coap_handler`, on top of the
tinycbor encoder. Sets are lists in the order in which they are iterated. An encoder function is a function from the encoder
to the encoder after it, or `none` if it returns early.
-/

namespace Verif.Iam.Listing
open Verif.Cbor Verif.Iam

/-- The bytes of a string. -/
abbrev utf8 (s : String) : Bytes := Verif.Json.enc s

/-- `nm_iam_cbor_err_not_oom`, `nm_iam_coap_handler.c:350-352`: the function returns early. -/
def notOom (e : EErr) : Bool := e ≠ .ok && e ≠ .oom

/-- A call whose result is checked with `nm_iam_cbor_err_not_oom`. -/
def checked (r : Enc × EErr) : Option Enc := if notOom r.2 then none else some r.1

/-- `cbor_encode_text_stringz`, `cbor.h:246-247`, checked. -/
def textz (s : String) (e : Enc) : Option Enc := checked (e.text (utf8 s))

/-- A key and a string. -/
def entry (k v : String) (e : Enc) : Option Enc := (textz k e).bind (textz v)

/-- A key and a string if there is one. -/
def optEntry (k : String) (v : Option String) (e : Enc) : Option Enc :=
  match v with
  | none => some e
  | some v => entry k v e

/-- `cbor_encoder_create_map` of indefinite length, the entries, `cbor_encoder_close_container`. -/
def inMap (body : Enc → Option Enc) (e : Enc) : Option Enc :=
  let r := e.createMap none
  if notOom r.2.2 then none else (body r.2.1).bind fun c => checked (r.1.close c)

/-- `cbor_encoder_create_array` of indefinite length, the elements, `cbor_encoder_close_container`. -/
def inArray (body : Enc → Option Enc) (e : Enc) : Option Enc :=
  let r := e.createArray none
  if notOom r.2.2 then none else (body r.2.1).bind fun c => checked (r.1.close c)

/-- A loop over a list. -/
def each {α : Type} (f : α → Enc → Option Enc) : List α → Enc → Option Enc
  | [], e => some e
  | a :: l, e => (f a e).bind (each f l)

/-- The map of a fingerprint, `nm_iam_coap_handler.c:258-279`. -/
def encFp (fp : Fp) : Enc → Option Enc :=
  inMap fun m => (entry "Fingerprint" fp.fingerprint m).bind (optEntry "Name" fp.name)

/-- The map with the FCM settings, `nm_iam_coap_handler.c:298-318`. -/
def encFcm (u : User) : Enc → Option Enc :=
  inMap fun m => (optEntry "Token" u.fcmToken m).bind (optEntry "ProjectId" u.fcmProjectId)

/-- The FCM settings if there are any, `nm_iam_coap_handler.c:295-319`. -/
def fcmEntry (u : User) (m : Enc) : Option Enc :=
  if u.fcmToken.isSome || u.fcmProjectId.isSome then (textz "Fcm" m).bind (encFcm u) else some m

/-- `nm_iam_cbor_encode_user`, `nm_iam_coap_handler.c:220-347`, on an initialised encoder. -/
def encUser (u : User) : Enc → Option Enc :=
  inMap fun m => do
    let m ← entry "Username" u.username m
    let m ← optEntry "DisplayName" u.displayName m
    let m ← optEntry "Role" u.role m
    let m ← textz "Fingerprints" m
    let m ← inArray (each encFp u.fingerprints) m
    let m ← optEntry "Fingerprint" (u.fingerprints.getLast?.map (·.fingerprint)) m
    let m ← optEntry "Sct" u.sct m
    let m ← fcmEntry u m
    let m ← textz "NotificationCategories" m
    let m ← inArray (each textz u.notificationCategories) m
    optEntry "OauthSubject" u.oauthSubject m

/-- A checked boolean. -/
def boolz (b : Bool) (e : Enc) : Option Enc := checked (e.bool b)

/-- `encode_response`, `nm_iam_settings_get.c:20-57`. -/
def encSettings (st : IamState) : Enc → Option Enc :=
  inMap fun m => do
    let m ← textz "PasswordOpenPairing" m
    let m ← boolz st.passwordOpenPairing m
    let m ← textz "PasswordInvitePairing" m
    let m ← boolz st.passwordInvitePairing m
    let m ← textz "LocalOpenPairing" m
    let m ← boolz st.localOpenPairing m
    let m ← optEntry "PasswordOpenSct" st.passwordOpenSct m
    optEntry "PasswordOpenPassword" st.passwordOpenPassword m

/-- The application and the device, `nm_iam_pairing_get.c:65-69`. -/
structure About where
  nabtoVersion : Option String := none
  appVersion : Option String := none
  appName : Option String := none
  productId : Option String := none
  deviceId : Option String := none
  deriving DecidableEq, Repr

/-- `nm_iam_pairing_is_local_open_possible`, `nm_iam_pairing.c:9-25`. -/
def localOpenPossible (E : Env) (iam : Iam) (ci : ConnInfo) (ref : Nat) : Res Bool :=
  if !ci.isLocal then .ok false
  else if !iam.state.localOpenPairing then .ok false
  else match checkAccess E iam ci ref "IAM:PairingLocalOpen" [] with
    | .ub => .ub
    | .ok a => .ok (a && iam.state.openPairingRole.isSome)

/-- `nm_iam_pairing_is_password_invite_possible`, `nm_iam_pairing.c:45-54`. -/
def passwordInvitePossible (E : Env) (iam : Iam) (ci : ConnInfo) (ref : Nat) : Res Bool :=
  match checkAccess E iam ci ref "IAM:PairingPasswordInvite" [] with
  | .ub => .ub
  | .ok a => .ok (a && iam.state.passwordInvitePairing)

/-- The initial user exists and is not paired, `nm_iam_pairing.c:67-75`. -/
def initialUnpaired (st : IamState) : Bool :=
  match findUser st st.initialPairingUsername with
  | none => false
  | some u => !isUserPaired u

/-- `nm_iam_pairing_is_local_initial_possible`, `nm_iam_pairing.c:56-76`. -/
def localInitialPossible (E : Env) (iam : Iam) (ci : ConnInfo) (ref : Nat) : Res Bool :=
  if !ci.isLocal then .ok false
  else match checkAccess E iam ci ref "IAM:PairingLocalInitial" [] with
    | .ub => .ub
    | .ok a =>
      .ok (a && iam.state.localInitialPairing && initialUnpaired iam.state)

/-- The possible modes, in the order of `nm_iam_pairing_get.c:38-56`. -/
def pairingModes (E : Env) (iam : Iam) (ci : ConnInfo) (ref : Nat) : Res (List String) :=
  match passwordOpenPossible E iam ci ref, localOpenPossible E iam ci ref, passwordInvitePossible E iam ci ref,
    localInitialPossible E iam ci ref with
  | .ok a, .ok b, .ok c, .ok d =>
    .ok ((if a then ["PasswordOpen"] else []) ++ (if b then ["LocalOpen"] else []) ++
      (if c then ["PasswordInvite"] else []) ++ (if d then ["LocalInitial"] else []))
  | _, _, _, _ => .ub

/-- `encode_response`, `nm_iam_pairing_get.c:20-118`; the modes are given. -/
def encPairing (modes : List String) (a : About) (friendlyName : Option String) : Enc → Option Enc :=
  inMap fun m => do
    let m ← textz "Modes" m
    let m ← inArray (each textz modes) m
    let m ← optEntry "NabtoVersion" a.nabtoVersion m
    let m ← optEntry "AppVersion" a.appVersion m
    let m ← optEntry "AppName" a.appName m
    let m ← optEntry "ProductId" a.productId m
    let m ← optEntry "DeviceId" a.deviceId m
    optEntry "FriendlyName" friendlyName m

/-- A call whose result must be `CborNoError`, `nm_iam_list_users.c:24-41`. -/
def strict (r : Enc × EErr) : Option Enc := if r.2 ≠ .ok then none else some r.1

/-- `encode_users`, `nm_iam_list_users.c:20-44`, and `encode_roles`, `nm_iam_list_roles.c:18-42`: the names. -/
def encNames (names : List String) (e : Enc) : Option Enc :=
  let r := e.createArray none
  if r.2.2 ≠ .ok then none
  else (each (fun s e => strict (e.text (utf8 s))) names r.2.1).bind fun c => strict (r.1.close c)

/-- `encode_categories`, `nm_iam_get_notification_categories.c:18-30`: the last result is returned as it is. -/
def encCategories (names : List String) (e : Enc) : Enc × EErr :=
  let r := e.createArray none
  if notOom r.2.2 then (r.1, r.2.2)
  else match each textz names r.2.1 with
    | none => (r.1, .tooLarge)
    | some c => r.1.close c

/-- `cbor_encoder_get_extra_bytes_needed` at the end of an encoder function, 0 if it returned early. -/
def extra : Option Enc → Nat
  | none => 0
  | some e => e.extra

/-- What a client gets. `nothing`: the handler returns without answering (and without freeing the request). `broken`: the
payload is what is left in the buffer by a function which returned early. -/
inductive Reply
  | error (code : Nat)
  | content (payload : Bytes)
  | nothing
  | broken
  | ub
  deriving DecidableEq, Repr

/-- The allocation of the payload: `calloc(1, 0)` can be `NULL` as well. `setOk`: the payload is copied. -/
structure Mem where
  alloc : Nat → Bool
  setOk : Bool

/-- The buffer after the writing pass; it has been filled with zeros. -/
def payload (size : Nat) : Buf → Option Bytes
  | .room out left => some (out ++ List.replicate left 0)
  | .over out _ => some (out ++ List.replicate (size - out.length) 0)
  | .ub => none

/-- The response with the content of the buffer, e.g. `nm_iam_get_user.c:57-66`. -/
def respond (mem : Mem) (size : Nat) (r : Option Enc) : Reply :=
  match r with
  | none => .broken
  | some e =>
    match payload size e.buf with
    | none => .ub
    | some p => if mem.setOk then .content p else .error 500

/-- Measuring and writing, e.g. `nm_iam_get_user.c:47-66`. The two passes can see different things (`nm_iam_pairing_get.c`
asks the device about the connection in each). `onNull` is the answer if the payload cannot be allocated. -/
def twoPass (mem : Mem) (onNull : Reply) (measure write : Enc → Option Enc) : Reply :=
  let size := extra (measure (Enc.init none))
  if !mem.alloc size then onNull else respond mem size (write (Enc.init (some size)))

/-- `nm_iam_internal_check_access` and the answer 403, e.g. `nm_iam_list_users.c:48-51`. -/
def guarded (E : Env) (iam : Iam) (ci : ConnInfo) (ref : Nat) (action : String) (attrs : Attrs) (k : Reply) : Reply :=
  match checkAccess E iam ci ref action attrs with
  | .ub => .ub
  | .ok false => .error 403
  | .ok true => k

/-- `nm_iam_get_user.c:20-68`. `nn_string_map_insert` succeeds. -/
def getUser (E : Env) (iam : Iam) (ci : ConnInfo) (ref : Nat) (mem : Mem) (username : String) : Reply :=
  guarded E iam ci ref "IAM:GetUser" (E.ins [] "IAM:Username" username) <|
    match findUser iam.state (some username) with
    | none => .error 404
    | some u => twoPass mem (.error 500) (encUser u) (encUser u)

/-- `nm_iam_get_me.c:18-73`. -/
def getMe (iam : Iam) (ci : ConnInfo) (ref : Nat) (mem : Mem) : Reply :=
  match actingUser iam ci ref with
  | .ub => .ub
  | .ok none => .error 404
  | .ok (some u) => twoPass mem .nothing (encUser u) (encUser u)

/-- `nm_iam_settings_get.c:60-88`. -/
def getSettings (E : Env) (iam : Iam) (ci : ConnInfo) (ref : Nat) (mem : Mem) : Reply :=
  guarded E iam ci ref "IAM:GetSettings" [] <| twoPass mem .nothing (encSettings iam.state) (encSettings iam.state)

/-- `nm_iam_pairing_get.c:121-149`; `ci1` and `ci2` are what the device answers about the connection in the two passes. -/
def getPairing (E : Env) (iam : Iam) (ci ci1 ci2 : ConnInfo) (ref : Nat) (mem : Mem) (a : About) : Reply :=
  guarded E iam ci ref "IAM:GetPairing" [] <|
    match pairingModes E iam ci1 ref, pairingModes E iam ci2 ref with
    | .ok m1, .ok m2 =>
      twoPass mem .nothing (encPairing m1 a iam.state.friendlyName) (encPairing m2 a iam.state.friendlyName)
    | _, _ => .ub

/-- `nm_iam_list_users.c:46-70`: the result of the writing pass is ignored. -/
def listUsers (E : Env) (iam : Iam) (ci : ConnInfo) (ref : Nat) (mem : Mem) : Reply :=
  guarded E iam ci ref "IAM:ListUsers" [] <|
    let names := iam.state.users.map (·.username)
    let size := extra (encNames names (Enc.init none))
    if !mem.alloc size then .nothing
    else match encNames names (Enc.init (some size)) with
      | none => if mem.setOk then (if size = 0 then .content [] else .broken) else .error 500
      | some e => respond mem size (some e)

/-- `nm_iam_list_roles.c:44-77`. -/
def listRoles (E : Env) (iam : Iam) (ci : ConnInfo) (ref : Nat) (mem : Mem) : Reply :=
  guarded E iam ci ref "IAM:ListRoles" [] <|
    let names := iam.conf.roles.map (·.id)
    let size := extra (encNames names (Enc.init none))
    if size = 0 then .error 500
    else if !mem.alloc size then .error 500
    else
      let r := encNames names (Enc.init (some size))
      if extra r = 0 then .error 500 else respond mem size r

/-- `nm_iam_get_notification_categories.c:32-77`. -/
def getCategories (E : Env) (iam : Iam) (ci : ConnInfo) (ref : Nat) (mem : Mem) : Reply :=
  guarded E iam ci ref "IAM:ListNotificationCategories" [] <|
    let r := encCategories iam.categories (Enc.init none)
    if r.2 ≠ .oom then .error 500
    else if !mem.alloc r.1.extra then .error 500
    else
      let w := encCategories iam.categories (Enc.init (some r.1.extra))
      if w.2 ≠ .ok then .error 500 else respond mem r.1.extra (some w.1)

end Verif.Iam.Listing
