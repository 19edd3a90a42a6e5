import Verif.Iam.State

/-!
# IAM CoAP handlers — model

Transcription of the state changing handlers in `/repo/src/modules/iam/coap_handler/`.
Every handler runs with the module's mutex held (`nm_iam_coap_handler.c:71-90`), so a request is one
step. Simplifications:
* The CBOR payload is an abstract value; a payload tinycbor cannot parse is `Payload.malformed`, a
  malformed or unexpected inner item is `CV.other`.
* Path parameters are present (the CoAP server only calls the handler when the path matches).
* `nn_string_set_insert` succeeds.
* Response texts are not modelled, only response codes.
-/

namespace Verif.Iam

/-- A decoded CBOR item as far as the handlers look at it. -/
inductive CV
  | text (s : String)
  | null
  | bool (b : Bool)
  | array (vs : List CV)
  | map (kvs : List (String × CV))
  | other
  deriving Repr

/-- The payload of a request as seen by `nm_iam_cbor_init_parser`, `nm_iam_coap_handler.c:109-129`. -/
inductive Payload
  | notCbor | missing | malformed
  | value (v : CV)
  deriving Repr

/-- The C string held by a buffer: everything before the first NUL. -/
def cstr (s : String) : String := String.ofList (s.toList.takeWhile (fun c => c ≠ '\x00'))

/-- `nm_iam_cbor_decode_string`, `nm_iam_coap_handler.c:146-171`: `none` is the result `false`,
`some none` a NULL string. -/
def decodeString : CV → Option (Option String)
  | .text s => if strlen s < 1024 then some (some (cstr s)) else none
  | .null => some none
  | _ => none

/-- `nm_iam_cbor_decode_string_set`, `nm_iam_coap_handler.c:173-195`. A `null` item is inserted as a NULL
pointer in a string set, which is undefined. -/
def decodeItems : List CV → Res (Option (List String))
  | [] => .ok (some [])
  | v :: vs =>
    match decodeString v with
    | none => .ok none
    | some none => .ub
    | some (some s) =>
      match decodeItems vs with
      | .ub => .ub
      | .ok none => .ok none
      | .ok (some ss) => .ok (some (s :: ss))

def decodeStringSet : CV → Res (Option (List String))
  | .array vs => decodeItems vs
  | _ => .ok none

/-- `nm_iam_cbor_decode_bool`, `nm_iam_coap_handler.c:197-206`. -/
def decodeBool : CV → Option Bool
  | .bool b => some b
  | _ => none

/-- `nm_iam_cbor_decode_kv_string`, `nm_iam_coap_handler.c:208-218`. `cbor_value_map_find_value` gives an
invalid item when the key is absent, which does not decode. -/
def decodeKv (v : CV) (key : String) : Option (Option String) :=
  match v with
  | .map kvs =>
    match kvs.lookup key with
    | some x => decodeString x
    | none => none
  | _ => none

/-- A request on one of the state changing resources. -/
inductive Req
  | createUser (p : Payload)
  | deleteUser (user : String)
  | setRole (user : String) (p : Payload)
  | setUsername (user : String) (p : Payload)
  | setDisplayName (user : String) (p : Payload)
  | setFingerprint (user : String) (p : Payload)
  | addFingerprint (user fp : String) (p : Payload)
  | deleteFingerprint (user fp : String)
  | setSct (user : String) (p : Payload)
  | setPassword (user : String) (p : Payload)
  | setFcm (user : String) (p : Payload)
  | setCategories (user : String) (p : Payload)
  | setOauthSubject (user : String) (p : Payload)
  | setSettings (key : String) (p : Payload)
  | setDeviceInfo (key : String) (p : Payload)
  | pairLocalInitial (p : Payload)
  | pairLocalOpen (p : Payload)
  | pairPasswordInvite (p : Payload)
  | pairPasswordOpen (p : Payload)
  deriving Repr

/-- The outcome of a handler: new module state and response code, or undefined behaviour. -/
inductive HRes | done (iam : Iam) (code : Nat) | ub
  deriving Repr

/-- `if (!nm_iam_internal_check_access(...)) { 403 }` followed by the rest of the handler. -/
def withAccess (E : Env) (iam : Iam) (d : Dev) (ref : Nat) (action : String) (attrs : Attrs)
    (k : HRes) : HRes :=
  match checkAccess E iam d.ci ref action attrs with
  | .ub => .ub
  | .ok false => .done iam 403
  | .ok true => k

/-- Initialise the parser or answer 400 (`nm_iam_cbor_send_error_response`,
`nm_iam_coap_handler.c:131-143`; the first of the several error responses counts, all are 400). -/
def withPayload (iam : Iam) (p : Payload) (k : CV → HRes) : HRes :=
  match p with
  | .value v => k v
  | _ => .done iam 400

/-- `nm_iam_create_user.c:20-108`. Validating a NULL username dereferences NULL. -/
def hCreateUser (E : Env) (iam : Iam) (d : Dev) (ref : Nat) (p : Payload) : HRes :=
  withAccess E iam d ref "IAM:CreateUser" [] <|
  if iam.state.users.length ≥ iam.limits.maxUsers then .done iam 500
  else withPayload iam p fun v =>
    match decodeKv v "Username" with
    | none => .done iam 400
    | some none => .ub
    | some (some username) =>
      if !validateUsername username then .done iam 400
      else if strlen username > iam.limits.usernameMax then .done iam 400
      else if (findUser iam.state (some username)).isSome then .done iam 409
      else
        match d.newSct with
        | none => .done iam 500
        | some sct =>
          if strlen sct > iam.limits.sctMax then .done iam 500
          else
            let (iam', user) := allocUser iam { addr := 0, username := username, sct := some sct }
            let iam'' := match addUser iam' d.addSctOk user with
              | none => iam'
              | some x => x
            if d.respOk then .done iam'' 201 else .done iam'' 500

/-- `nm_iam_delete_user.c:19-46`. -/
def hDeleteUser (E : Env) (iam : Iam) (d : Dev) (ref : Nat) (username : String) : HRes :=
  withAccess E iam d ref "IAM:DeleteUser" [("IAM:Username", username)] <|
  match deleteUser iam username with
  | (iam', .noSuchUser) => .done iam' 404
  | (iam', .ok) => .done iam' 202
  | (iam', _) => .done iam' 500

/-- `nm_iam_set_user_role.c:20-63`. -/
def hSetRole (E : Env) (iam : Iam) (d : Dev) (ref : Nat) (username : String) (p : Payload) : HRes :=
  withPayload iam p fun v =>
    match decodeString v with
    | some (some role) =>
      withAccess E iam d ref "IAM:SetUserRole" [("IAM:Username", username), ("IAM:RoleId", role)] <|
      match setUserRole iam username role with
      | (iam', .ok) => .done iam' 204
      | (iam', _) => .done iam' 404
    | _ => .done iam 400

/-- `nm_iam_set_user_name.c:17-86`. -/
def hSetUsername (E : Env) (iam : Iam) (d : Dev) (ref : Nat) (old : String) (p : Payload) : HRes :=
  withPayload iam p fun v =>
    match decodeString v with
    | some (some new) =>
      if !validateUsername new then .done iam 400
      else if strlen new > iam.limits.usernameMax then .done iam 400
      else
        withAccess E iam d ref "IAM:SetUserUsername" [("IAM:Username", old)] <|
        if (findUser iam.state (some new)).isSome then .done iam 409
        else
          match findUser iam.state (some old) with
          | none => .done iam 404
          | some u =>
            if !d.allocOk then .done iam 500
            else .done (hasChanged (updUser iam u.addr (fun x => { x with username := new }))) 204
    | _ => .done iam 400

/-- The common shape of the handlers that set one optional text of a user: decode (NULL allowed), check
the length, check access, find the user, set. -/
def hSetOptional (E : Env) (iam : Iam) (d : Dev) (ref : Nat) (action username : String) (p : Payload)
    (valid : String → Bool) (f : Option String → User → User) : HRes :=
  withPayload iam p fun v =>
    match decodeString v with
    | none => .done iam 400
    | some val =>
      if val.any (fun s => !valid s) then .done iam 400
      else
        withAccess E iam d ref action [("IAM:Username", username)] <|
        match findUser iam.state (some username) with
        | none => .done iam 404
        | some u =>
          if val.isSome && !d.allocOk then .done iam 500
          else .done (hasChanged (updUser iam u.addr (f val))) 204

/-- `nm_iam_set_user_display_name.c:20-76`. -/
def hSetDisplayName (E : Env) (iam : Iam) (d : Dev) (ref : Nat) (username : String) (p : Payload) : HRes :=
  hSetOptional E iam d ref "IAM:SetUserDisplayName" username p
    (fun s => !(strlen s > iam.limits.displayNameMax)) (fun v u => { u with displayName := v })

/-- `nm_iam_set_user_password.c:20-74`. -/
def hSetPassword (E : Env) (iam : Iam) (d : Dev) (ref : Nat) (username : String) (p : Payload) : HRes :=
  hSetOptional E iam d ref "IAM:SetUserPassword" username p
    (fun s => !(strlen s > iam.limits.passwordMax || strlen s < iam.limits.passwordMin))
    (fun v u => { u with password := v })

/-- `nm_iam_set_user_oauth_subject.c:20-74`. -/
def hSetOauthSubject (E : Env) (iam : Iam) (d : Dev) (ref : Nat) (username : String) (p : Payload) : HRes :=
  hSetOptional E iam d ref "IAM:SetUserOauthSubject" username p
    (fun s => !(strlen s > iam.limits.oauthSubjectMax)) (fun v u => { u with oauthSubject := v })

/-- `nm_iam_set_user_sct.c:20-71`: as above but NULL is rejected. The result of
`nabto_device_add_server_connect_token` is ignored. -/
def hSetSct (E : Env) (iam : Iam) (d : Dev) (ref : Nat) (username : String) (p : Payload) : HRes :=
  withPayload iam p fun v =>
    match decodeString v with
    | some (some sct) =>
      if strlen sct > iam.limits.sctMax then .done iam 400
      else
        withAccess E iam d ref "IAM:SetUserSct" [("IAM:Username", username)] <|
        match findUser iam.state (some username) with
        | none => .done iam 404
        | some u =>
          if !d.allocOk then .done iam 500
          else .done (hasChanged (updUser iam u.addr (fun x => { x with sct := some sct }))) 204
    | _ => .done iam 400

/-- `nm_iam_set_user_fingerprint.c:20-78`. -/
def hSetFingerprint (E : Env) (iam : Iam) (d : Dev) (ref : Nat) (username : String) (p : Payload) : HRes :=
  withPayload iam p fun v =>
    match decodeString v with
    | none => .done iam 400
    | some fp =>
      if fp.any (fun f => strlen f ≠ 64) then .done iam 400
      else
        withAccess E iam d ref "IAM:SetUserFingerprint" [("IAM:Username", username)] <|
        if (findUserByFp iam.state fp).isSome then .done iam 409
        else
          match findUser iam.state (some username) with
          | none => .done iam 404
          | some u =>
            if fp.isSome && !d.allocOk then .done iam 500
            else
              match userSetFingerprint u fp with
              | none => .done iam 500
              | some u' => .done (hasChanged (updUser iam u.addr (fun _ => u'))) 204

/-- `nm_iam_add_user_fingerprint.c:20-73`. -/
def hAddFingerprint (E : Env) (iam : Iam) (d : Dev) (ref : Nat) (username fp : String) (p : Payload) : HRes :=
  withPayload iam p fun v =>
    let fpName := (decodeKv v "FingerprintName").getD none
    withAccess E iam d ref "IAM:SetUserFingerprint" [("IAM:Username", username)] <|
    if (findUserByFp iam.state (some fp)).isSome then .done iam 409
    else
      match findUser iam.state (some username) with
      | none => .done iam 404
      | some u =>
        if !d.allocOk then .done iam 500
        else
          match userAddFingerprint u (some fp) fpName with
          | none => .done iam 500
          | some u' => .done (hasChanged (updUser iam u.addr (fun _ => u'))) 204

/-- `nm_iam_delete_user_fingerprint.c:20-52`. -/
def hDeleteFingerprint (E : Env) (iam : Iam) (d : Dev) (ref : Nat) (username fp : String) : HRes :=
  withAccess E iam d ref "IAM:SetUserFingerprint" [("IAM:Username", username)] <|
  match findUser iam.state (some username) with
  | none => .done iam 404
  | some u =>
    match userRemoveFingerprint u fp with
    | none => .done iam 404
    | some u' => .done (hasChanged (updUser iam u.addr (fun _ => u'))) 202

/-- `nm_iam_set_user_fcm.c:20-91`. The results of the two setters are ignored; they fail together here. -/
def hSetFcm (E : Env) (iam : Iam) (d : Dev) (ref : Nat) (username : String) (p : Payload) : HRes :=
  withPayload iam p fun v =>
    withAccess E iam d ref "IAM:SetUserFcm" [("IAM:Username", username)] <|
    match findUser iam.state (some username) with
    | none => .done iam 404
    | some u =>
      match decodeKv v "Token", decodeKv v "ProjectId" with
      | some (some t), some (some i) =>
        if strlen t < iam.limits.fcmTokenMax && strlen i < iam.limits.fcmProjectIdMax then
          if d.allocOk then
            .done (hasChanged (updUser iam u.addr
              (fun x => { x with fcmToken := some t, fcmProjectId := some i }))) 204
          else .done (hasChanged iam) 204
        else .done iam 400
      | _, _ => .done iam 400

/-- `nm_iam_set_user_notification_categories.c:18-65`. -/
def hSetCategories (E : Env) (iam : Iam) (d : Dev) (ref : Nat) (username : String) (p : Payload) : HRes :=
  withPayload iam p fun v =>
    match decodeStringSet v with
    | .ub => .ub
    | .ok none => .done iam 400
    | .ok (some cs) =>
      withAccess E iam d ref "IAM:SetUserNotificationCategories" [("IAM:Username", username)] <|
      match setUserCategories iam username cs with
      | (iam', .noSuchUser) => .done iam' 404
      | (iam', .ok) => .done iam' 204
      | (iam', .noSuchCategory) => .done iam' 400
      | (iam', _) => .done iam' 500

/-- `nm_iam_settings_set.c:18-76`. -/
def hSetSettings (E : Env) (iam : Iam) (d : Dev) (ref : Nat) (key : String) (p : Payload) : HRes :=
  withAccess E iam d ref "IAM:SetSettings" [] <|
  withPayload iam p fun v =>
    if key = "password-open-pairing" then
      match decodeBool v with
      | none => .done iam 400
      | some b => .done (hasChanged { iam with state := { iam.state with passwordOpenPairing := b } }) 204
    else if key = "password-invite-pairing" then
      match decodeBool v with
      | none => .done iam 400
      | some b => .done (hasChanged { iam with state := { iam.state with passwordInvitePairing := b } }) 204
    else if key = "local-open-pairing" then
      match decodeBool v with
      | none => .done iam 400
      | some b => .done (hasChanged { iam with state := { iam.state with localOpenPairing := b } }) 204
    else .done iam 404

/-- `nm_iam_device_info_set.c:18-65`. The result of setting the name is ignored. -/
def hSetDeviceInfo (E : Env) (iam : Iam) (d : Dev) (ref : Nat) (key : String) (p : Payload) : HRes :=
  withAccess E iam d ref "IAM:SetDeviceInfo" [] <|
  withPayload iam p fun v =>
    if key = "friendly-name" then
      match decodeString v with
      | some (some fn) =>
        if strlen fn > iam.limits.friendlyNameMax then .done iam 400
        else if d.allocOk then
          .done (hasChanged { iam with state := { iam.state with friendlyName := some fn } }) 204
        else .done (hasChanged iam) 204
      | _ => .done iam 400
    else .done iam 404

/-- The part of `nm_iam_pairing_local_initial.c` after decoding: `nm_iam_pairing_pair_user`,
`nm_iam_pairing.c:78-90`, and the response. -/
def pairUser (iam : Iam) (d : Dev) (u : User) (fpName : Option String) : HRes :=
  if !d.ci2.fpOk || !d.allocOk then .done iam 500
  else
    match userAddFingerprint u d.ci2.fingerprint fpName with
    | none => .done iam 500
    | some u' => .done (hasChanged (updUser iam u.addr (fun _ => u'))) 201

/-- `nm_iam_pairing_local_initial.c:19-69`. -/
def hPairLocalInitial (E : Env) (iam : Iam) (d : Dev) (ref : Nat) (p : Payload) : HRes :=
  if !iam.state.localInitialPairing then .done iam 404
  else withAccess E iam d ref "IAM:PairingLocalInitial" [] <|
    if !d.ci2.isLocal then .done iam 403
    else
      match findUser iam.state iam.state.initialPairingUsername with
      | none => .done iam 404
      | some u =>
        if isUserPaired u then .done iam 409
        else
          match p with
          | .notCbor => pairUser iam d u none
          | .missing => .done iam 400
          | .malformed => .done iam 400
          | .value v =>
            match decodeKv v "FingerprintName" with
            | none => .done iam 400
            | some fpName => pairUser iam d u fpName

/-- The response to the result of `nm_iam_internal_pair_new_client`, `nm_iam_pairing_local_open.c:67-82`. -/
def pairResponse : Iam × Err → HRes
  | (iam', .ok) => .done iam' 201
  | (iam', .invalidArgument) => .done iam' 400
  | (iam', .userExists) => .done iam' 409
  | (iam', _) => .done iam' 500

/-- `nm_iam_pairing_local_open.c:20-88`. -/
def hPairLocalOpen (E : Env) (iam : Iam) (d : Dev) (ref : Nat) (p : Payload) : HRes :=
  if !iam.state.localOpenPairing then .done iam 404
  else withAccess E iam d ref "IAM:PairingLocalOpen" [] <|
    if !d.ci2.isLocal then .done iam 403
    else if !d.ci2.fpOk then .done iam 500
    else withPayload iam p fun v =>
      match decodeKv v "Username" with
      | some (some username) =>
        let fpName := (decodeKv v "FingerprintName").getD none
        pairResponse (pairNewClient iam d (some username) d.ci2.fingerprint fpName)
      | _ => .done iam 400

/-- `nm_iam_pairing_password_open.c:22-108`. -/
def hPairPasswordOpen (E : Env) (iam : Iam) (d : Dev) (ref : Nat) (p : Payload) : HRes :=
  if !iam.state.passwordOpenPairing then .done iam 404
  else
    match passwordOpenPossible E iam d.ci ref with
    | .ub => .ub
    | .ok false => .done iam 403
    | .ok true =>
      if !d.ci2.pwAuth then .done iam 401
      else if !d.ci2.fpOk then .done iam 500
      else withPayload iam p fun v =>
        if (decodeKv v "Password").isSome then .done iam 400
        else
          match decodeKv v "Username" with
          | some (some username) =>
            let fpName := (decodeKv v "FingerprintName").getD none
            pairResponse (pairNewClient iam d (some username) d.ci2.fingerprint fpName)
          | _ => .done iam 400

/-- `nm_iam_pairing_password_invite.c:19-87`. -/
def hPairPasswordInvite (E : Env) (iam : Iam) (d : Dev) (ref : Nat) (p : Payload) : HRes :=
  if !iam.state.passwordInvitePairing then .done iam 404
  else withAccess E iam d ref "IAM:PairingPasswordInvite" [] <|
    if !d.ci2.pwAuth then .done iam 401
    else
      match d.ci2.pwUser with
      | none => .done iam 500
      | some username =>
        match findUser iam.state (some username) with
        | none => .done iam 500
        | some user =>
          if !d.ci2.fpOk then .done iam 500
          else
            match findUserByFp iam.state d.ci2.fingerprint with
            | some fpUsr => if fpUsr.addr = user.addr then .done iam 201 else .done iam 409
            | none =>
              let fpName := match p with
                | .value v => (decodeKv v "FingerprintName").getD none
                | _ => none
              if !d.allocOk then .done iam 500
              else
                match userAddFingerprint user d.ci2.fingerprint fpName with
                | none => .done iam 500
                | some u' =>
                  .done (hasChanged (updUser iam user.addr (fun _ => { u' with password := none }))) 201

/-- Dispatch of a request to its handler. -/
def handle (E : Env) (iam : Iam) (d : Dev) (ref : Nat) : Req → HRes
  | .createUser p => hCreateUser E iam d ref p
  | .deleteUser u => hDeleteUser E iam d ref u
  | .setRole u p => hSetRole E iam d ref u p
  | .setUsername u p => hSetUsername E iam d ref u p
  | .setDisplayName u p => hSetDisplayName E iam d ref u p
  | .setFingerprint u p => hSetFingerprint E iam d ref u p
  | .addFingerprint u f p => hAddFingerprint E iam d ref u f p
  | .deleteFingerprint u f => hDeleteFingerprint E iam d ref u f
  | .setSct u p => hSetSct E iam d ref u p
  | .setPassword u p => hSetPassword E iam d ref u p
  | .setFcm u p => hSetFcm E iam d ref u p
  | .setCategories u p => hSetCategories E iam d ref u p
  | .setOauthSubject u p => hSetOauthSubject E iam d ref u p
  | .setSettings k p => hSetSettings E iam d ref k p
  | .setDeviceInfo k p => hSetDeviceInfo E iam d ref k p
  | .pairLocalInitial p => hPairLocalInitial E iam d ref p
  | .pairLocalOpen p => hPairLocalOpen E iam d ref p
  | .pairPasswordInvite p => hPairPasswordInvite E iam d ref p
  | .pairPasswordOpen p => hPairPasswordOpen E iam d ref p

end Verif.Iam
