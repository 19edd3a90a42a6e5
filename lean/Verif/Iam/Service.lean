/-!
# The requests of the IAM service

Model of `src/modules/iam/coap_handler/nm_iam_coap_handler.c` and of the 27 handlers beside it, as far as it concerns
the request, the answers to it and the memory which is taken while it is handled. (What the handlers do to the users
and the settings, and which code they choose, is in `Iam/Coap.lean` and `Iam/Listing.lean`.)

* A handler is a program (`Prog`) which asks questions. The questions (`Cond`) stand for everything a handler does not
  decide itself: the content of the request, the state of the IAM module, the success of an allocation. A `World`
  answers them. No question is asked twice in the handling of one request with the meaning changed.
* A block of memory belongs to who allocated it (`Owner`): the library with its allocator, which
  `nabto_device_set_custom_allocator` can replace, or the IAM module with `calloc` and `free`,
  `src/modules/iam/nm_iam_allocator.c:5-13`.
* What cannot go wrong in C but is no definite behaviour is recorded in `bad`: a block which is freed twice, used after
  it is freed, used although it is NULL, or given back to an allocator it does not come from.

Simplified: a `nn_string_map` or a `nn_string_set` is one block of memory. The inserts into them are not asked for
(their failure is ignored by the code, see C57). The texts of the answers are left out, as is the payload of the answer
after it is handed over. `nm_iam_internal_do_callbacks` is left out (C54, C63). The answers are not sent by this code
but by the CoAP server of the library.
-/

namespace Verif.Iam.Service

/-- The variables of the handlers which point to memory. -/
inductive Var
  /-- of `nm_iam_internal_check_access` -/
  | accAttributes | accFingerprint | accUsername
  /-- of the handlers -/
  | attributes | username | displayName | fingerprint | fpName | password | payload | roleId | friendlyName | subject
  | sct | user | categories | token | projectId
  /-- of the handler which sends a notification -/
  | ctx | msg | future | text
  /-- of `struct nm_iam_coap_handler` -/
  | handlerFuture | handlerListener
  deriving DecidableEq, Repr

/-- Who allocated a block. -/
inductive Owner
  | lib | iam
  deriving DecidableEq, Repr

/-- The questions. The answer yes is the one with which a handler goes on. -/
inductive Cond
  /-- the parameter of the path is there, and the second one -/
  | param | param2
  /-- the content format is CBOR, there is a payload, the payload can be parsed -/
  | format | body | parses
  /-- the key is in the map; the value is a text, is not too long, memory for it, it can be copied; the value is null -/
  | has (v : Var) | isText (v : Var) | fits (v : Var) | mem (v : Var) | copied (v : Var) | isNull (v : Var)
  /-- `nm_iam_internal_check_access` -/
  | accHasFingerprint | accVirtual | accKnown | accPassword | accHasUsername | allowed
  /-- state of the IAM module and of the connection -/
  | enabled | local | room | validName | shortName | free | found | unpaired | keyKnown | passwordAuth | hasFingerprint
  | hasUsername | sameUser | config
  /-- results of calls -/
  | isSet | sctMade | sctShort | added | deleted | invalidArgument | paired | measured | encoded | payloadSet | boolean
  | isArray | built | msgSet | sent | listens
  deriving DecidableEq, Repr

abbrev World := Cond → Bool

inductive Prog
  | ret (b : Bool)
  | ask (c : Cond) (yes no : Prog)
  /-- a block is allocated -/
  | take (v : Var) (o : Owner) (k : Prog)
  /-- it is freed with the function of the owner; nothing happens when the variable is NULL -/
  | free (v : Var) (o : Owner) (k : Prog)
  /-- NULL is written to the variable -/
  | clear (v : Var) (k : Prog)
  /-- it is put into the state of the IAM module -/
  | give (v : Var) (k : Prog)
  /-- what it points to is read or written -/
  | use (v : Var) (k : Prog)
  /-- `nabto_device_coap_response_set_code` -/
  | code (n : Nat) (k : Prog)
  /-- `nabto_device_coap_error_response` -/
  | error (n : Nat) (k : Prog)
  /-- `nabto_device_coap_response_ready` -/
  | ready (k : Prog)
  /-- `nm_iam_coap_handler_async_request_end` -/
  | endAsync (k : Prog)
  /-- `nabto_device_fcm_send` and `nabto_device_future_set_callback` -/
  | send (k : Prog)
  /-- a function with a result; its variables are gone when it returns -/
  | call (p : Prog) (yes no : Prog)
  deriving Repr

inductive Bad
  | usedDead (v : Var) | freedTwice (v : Var) | wrongAllocator (v : Var) | requestDead | deadlock
  deriving DecidableEq, Repr

/-- The handling of one request. -/
structure Run where
  /-- the application has set its own allocator for the library -/
  custom : Bool
  /-- the code of the response -/
  code : Nat
  /-- the answers, oldest first -/
  answers : List Nat
  /-- memory which is held, who owns it -/
  held : List (Var × Owner)
  /-- variables which point to freed memory -/
  dangling : List Var
  /-- memory which was put into the state of the IAM module -/
  kept : List Var
  /-- `locked` and `asyncStopped` of the handler -/
  locked : Bool
  asyncStopped : Bool
  /-- how often the request was given back with `nabto_device_coap_request_free` and `start_listen` was called -/
  given : Nat
  /-- a notification is on its way -/
  sending : Bool
  bad : Option Bad
  deriving DecidableEq, Repr

def Run.start (custom : Bool) : Run :=
  { custom := custom, code := 0, answers := [], held := [], dangling := [], kept := [], locked := false,
    asyncStopped := false, given := 0, sending := false, bad := none }

/-- Only the first thing that goes wrong is kept. -/
def Run.fail (r : Run) (b : Bad) : Run := { r with bad := r.bad.or (some b) }

/-- `nabto_device_coap_request_free`, `nm_iam_internal_do_callbacks` and `start_listen`, nm_iam_coap_handler.c:86-88 and
:102-104. `nm_iam_internal_do_callbacks` locks the mutex of the IAM module (nm_iam_internal.c:281): who holds it already
waits forever. -/
def Run.giveBack (r : Run) : Run :=
  if r.locked then r.fail .deadlock
  else if r.given = 0 then { r with given := 1 } else { r with given := r.given + 1 }.fail .requestDead

/-- An answer is given to a request. -/
def Run.answer (r : Run) (n : Nat) : Run :=
  if r.given = 0 then { r with answers := r.answers ++ [n], code := n } else r.fail .requestDead

def Run.free (r : Run) (v : Var) (o : Owner) : Run :=
  match r.held.lookup v with
  | some o' =>
    let r1 := { r with held := r.held.erase (v, o'), dangling := v :: r.dangling }
    if o' ≠ o ∧ r.custom = true then r1.fail (.wrongAllocator v) else r1
  | none => if v ∈ r.dangling then r.fail (.freedTwice v) else r

def Run.use (r : Run) (v : Var) : Run :=
  if (r.held.lookup v).isSome ∨ v ∈ r.kept then r else r.fail (.usedDead v)

/-- `nm_iam_coap_handler_async_request_end`, nm_iam_coap_handler.c:97-106. -/
def Run.endAsync (r : Run) : Run := if r.locked then { r with asyncStopped := true } else r.giveBack

/-- What a program does in a world. -/
def exec (w : World) : Prog → Run → Bool × Run
  | .ret b, r => (b, r)
  | .ask c yes no, r => if w c then exec w yes r else exec w no r
  | .take v o k, r => exec w k { r with held := (v, o) :: r.held }
  | .free v o k, r => exec w k (r.free v o)
  | .clear v k, r => exec w k { r with dangling := r.dangling.erase v }
  | .give v k, r =>
    exec w k { r with held := r.held.filter (fun x => x.1 != v), kept := v :: r.kept }
  | .use v k, r => exec w k (r.use v)
  | .code n k, r => exec w k { r with code := n }
  | .error n k, r => exec w k (r.answer n)
  | .ready k, r => exec w k (r.answer r.code)
  | .endAsync k, r => exec w k r.endAsync
  | .send k, r => exec w k { r with sending := true }
  | .call p yes no, r =>
    let x := exec w p r
    let r1 := { x.2 with dangling := r.dangling }
    if x.1 then exec w yes r1 else exec w no r1

/-! ## Functions of the handlers -/

def done : Prog := .ret true

/-- An answer with an error, then the function returns. -/
def fail (n : Nat) : Prog := .error n done

/-- `nm_iam_internal_check_access`, nm_iam_internal.c:13-95. -/
def checkAccess : Prog :=
  let verdict := .free .accAttributes .iam <| .ask .allowed (.ret true) (.ret false)
  let rest :=
    .take .accAttributes .iam <|
    .free .accFingerprint .lib <|
    .ask .accKnown verdict <|
    .ask .accPassword
      (.ask .accHasUsername
        (.take .accUsername .lib <| .use .accUsername <| .free .accUsername .lib verdict)
        verdict)
      verdict
  .ask .accHasFingerprint
    (.ask (.mem .accFingerprint) (.take .accFingerprint .lib rest) rest)
    (.ask .accVirtual rest (.ret false))

/-- `nm_iam_internal_check_access` with the map of attributes, as in nm_iam_get_user.c:28-36. `clean` is what is freed
when access is denied. Simplified: in some handlers the map is freed before the answer, in some after it. -/
def guarded (clean : Prog → Prog) (k : Prog) : Prog :=
  .take .attributes .iam <|
  .call checkAccess
    (.free .attributes .iam k)
    (.error 403 <| clean <| .free .attributes .iam done)

/-- Answers with the code 400. -/
def errors400 : Nat → Prog → Prog
  | 0, k => k
  | n + 1, k => .error 400 (errors400 n k)

/-- `nm_iam_cbor_init_parser`, nm_iam_coap_handler.c:109-129, followed by `nm_iam_cbor_send_error_response`, :131-143, when
it fails, and by `clean`. The cases of the switch fall through. -/
def parser (clean : Prog) (k : Prog) : Prog :=
  .ask .format
    (.ask .body
      (.ask .parses k (errors400 2 clean))
      (errors400 3 clean))
    (errors400 4 clean)

/-- `nm_iam_cbor_decode_string`, nm_iam_coap_handler.c:146-171. `null`: the value is null, the result is true. -/
def decode (v : Var) (no null yes : Prog) : Prog :=
  .ask (.isText v)
    (.ask (.fits v)
      (.ask (.mem v)
        (.take v .iam <| .ask (.copied v) yes (.free v .iam <| .clear v no))
        no)
      no)
    (.ask (.isNull v) null no)

/-- `nm_iam_cbor_decode_kv_string`, nm_iam_coap_handler.c:208-218. -/
def decodeKv (v : Var) (no null yes : Prog) : Prog := .ask (.has v) (decode v no null yes) no

/-- The end of a handler with a payload, as in nm_iam_get_user.c:54-62. -/
def respond (n : Nat) : Prog :=
  .use .payload <| .code n <|
  .ask .payloadSet
    (.ready <| .free .payload .iam done)
    (.error 500 <| .free .payload .iam done)

/-- The allocation and sending of a payload. -/
def withPayload (n : Nat) (noMem : Prog) : Prog :=
  .ask (.mem .payload) (.take .payload .iam <| respond n) noMem

/-- The code 204 and the end of a handler, as in nm_iam_set_user_sct.c:68-70. -/
def ready (n : Nat) (k : Prog) : Prog := .code n <| .ready k

/-! ## The handlers -/

/-- nm_iam_add_user_fingerprint.c:20-73. -/
def addFingerprint : Prog :=
  let clean := Prog.free .fpName .iam
  let rest :=
    guarded clean <|
    .ask .free
      (.ask .found
        (.ask .isSet (ready 204 <| clean done) (.error 500 <| clean done))
        (.error 404 <| clean done))
      (.error 409 <| clean done)
  .ask .param (.ask .param2 (parser done <| decodeKv .fpName rest rest rest) (fail 400)) (fail 400)

/-- nm_iam_create_user.c:20-108. `nm_iam_user_validate_username` reads the name, which can be NULL. The result of
`nm_iam_internal_add_user` is ignored. -/
def createUser : Prog :=
  let answer := .use .user <| withPayload 201 (fail 500)
  let bad := .error 500 <| .free .sct .lib <| .free .username .iam <| .free .user .iam done
  let rest :=
    .use .username <|
    .ask .validName
      (.ask .shortName
        (.ask .free
          (.ask (.mem .user)
            (.take .user .iam <|
             .ask .sctMade
              (.ask (.mem .sct)
                (.take .sct .lib <| .ask .sctShort
                  (.ask .isSet
                    (.free .sct .lib <| .free .username .iam <| .ask .added (.give .user answer) answer)
                    bad)
                  bad)
                bad)
              bad)
            (.error 500 <| .free .username .iam done))
          (.error 409 <| .free .username .iam done))
        (.error 400 <| .free .username .iam done))
      (.error 400 <| .free .username .iam done)
  .call checkAccess
    (.ask .room (parser done <| decodeKv .username (fail 400) rest rest) (fail 500))
    (fail 403)

/-- nm_iam_delete_user.c:19-46. `found`: the result is not `NO_SUCH_USER`. -/
def deleteUser : Prog :=
  .ask .param
    (guarded id <|
     .ask .found
      (.ask .deleted (.code 202 <| .ready done) (.error 500 <| .ready done))
      (.error 404 <| .ready done))
    (fail 500)

/-- nm_iam_delete_user_fingerprint.c:20-52. -/
def deleteFingerprint : Prog :=
  .ask .param
    (.ask .param2
      (guarded id <| .ask .found (.ask .isSet (ready 202 done) (fail 404)) (fail 404))
      (fail 400))
    (fail 400)

/-- nm_iam_device_info_set.c:18-65. -/
def deviceInfoSet : Prog :=
  .call checkAccess
    (.ask .param
      (parser done <|
       .ask .keyKnown
        (decode .friendlyName (fail 400) (fail 400) <|
         .ask .shortName
          (.use .friendlyName <| .free .friendlyName .iam <| ready 204 done)
          (.error 400 <| .free .friendlyName .iam done))
        (fail 404))
      (fail 500))
    (fail 403)

/-- nm_iam_get_me.c:18-67. -/
def getMe : Prog :=
  let answer := .ask .found (withPayload 205 done) (fail 404)
  let byName :=
    .ask .passwordAuth
      (.ask .hasUsername (.take .username .lib <| .use .username <| .free .username .lib answer) answer)
      answer
  .ask .hasFingerprint
    (.ask (.mem .fingerprint)
      (.take .fingerprint .lib <| .use .fingerprint <| .free .fingerprint .lib <| .ask .sameUser answer byName)
      byName)
    byName

/-- nm_iam_get_notification_categories.c:31-74. -/
def getCategories : Prog :=
  .call checkAccess
    (.ask .measured
      (.ask (.mem .payload)
        (.take .payload .iam <| .ask .encoded (respond 205) (fail 500))
        (fail 500))
      (fail 500))
    (fail 403)

/-- nm_iam_get_user.c:20-63. -/
def getUser : Prog :=
  .ask .param (guarded id <| .ask .found (withPayload 205 (fail 500)) (fail 404)) (fail 500)

/-- nm_iam_list_roles.c:45-78. -/
def listRoles : Prog :=
  .call checkAccess
    (.ask .measured
      (.ask (.mem .payload)
        (.take .payload .iam <| .ask .encoded (respond 205) (.free .payload .iam <| fail 500))
        (fail 500))
      (fail 500))
    (fail 403)

/-- nm_iam_list_users.c:47-71. -/
def listUsers : Prog := .call checkAccess (withPayload 205 done) (fail 403)

/-- nm_iam_pairing_get.c:114-139. The questions of `encode_response` to `nm_iam_internal_check_access` leave nothing
behind. -/
def pairingGet : Prog := .call checkAccess (withPayload 205 done) (fail 403)

/-- nm_iam_settings_get.c:60-85. -/
def settingsGet : Prog := .call checkAccess (withPayload 205 done) (fail 403)

/-- nm_iam_pairing_local_initial.c:19-69 with `nm_iam_pairing_pair_user`, nm_iam_pairing.c:78-90. A wrong content format is
not an error. -/
def localInitial : Prog :=
  let pair :=
    .ask .hasFingerprint
      (.ask (.mem .fingerprint)
        (.take .fingerprint .lib <|
         .ask .isSet (.free .fingerprint .lib <| .ret true) (.free .fingerprint .lib <| .ret false))
        (.ret false))
      (.ret false)
  let rest :=
    .call pair
      (ready 201 <| .free .fpName .iam done)
      (.error 500 <| .free .fpName .iam done)
  .ask .enabled
    (.call checkAccess
      (.ask .local
        (.ask .found
          (.ask .unpaired
            (.ask .format
              (.ask .body
                (.ask .parses (decodeKv .fpName (fail 400) rest rest) (errors400 2 done))
                (errors400 3 done))
              rest)
            (fail 409))
          (fail 404))
        (fail 403))
      (fail 403))
    (fail 404)

/-- `nm_iam_internal_pair_new_client`, nm_iam_internal.c:170-214, and the answers to its results,
nm_iam_pairing_local_open.c:68-83. `invalidArgument`: it is not that. -/
def pairNewClient (k : Prog) : Prog :=
  let bad := .free .sct .lib <| .free .user .iam <| .error 500 k
  .ask .invalidArgument
    (.ask .free
      (.ask .paired
        (.ask .config
          (.ask .sctMade
            (.take .sct .lib <|
             .ask .sctShort
              (.ask (.mem .user)
                (.take .user .iam <|
                 .ask .isSet
                  (.ask .added (.give .user <| .free .sct .lib <| ready 201 k) bad)
                  bad)
                bad)
              bad)
            bad)
          bad)
        (ready 201 k))
      (.error 409 k))
    (.error 400 k)

/-- nm_iam_pairing_local_open.c:20-88. The fingerprint is a string of the library. -/
def localOpen : Prog :=
  let clean := Prog.free .fingerprint .iam
  let pair :=
    .use .username <|
    pairNewClient <| clean <| .free .fpName .iam <| .free .username .iam done
  let rest :=
    parser (clean done) <|
    decodeKv .username (.error 400 <| clean done) (.error 400 <| clean done) <|
    decodeKv .fpName pair pair pair
  .ask .enabled
    (.call checkAccess
      (.ask .local
        (.ask .hasFingerprint
          (.ask (.mem .fingerprint) (.take .fingerprint .lib rest) rest)
          (fail 500))
        (fail 403))
      (fail 403))
    (fail 404)

/-- nm_iam_pairing_password_invite.c:19-87. -/
def passwordInvite : Prog :=
  let last := .free .fpName .iam <| .free .fingerprint .lib <| .free .username .lib done
  let store := .ask .isSet (ready 201 last) (.error 500 last)
  let name := decodeKv .fpName store store store
  let rest :=
    .ask .free
      (.ask .format (.ask .body (.ask .parses name store) store) store)
      (.ask .sameUser
        (ready 201 <| .free .fingerprint .lib <| .free .username .lib done)
        (ready 409 <| .free .fingerprint .lib <| .free .username .lib done))
  .ask .enabled
    (.call checkAccess
      (.ask .passwordAuth
        (.ask .hasUsername
          (.take .username .lib <|
           .ask .found
            (.ask .hasFingerprint
              (.ask (.mem .fingerprint) (.take .fingerprint .lib rest) rest)
              (.error 500 <| .free .username .lib done))
            (.error 500 <| .free .username .lib done))
          (fail 500))
        (fail 401))
      (fail 403))
    (fail 404)

/-- nm_iam_pairing_password_open.c:22-108. -/
def passwordOpen : Prog :=
  let clean := Prog.free .fingerprint .iam
  let last := clean <| .free .fpName .iam <| .free .username .iam <| .free .password .iam done
  let pair := .use .username <| pairNewClient last
  let noName := .error 400 last
  let named :=
    decodeKv .username (.error 400 <| clean done)
      (decodeKv .fpName noName noName noName)
      (decodeKv .fpName pair pair pair)
  let rest :=
    parser (clean done) <|
    decodeKv .password named
      (.error 400 <| .free .password .iam done)
      (.error 400 <| .free .password .iam done)
  .ask .enabled
    (.call checkAccess
      (.ask .config
        (.ask .passwordAuth
          (.ask .hasFingerprint
            (.ask (.mem .fingerprint) (.take .fingerprint .lib rest) rest)
            (fail 500))
          (fail 401))
        (fail 403))
      (fail 403))
    (fail 404)

/-- A handler which sets a string of a user, as nm_iam_set_user_display_name.c:20-76, nm_iam_set_user_oauth_subject.c:20-74,
nm_iam_set_user_password.c:20-74. The value may be null. -/
def setString (v : Var) : Prog :=
  let clean := Prog.free v .iam
  let rest :=
    guarded clean <|
    .ask .found
      (.ask .isSet (ready 204 <| clean done) (.error 500 <| clean done))
      (.error 404 <| clean done)
  .ask .param
    (parser done <|
     decode v (.error 400 <| clean done) rest (.ask .shortName rest (.error 400 <| clean done)))
    (fail 400)

/-- nm_iam_set_user_fingerprint.c:20-78. -/
def setFingerprint : Prog :=
  let clean := Prog.free .fingerprint .iam
  let rest :=
    guarded clean <|
    .ask .free
      (.ask .found
        (.ask .isSet (ready 204 <| clean done) (.error 500 <| clean done))
        (.error 404 <| clean done))
      (.error 409 <| clean done)
  .ask .param
    (parser done <| decode .fingerprint (fail 400) rest (.ask .shortName rest (.error 400 <| clean done)))
    (fail 400)

/-- nm_iam_set_user_name.c:17-86. -/
def setName : Prog :=
  let clean := Prog.free .username .iam
  .ask .param
    (parser done <|
     decode .username (.error 400 <| clean done) (.error 400 <| clean done) <|
     .use .username <|
     .ask .validName
      (.ask .shortName
        (guarded clean <|
         .ask .free
          (.ask .found
            (.ask .isSet (ready 204 <| clean done) (.error 500 <| clean done))
            (.error 404 <| clean done))
          (.error 409 <| clean done))
        (.error 400 <| clean done))
      (.error 400 <| clean done))
    (fail 400)

/-- nm_iam_set_user_role.c:20-63. -/
def setRole : Prog :=
  let clean := Prog.free .roleId .iam
  .ask .param
    (parser done <|
     decode .roleId (fail 400) (fail 400) <|
     .use .roleId <|
     guarded clean <|
     .ask .isSet (.code 204 <| .ready <| clean done) (.code 404 <| .ready <| clean done))
    (fail 500)

/-- nm_iam_set_user_sct.c:20-71. -/
def setSct : Prog :=
  let clean := Prog.free .sct .iam
  .ask .param
    (parser done <|
     decode .sct (.error 400 <| clean done) (.error 400 <| clean done) <|
     .ask .shortName
      (guarded clean <|
       .ask .found
        (.ask .isSet (.use .sct <| ready 204 <| clean done) (.error 500 <| clean done))
        (.error 404 <| clean done))
      (.error 400 <| clean done))
    (fail 400)

/-- nm_iam_set_user_fcm.c:55-91 with `handle_request_data`, :20-53. -/
def setFcm : Prog :=
  let clean (b : Bool) := Prog.free .token .iam <| .free .projectId .iam <| .ret b
  let both := .use .token <| .use .projectId <| .ask .shortName (clean true) (clean false)
  let data :=
    .ask .keyKnown
      (decode .token (.free .token .iam <| .ret false)
        (decode .projectId (clean false) (clean false) (clean false))
        (decode .projectId (clean false) (clean false) both))
      (.ret false)
  .ask .param
    (parser done <|
     guarded id <|
     .ask .found (.call data (ready 204 done) (fail 400)) (fail 404))
    (fail 400)

/-- nm_iam_set_user_notification_categories.c:18-65. The strings of the array are freed one by one in
`nm_iam_cbor_decode_string_set`, nm_iam_coap_handler.c:173-195. -/
def setCategories : Prog :=
  let clean := Prog.free .categories .iam
  .ask .param
    (parser done <|
     .take .categories .iam <|
     .ask .isArray
      (guarded clean <|
       .ask .found
        (.ask .isSet (ready 204 <| clean done)
          (.ask .free (.error 500 <| clean done) (.error 400 <| clean done)))
        (.error 404 <| clean done))
      (clean <| fail 400))
    (fail 400)

/-- nm_iam_settings_set.c:18-76. -/
def settingsSet : Prog :=
  .call checkAccess
    (.ask .param (parser done <| .ask .keyKnown (.ask .boolean (ready 204 done) (fail 400)) (fail 404)) (fail 500))
    (fail 403)

/-- `handle_request`, nm_iam_send_fcm_test.c:92-196. -/
def fcmTest : Prog :=
  let fin := Prog.endAsync done
  let noMem := .error 500 <| .free .ctx .iam <| .free .text .iam fin
  let set :=
    .ask .msgSet
      (.free .text .iam <| .use .ctx <| .send done)
      (.free .text .iam <| .use .ctx <| .free .msg .lib <| .free .ctx .iam <| .free .future .lib <| .error 500 fin)
  let build :=
    .ask .built set
      (.use .ctx <| .free .msg .lib <| .free .ctx .iam <| .free .text .iam <| .free .future .lib <| .error 500 fin)
  let future :=
    .use .ctx <|
    .ask (.mem .future)
      (.take .future .lib build)
      (.free .msg .lib <| .free .ctx .iam <| .free .text .iam <| .error 500 fin)
  let msg := .use .ctx <| .ask (.mem .msg) (.take .msg .lib future) noMem
  let start :=
    .ask (.mem .ctx)
      (.take .ctx .iam <| .ask (.mem .text) (.take .text .iam msg) noMem)
      (.ask (.mem .text) (.take .text .iam noMem) noMem)
  .ask .param
    (.take .attributes .iam <|
     .call checkAccess
      (.free .attributes .iam <|
       .ask .found (.ask .config start (.error 404 fin)) (.error 404 fin))
      (.error 403 <| .free .attributes .iam fin))
    (.error 400 fin)

/-- `msg_sent_callback`, nm_iam_send_fcm_test.c:50-90. -/
def msgSent : Prog :=
  let fin :=
    .free .payload .iam <| .use .ctx <| .free .msg .lib <| .use .ctx <| .free .ctx .iam <| .free .future .lib <|
    .endAsync done
  let bad :=
    .use .ctx <| .free .msg .lib <| .free .ctx .iam <| .free .future .lib <| .use .ctx <| .endAsync done
  .use .ctx <|
  .ask .sent
    (.use .ctx <| .use .msg <|
     .ask (.mem .payload)
      (.take .payload .iam <| .use .ctx <| .use .msg <| .code 201 <| .ask .payloadSet (.ready fin) (.error 500 fin))
      (.error 500 bad))
    (.error 503 bad)

inductive Handler
  | addFingerprint | createUser | deleteUser | deleteFingerprint | deviceInfoSet | getMe | getCategories | getUser
  | listRoles | listUsers | pairingGet | localInitial | localOpen | passwordInvite | passwordOpen | fcmTest
  | setDisplayName | setFcm | setFingerprint | setName | setCategories | setOauthSubject | setPassword | setRole
  | setSct | settingsGet | settingsSet
  deriving DecidableEq, Repr

def Handler.prog : Handler → Prog
  | .addFingerprint => Service.addFingerprint
  | .createUser => Service.createUser
  | .deleteUser => Service.deleteUser
  | .deleteFingerprint => Service.deleteFingerprint
  | .deviceInfoSet => Service.deviceInfoSet
  | .getMe => Service.getMe
  | .getCategories => Service.getCategories
  | .getUser => Service.getUser
  | .listRoles => Service.listRoles
  | .listUsers => Service.listUsers
  | .pairingGet => Service.pairingGet
  | .localInitial => Service.localInitial
  | .localOpen => Service.localOpen
  | .passwordInvite => Service.passwordInvite
  | .passwordOpen => Service.passwordOpen
  | .fcmTest => Service.fcmTest
  | .setDisplayName => setString .displayName
  | .setFcm => Service.setFcm
  | .setFingerprint => Service.setFingerprint
  | .setName => Service.setName
  | .setCategories => Service.setCategories
  | .setOauthSubject => setString .subject
  | .setPassword => setString .password
  | .setRole => Service.setRole
  | .setSct => Service.setSct
  | .settingsGet => Service.settingsGet
  | .settingsSet => Service.settingsSet

/-! ## The loop -/

/-- A handler and the requests it got. -/
structure Srv where
  /-- `async` of the handler -/
  async : Bool
  /-- `nabto_device_listener_new_coap_request` was called and has not resolved -/
  listening : Bool
  /-- the listener is stopped -/
  stopped : Bool
  /-- how many requests were delivered -/
  delivered : Nat
  /-- the request which is in the hands of the handler when its function has returned -/
  open_ : Option (World × Run)
  /-- the requests which were given back -/
  closed : List (World × Run)

/-- After `start_listen` in `nm_iam_coap_handler_init`, nm_iam_coap_handler.c:15-43. -/
def Srv.init : Srv :=
  { async := false, listening := true, stopped := false, delivered := 0, open_ := none, closed := [] }

inductive Event
  /-- `nm_iam_coap_handler_set_async` with true, called by `nm_iam_send_fcm_test_init` after the listener is started,
  nm_iam_send_fcm_test.c:26-32 -/
  | setAsync
  /-- a request comes, and how everything turns out while it is handled -/
  | request (w : World)
  /-- the notification is sent, or that has failed -/
  | sent
  /-- `nm_iam_coap_handler_stop` -/
  | stop

/-- `request_callback`, nm_iam_coap_handler.c:71-90, after a request was delivered. -/
def serve (custom async : Bool) (p : Prog) (w : World) : Run :=
  let r := (exec w p { Run.start custom with locked := true }).2
  let r := { r with locked := false }
  if !async || r.asyncStopped then r.giveBack else r

def step (custom : Bool) (h : Handler) (s : Srv) : Event → Srv
  | .setAsync => if h = .fcmTest then { s with async := true } else s
  | .request w =>
    if s.listening && !s.stopped then
      let r := serve custom s.async h.prog w
      let s1 := { s with delivered := s.delivered + 1 }
      if r.given = 0 then { s1 with listening := false, open_ := some (w, r) }
      else if r.sending then { s1 with open_ := some (w, r), closed := s.closed ++ [(w, r)] }
      else { s1 with closed := s.closed ++ [(w, r)] }
    else s
  | .sent =>
    match s.open_ with
    | none => s
    | some (w, r) =>
      if r.sending then
        let r1 := (exec w msgSent { r with sending := false, dangling := [] }).2
        { s with listening := true, open_ := none, closed := s.closed ++ [(w, r1)] }
      else s
  | .stop => { s with stopped := true }

def run (custom : Bool) (h : Handler) (es : List Event) : Srv := es.foldl (step custom h) .init

/-! ## A handler is started and ended -/

/-- `nm_iam_coap_handler_init`, nm_iam_coap_handler.c:15-43, then `nm_iam_coap_handler_deinit`, :52-63, which does nothing
when `device` is not set. -/
def lifetime : Prog :=
  let refused := .free .handlerFuture .lib (.ret false)
  let good :=
    .ask .listens
      (.use .handlerListener <| .free .handlerFuture .lib <| .free .handlerListener .lib <| .ret true)
      (.use .handlerListener <| .free .handlerFuture .lib <| .free .handlerListener .lib <| .ret false)
  .ask (.mem .handlerFuture)
    (.take .handlerFuture .lib <|
     .ask (.mem .handlerListener) (.take .handlerListener .lib good) refused)
    (.ask (.mem .handlerListener) (.take .handlerListener .lib refused) refused)

end Verif.Iam.Service
