import Verif.Cbor.Parser

/-!
# Decoding of CBOR payloads — model

Transcription of the functions which decode CBOR payloads from clients and from the basestation, on top of the tinycbor
model. The result `R.err` is the result `false` (or an error status) of the function. Allocations can fail: `mem` gives the
outcome of each allocation, which is identified by its kind and by the number of bytes left in the message.

A value which has been found by `cbor_value_map_find_value` with an error has the type `CborInvalidType`
(`cborparser.c:1453-1459`); a local variable which has not been assigned is `none`, and using it is undefined.
-/

namespace Verif.Core.CborUse
open Verif.Cbor

/-- A string literal. -/
def key (s : String) : Bytes := s.toList.map (fun c => UInt8.ofNat c.toNat)

/-- The function returns `false`. -/
def fail {α : Type} : R α := .err .illegalType

/-- The caller goes on after an error. -/
def R.opt {α : Type} : R α → R (Option α)
  | .ok a => .ok (some a)
  | .err _ => .ok none
  | .ub => .ub

/-- The allocations of the decoders. -/
inductive Alloc
  | string (pos : Nat)
  | url (pos : Nat)
  | server (pos : Nat)
  deriving DecidableEq, Repr

abbrev Mem := Alloc → Bool

/-- `nc_cbor_copy_text_string`, `nc_cbor.c:5-28`. -/
def copyTextString (mem : Mem) (maxLength : Nat) (s : Value) : R Bytes :=
  if s.type ≠ .text then fail
  else do
    let length ← calcLength s
    if length > maxLength then fail
    else if !mem (.string s.rest.length) then fail
    else copyText (length + 2) (length + 1) s

/-- `nc_cbor_copy_byte_string`, `nc_cbor.c:30-55`. -/
def copyByteString (mem : Mem) (maxLength : Nat) (s : Value) : R Bytes :=
  if s.type ≠ .bytes then fail
  else do
    let length ← calcLength s
    if length > maxLength then fail
    else if !mem (.string s.rest.length) then fail
    else copyBytes length length s

/-- `read_username_and_password`, `nc_spake2_coap.c:52-77`: the user name and the point of a password authentication
request. -/
def readUsernameAndPassword (mem : Mem) (payload : Bytes) : R (Bytes × Bytes) := do
  let map ← parserInit payload
  let username ← find map (key "Username")
  let t ← find map (key "T")
  let u ← copyTextString mem 4096 username
  let p ← copyByteString mem 256 t
  pure (u, p)

/-- `nm_iam_cbor_decode_string`, `nm_iam_coap_handler.c:146-171`: `none` is the `NULL` string. -/
def decodeString (mem : Mem) (value : Value) : R (Option Bytes) :=
  if value.type = .text then do
    let nameLength ← calcLength value
    if nameLength < 1024 then
      if !mem (.string value.rest.length) then fail
      else pure (some (← copyText (nameLength + 1) nameLength value))
    else fail
  else if value.type = .null then pure none
  else fail

/-- The loop of `nm_iam_cbor_decode_string_set`, `nm_iam_coap_handler.c:182-194`. `nn_string_set_insert` can fail (`url`
allocation); inserting the `NULL` string is undefined. -/
def decodeSetLoop (mem : Mem) : Nat → Value → List Bytes → R (List Bytes)
  | 0, _, _ => .ub
  | n + 1, item, set =>
    if item.remaining = 0 then .ok set
    else do
      match ← decodeString mem item with
      | none => .ub
      | some s =>
        if !mem (.url item.rest.length) then fail
        else decodeSetLoop mem n (← advance item) (set ++ [s])

/-- `nm_iam_cbor_decode_string_set`, `nm_iam_coap_handler.c:173-195`. -/
def decodeStringSet (mem : Mem) (value : Value) : R (List Bytes) :=
  if value.type ≠ .arr then fail
  else do
    let item ← enter value
    decodeSetLoop mem (item.rest.length + 1) item []

/-- `nm_iam_cbor_decode_bool`, `nm_iam_coap_handler.c:197-206`. -/
def decodeBool (value : Value) : R Bool := if value.type = .bool then getBool value else fail

/-- `nm_iam_cbor_decode_kv_string`, `nm_iam_coap_handler.c:208-218`. -/
def decodeKvString (mem : Mem) (map : Value) (k : Bytes) : R (Option Bytes) :=
  if map.type ≠ .map then fail
  else do decodeString mem (← find map k)

/-- The decoding in `handle_request_data`, `nm_iam_set_user_fcm.c:20-42`: token and project id. -/
def decodeFcm (mem : Mem) (map : Value) : R (Option Bytes × Option Bytes) :=
  if map.type ≠ .map then fail
  else do
    let token ← findIgnore map (key "Token")
    let projectId ← findIgnore map (key "ProjectId")
    pure (← decodeString mem token, ← decodeString mem projectId)

/-- An endpoint in `handle_rendezvous_payload`, `nc_rendezvous_coap.c:63-94`: the address and the port to which a packet is
sent, if any. The buffers for addresses have 4 and 16 bytes. -/
def rendezvousEp (ep : Value) : R (Option (Bytes × Nat)) :=
  if ep.type ≠ .map then fail
  else do
    let ip ← find ep (key "Ip")
    let port ← find ep (key "Port")
    if ip.type ≠ .bytes then fail
    else if !isUint port then fail
    else
      let p ← getUint64 port
      let ipLength ← stringLength ip
      if ipLength = 4 then pure (some (← copyBytes 4 ipLength ip, p % 65536))
      else if ipLength = 16 then pure (some (← copyBytes 16 ipLength ip, p % 65536))
      else pure none

/-- The loop of `handle_rendezvous_payload`, `nc_rendezvous_coap.c:61-99`: what is sent, and the iterator at the end
(`none`: the function returns `false`). -/
def rendezvousLoop : Nat → Value → List (Bytes × Nat) → R (List (Bytes × Nat) × Option Value)
  | 0, _, _ => .ub
  | n + 1, ep, sent =>
    if ep.remaining = 0 then .ok (sent, some ep)
    else do
      match ← R.opt (rendezvousEp ep) with
      | none => pure (sent, none)
      | some o =>
        match ← R.opt (advance ep) with
        | none => pure (sent ++ o.toList, none)
        | some ep => rendezvousLoop n ep (sent ++ o.toList)

/-- `handle_rendezvous_payload`, `nc_rendezvous_coap.c:38-105`, on a connection with an id: the endpoints to which packets
are sent, and the result. -/
def rendezvousPayload (payload : Bytes) : R (List (Bytes × Nat) × Bool) := do
  match ← R.opt (parserInit payload) with
  | none => pure ([], false)
  | some array =>
    if array.type ≠ .arr then pure ([], false)
    else
      match ← R.opt (enter array) with
      | none => pure ([], false)
      | some ep =>
        let (sent, e) ← rendezvousLoop (ep.rest.length + 1) ep []
        match e with
        | none => pure (sent, false)
        | some ep =>
          match ← R.opt (leave array ep) with
          | none => pure (sent, false)
          | some _ => pure (sent, true)

/-- What an attach response says. -/
inductive AttachResponse
  | error
  | attached (keepAlive : Option (Nat × Nat × Nat)) (stun : Option (Bytes × Nat))
  | redirect (host : Bytes) (port : Nat)
  deriving DecidableEq, Repr

/-- The keep alive settings in `handle_attached`, `nc_attacher_attach_start.c:183-214`; `err` leaves the settings. -/
def attachedKeepAlive (root : Value) : R (Nat × Nat × Nat) := do
  let keepAlive ← find root (key "KeepAlive")
  if keepAlive.type ≠ .map then fail
  else
    let interval ← find keepAlive (key "Interval")
    let retryInterval ← find keepAlive (key "RetryInterval")
    let maxRetries ← find keepAlive (key "MaxRetries")
    if !isUint interval then fail
    else if !isUint retryInterval then fail
    else if !isUint maxRetries then fail
    else pure (← getUint64 interval, ← getUint64 retryInterval, ← getUint64 maxRetries)

/-- The STUN server in `handle_attached`, `nc_attacher_attach_start.c:216-252`; `err` leaves it unset. -/
def attachedStun (mem : Mem) (root : Value) : R (Bytes × Nat) := do
  let stun ← find root (key "Stun")
  if stun.type ≠ .map then fail
  else
    let host ← find stun (key "Host")
    let port ← find stun (key "Port")
    if host.type ≠ .text then fail
    else if !isUint port then fail
    else
      let stringLength ← calcLength host
      if stringLength > 255 then fail
      else if !mem (.string host.rest.length) then fail
      else
        let h ← copyText (stringLength + 1) (stringLength + 1) host
        pure (h, (← getUint64 port) % 65536)

/-- `handle_redirect`, `nc_attacher_attach_start.c:256-306`. -/
def handleRedirect (mem : Mem) (root : Value) : R (Bytes × Nat) := do
  let host ← find root (key "Host")
  let port ← find root (key "Port")
  let fingerprint ← find root (key "Fingerprint")
  if host.type ≠ .text then fail
  else if !isUint port then fail
  else if fingerprint.type ≠ .bytes then fail
  else
    let hostLength ← stringLength host
    let p ← getUint64 port
    if hostLength < 1 ∨ hostLength > 256 then fail
    else if !mem (.string host.rest.length) then fail
    else pure (← copyText (hostLength + 1) hostLength host, p % 65536)

/-- The part of `coap_attach_start_handle_response` for a successful answer, `nc_attacher_attach_start.c:155-178`. The numbers
of `NC_ATTACHER_STATUS` are `ATTACH_STATUS_ATTACHED = 0` and `ATTACH_STATUS_REDIRECT = 1`. -/
def attachResponse (mem : Mem) (payload : Bytes) : R AttachResponse := do
  let s ← R.opt (do
    let root ← parserInit payload
    if root.type ≠ .map then fail
    else
      let status ← find root (key "Status")
      if !isUint status then fail
      else pure (root, ← getUint64 status))
  match s with
  | none => pure .error
  | some (root, s) =>
    if s = 0 then
      let k ← R.opt (attachedKeepAlive root)
      let k := k.map fun (i, ri, mr) => (i % 2 ^ 32, ri % 2 ^ 32, mr % 2 ^ 32)
      pure (.attached k (← R.opt (attachedStun mem root)))
    else if s = 1 then
      match ← R.opt (handleRedirect mem root) with
      | none => pure .error
      | some (h, p) => pure (.redirect h p)
    else pure .error

/-- The CBOR part of `nc_coap_rest_error_decode_response`, `nc_coap_rest_error.c:24-45`: the message and the error code. -/
def restError (mem : Mem) (payload : Bytes) : R (Option Bytes × Int) := do
  let root ← parserInit payload
  if root.type ≠ .map then pure (none, 0)
  else
    let cborError ← findIgnore root (key "Error")
    if cborError.type ≠ .map then pure (none, 0)
    else
      let cborCode ← findIgnore cborError (key "Code")
      let message ← findIgnore cborError (key "Message")
      let m ← R.opt (copyTextString mem 1024 message)
      if cborCode.type = .int then
        match ← R.opt (getInt cborCode) with
        | none => pure (m, 0)
        | some c => pure (m, c)
      else pure (m, 0)

/-- `parse_response`, `nc_attacher_fcm.c:133-168`: status code and body. -/
def fcmResponse (mem : Mem) (payload : Bytes) : R (Nat × Bytes) := do
  let map ← parserInit payload
  if map.type ≠ .map then fail
  else
    let statusCode ← find map (key "StatusCode")
    let body ← find map (key "Body")
    let b ← copyTextString mem 4096 body
    if statusCode.type ≠ .int then fail
    else
      let tmp ← getInt statusCode
      if tmp > 65535 ∨ tmp < 0 then fail
      else pure (tmp.toNat, b)

/-- `parse_response`, `nc_attacher_service_invoke.c:140-200`: status code, message format and message. The formats are
`nc_attacher.h:52-56`. -/
def serviceInvokeResponse (mem : Mem) (payload : Bytes) : R (Nat × Nat × Option Bytes) := do
  let map ← parserInit payload
  if map.type ≠ .map then fail
  else
    let statusCode ← find map (key "StatusCode")
    let message ← find map (key "Message")
    let messageFormat ← find map (key "MessageFormat")
    if statusCode.type ≠ .int then fail
    else
      let tmp ← getInt statusCode
      if tmp < 0 ∨ tmp > 65535 then fail
      else if messageFormat.type = .int then
        let f ← getInt messageFormat
        if f = 0 ∨ f = 2 then pure (tmp.toNat, f.toNat, some (← copyByteString mem 65536 message))
        else if f = 1 then pure (tmp.toNat, 1, none)
        else fail
      else pure (tmp.toNat, 0, some (← copyByteString mem 65536 message))

/-- An ICE server. -/
structure IceServer where
  username : Option Bytes
  credential : Option Bytes
  urls : List Bytes
  deriving DecidableEq, Repr

/-- The loop over the URLs, `nc_attacher_ice_servers.c:218-228`. -/
def iceUrls (mem : Mem) : Nat → Value → List Bytes → R (List Bytes × Value)
  | 0, _, _ => .ub
  | n + 1, it, urls =>
    if it.remaining = 0 then .ok (urls, it)
    else do
      let url ← copyTextString mem 4096 it
      if !mem (.url it.rest.length) then fail
      else iceUrls mem n (← advance it) (urls ++ [url])

/-- `cbor_value_map_find_value` for the user name and the credential, `nc_attacher_ice_servers.c:189-192`. The second call is
not made when the first one fails. -/
def iceFind (it : Value) : R (Value × Option Value) := do
  match ← R.opt (find it (key "Username")) with
  | none => pure (Value.none, none)
  | some username => pure (username, some (← findIgnore it (key "Credential")))

/-- User name and credential are copied, `nc_attacher_ice_servers.c:202-205`: the second one only if the first one could be
copied. -/
def iceCopy (mem : Mem) (username : Value) (credential : Option Value) : R (Option Bytes × Option Bytes) := do
  match ← R.opt (copyTextString mem 4096 username) with
  | none => pure (none, none)
  | some u =>
    match credential with
    | none => .ub
    | some c => pure (some u, ← R.opt (copyTextString mem 4096 c))

/-- An element of the array in `parse_response`, `nc_attacher_ice_servers.c:180-241`: that the element is not a map is only
logged. -/
def iceServer (mem : Mem) (it : Value) : R (IceServer × Value) := do
  let (username, credential) ← iceFind it
  let urls ← find it (key "Urls")
  let (u, c) ← iceCopy mem username credential
  if urls.type ≠ .arr then fail
  else
    let urlsIt ← enter urls
    let (l, urlsIt) ← iceUrls mem (urlsIt.rest.length + 1) urlsIt []
    let _ ← leave urls urlsIt
    let it' ← advance it
    if !mem (.server it.rest.length) then fail
    else pure ({ username := u, credential := c, urls := l }, it')

/-- The loop of `parse_response`, `nc_attacher_ice_servers.c:180-242`. -/
def iceLoop (mem : Mem) : Nat → Value → List IceServer → R (List IceServer × Value)
  | 0, _, _ => .ub
  | n + 1, it, l =>
    if it.remaining = 0 then .ok (l, it)
    else do
      let (s, it) ← iceServer mem it
      iceLoop mem n it (l ++ [s])

/-- `parse_response`, `nc_attacher_ice_servers.c:166-250`. -/
def iceResponse (mem : Mem) (payload : Bytes) : R (List IceServer) := do
  let root ← parserInit payload
  if root.type ≠ .arr then fail
  else
    let it ← enter root
    let (l, it) ← iceLoop mem (it.rest.length + 1) it []
    let _ ← leave root it
    pure l

end Verif.Core.CborUse
