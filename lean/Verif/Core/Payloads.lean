import Verif.Iam.Listing
import Verif.Net.Addr

/-!
# Documents which the device sends

Transcription of the CBOR documents which the core and the tunnels send, on top of the tinycbor encoder (`Verif.Cbor.Encoder`):
requests to the basestation (`nc_attacher_attach_start.c`, `nc_attacher_sct.c`, `nc_attacher_fcm.c`, `nc_attacher_service_invoke.c`,
`nc_attacher_ice_servers.c`) and answers to clients (`nc_stun_coap.c`, `nm_tcp_tunnel_coap.c`).

Strings are the bytes before the terminator. The macro `NC_CBOR_CHECK_FOR_ERROR_EXCEPT_OOM` (nc_cbor.h:26-32) and `cbor_err_not_oom`
(nm_tcp_tunnel_coap.c:22-25) are `checked`. `np_ip_address_to_string` is in nabto-common, which is not in /repo: the text is a
field of the service. Sets and maps are lists in the order in which they are iterated.
-/

namespace Verif.Core.Payloads
open Verif.Cbor Verif.Iam.Listing
open Verif.Net.Addr (Ip Endpoint)

/-- `cbor_encode_text_stringz`, checked. -/
def cstr (s : Bytes) (e : Enc) : Option Enc := checked (e.text s)

/-- `cbor_encode_byte_string`, checked. -/
def blob (b : Bytes) (e : Enc) : Option Enc := checked (e.bytes b)

/-- `cbor_encode_uint`, checked. -/
def num (n : Nat) (e : Enc) : Option Enc := checked (e.uint n)

/-- A key and a value. -/
def pair (k : String) (v : Enc → Option Enc) (e : Enc) : Option Enc := (textz k e).bind v

/-- An encoder function of the core: it opens a container of indefinite length (array 4, map 5) and returns the result of
closing it. -/
def document (major : Nat) (body : Enc → Option Enc) (e : Enc) : Enc × EErr :=
  let r := e.create none major
  if notOom r.2.2 then (r.1, r.2.2)
  else match body r.2.1 with
    | none => (r.1, .tooLarge)
    | some c => r.1.close c

/-- What becomes of a document: `failed` if it cannot be measured or encoded, e.g. `NABTO_EC_FAILED`. -/
inductive Built where
  | failed
  | outOfMemory
  | payload (b : Bytes)
  | ub
deriving DecidableEq, Repr

/-- The two passes in the core, e.g. nc_attacher_sct.c:29-54: measuring must end with `CborErrorOutOfMemory`, writing with
`CborNoError`. `alloc` is `np_calloc`. -/
def build (alloc : Nat → Bool) (f : Enc → Enc × EErr) : Built :=
  let m := f (Enc.init none)
  if m.2 ≠ .oom then .failed
  else if !alloc m.1.extra then .outOfMemory
  else
    let w := f (Enc.init (some m.1.extra))
    if w.2 ≠ .ok then .failed
    else match payload m.1.extra w.1.buf with
      | none => .ub
      | some b => .payload b

/-- What the attacher knows, nc_attacher.h:159-162; the ids must be set (`nc_device_start` refuses otherwise). -/
structure Attach where
  version : Bytes
  appName : Option Bytes
  appVersion : Option Bytes
  productId : Bytes
  deviceId : Bytes
deriving DecidableEq, Repr

/-- A string or the empty string, nc_attacher_attach_start.c:335,337. -/
def orEmpty : Option Bytes → Bytes
  | none => []
  | some s => s

/-- `encode_cbor_request`, nc_attacher_attach_start.c:327-343. -/
def attachStart (a : Attach) : Enc → Enc × EErr :=
  document 5 fun m => do
    let m ← pair "NabtoVersion" (cstr a.version) m
    let m ← pair "AppName" (cstr (orEmpty a.appName)) m
    let m ← pair "AppVersion" (cstr (orEmpty a.appVersion)) m
    let m ← pair "ProductId" (cstr a.productId) m
    pair "DeviceId" (cstr a.deviceId) m

/-- `encode_scts`, nc_attacher_sct.c:104-115. -/
def scts (l : List Bytes) : Enc → Enc × EErr := document 4 (each cstr l)

/-- `encode_request`, nc_attacher_fcm.c:119-131. -/
def fcm (projectId body : Bytes) : Enc → Enc × EErr :=
  document 5 fun m => (pair "ProjectId" (cstr projectId) m).bind (pair "Body" (cstr body))

/-- `encode_request`, nc_attacher_service_invoke.c:129-138. -/
def invoke (serviceId message : Bytes) : Enc → Enc × EErr :=
  document 5 fun m => (pair "ServiceId" (cstr serviceId) m).bind (pair "Message" (blob message))

/-- `encode_request`, nc_attacher_ice_servers.c:96-104. -/
def ice (identifier : Bytes) : Enc → Enc × EErr := document 5 (pair "Identifier" (cstr identifier))

/-- The bytes of an address: `ip.v4` (4 bytes) or `ip.v6` (16 bytes). -/
def ipBytes : Ip → Bytes
  | .v4 a b c d => [a, b, c, d]
  | .v6 v => v.toList

/-- `encode_ep`, nc_stun_coap.c:52-69. -/
def encEp (ep : Endpoint) : Enc → Option Enc :=
  inMap fun m => (pair "Ip" (blob (ipBytes ep.ip)) m).bind (pair "Port" (num ep.port.toNat))

/-- `encode_endpoints_response`, nc_stun_coap.c:71-80. -/
def endpoints (l : List Endpoint) : Enc → Enc × EErr := document 4 (each encEp l)

/-- A service, nm_tcp_tunnel.h; `host` is the text of its address. -/
structure Service where
  id : Bytes
  type : Bytes
  host : Bytes
  port : UInt16
  streamPort : UInt32
  metadata : List (Bytes × Bytes)
deriving DecidableEq, Repr

/-- An entry of the metadata, nm_tcp_tunnel_coap.c:148-152. -/
def encMeta (kv : Bytes × Bytes) (e : Enc) : Option Enc := (cstr kv.1 e).bind (cstr kv.2)

/-- `encode_service`, nm_tcp_tunnel_coap.c:119-167. -/
def encService (s : Service) : Enc → Option Enc :=
  inMap fun m => do
    let m ← pair "Id" (cstr s.id) m
    let m ← pair "Type" (cstr s.type) m
    let m ← pair "Host" (cstr s.host) m
    let m ← pair "Port" (num s.port.toNat) m
    let m ← pair "StreamPort" (num s.streamPort.toNat) m
    pair "Metadata" (inMap (each encMeta s.metadata)) m

/-- `encode_services_list`, nm_tcp_tunnel_coap.c:93-117. -/
def encServices (ids : List Bytes) : Enc → Option Enc := inArray (each cstr ids)

/-- `get_service_iam` after the checks, nm_tcp_tunnel_coap.c:261-281: the result of the second pass is not looked at. -/
def getService (mem : Mem) (s : Service) : Reply := twoPass mem (.error 500) (encService s) (encService s)

/-- `list_services_iam` after the check, nm_tcp_tunnel_coap.c:181-201. -/
def listServices (mem : Mem) (ids : List Bytes) : Reply := twoPass mem (.error 500) (encServices ids) (encServices ids)

end Verif.Core.Payloads
