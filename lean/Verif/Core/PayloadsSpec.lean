import Verif.Cbor.Item
import Verif.Cbor.Read
import Verif.Json.Cjson
import Verif.Core.Payloads

/-!
# Documents which the device sends: specification

The documents as data items, and the readers of the other side: what a map says under a key.
-/

namespace Verif.Core.Payloads.Spec
open Verif.Cbor
open Verif.Core.Payloads (Attach Service ipBytes)
open Verif.Net.Addr (Endpoint)

/-- A key. -/
def key (k : String) : Item := .text (Verif.Json.enc k)

/-- A name which was not given is the empty name. -/
def given : Option Bytes → Bytes
  | none => []
  | some s => s

def attach (a : Attach) : Item :=
  .map true [(key "NabtoVersion", .text a.version), (key "AppName", .text (given a.appName)),
    (key "AppVersion", .text (given a.appVersion)), (key "ProductId", .text a.productId), (key "DeviceId", .text a.deviceId)]

def texts (l : List Bytes) : Item := .arr true (l.map .text)

def fcm (projectId body : Bytes) : Item := .map true [(key "ProjectId", .text projectId), (key "Body", .text body)]

def invoke (serviceId message : Bytes) : Item := .map true [(key "ServiceId", .text serviceId), (key "Message", .bytes message)]

def ice (identifier : Bytes) : Item := .map true [(key "Identifier", .text identifier)]

def endpoint (ep : Endpoint) : Item := .map true [(key "Ip", .bytes (ipBytes ep.ip)), (key "Port", .uint ep.port.toNat)]

def endpoints (l : List Endpoint) : Item := .arr true (l.map endpoint)

def service (s : Service) : Item :=
  .map true [(key "Id", .text s.id), (key "Type", .text s.type), (key "Host", .text s.host), (key "Port", .uint s.port.toNat),
    (key "StreamPort", .uint s.streamPort.toNat), (key "Metadata", .map true (s.metadata.map fun kv => (.text kv.1, .text kv.2)))]

/-- A length which the encoder and a reader can handle. -/
def Short (b : Bytes) : Prop := b.length < 2 ^ 64

/-- The other side reads the document from the bytes, whatever follows them. -/
def Reads (b : Bytes) (i : Item) : Prop := ∀ tl, ∃ v, parserInit (b ++ tl) = .ok v ∧ readItem 1024 v = .ok i

end Verif.Core.Payloads.Spec
