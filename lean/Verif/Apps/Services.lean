import Verif.Apps.Files

/-!
# The services and the device configuration of the tunnel device

Model of `apps/tcp_tunnel_device/src/tcp_tunnel_services.c` and `apps/common/device_config.c`, on top of the models of cJSON
(`Verif.Json`) and of files (`Apps/Files`).

Simplifications: `strdup` and `tcp_tunnel_service_new` succeed when a file is loaded; leaks are left out. That inserting
into an `nn_string_map` overwrites an entry with the same key is assumed (the library is not in the repository).
-/

namespace Verif.Apps

open Verif.Json (Json Bytes R Strtod M create createString addItem addElem addAll addOpt alloc getItem asStr asNum)
open Verif.Iam (Doc)

/-- `struct tcp_tunnel_service`, `tcp_tunnel_services.h`. -/
structure Service where
  id : String
  type : String
  host : String
  port : Nat
  metadata : List (String × String) := []
  deriving DecidableEq, Repr

/-! ## Writing -/

/-- The loop over the metadata, `tcp_tunnel_services.c:136-141`. -/
def metadataMembers (o : Option Doc) : List (String × String) → M (Option Doc)
  | [] => pure o
  | (k, v) :: l => do metadataMembers (← addItem o k (← createString v)) l

/-- `tcp_tunnel_service_as_json`, `tcp_tunnel_services.c:126-146`. -/
def serviceToJson (s : Service) : M (Option Doc) := do
  let root ← create (.obj [])
  let root ← addItem root "Id" (← createString s.id)
  let root ← addItem root "Type" (← createString s.type)
  let root ← addItem root "Host" (← createString s.host)
  let root ← addItem root "Port" (← create (.num s.port))
  let metadata ← create (.obj [])
  let metadata ← metadataMembers metadata s.metadata
  addItem root "Metadata" metadata

/-- `json_config_save`, `json_config.c:56-75`, up to the text; the allocations of the printer are one. A `NULL` document is
not printed. -/
def configText (root : Option Doc) : M (Option Bytes) := do
  match root with
  | none => pure none
  | some root => do
    if ← alloc then pure (some (Json.text root)) else pure none

/-- `create_services_interactive`, `tcp_tunnel_init.c:254-270`, with the services which were entered, up to the text. -/
def servicesText (l : List Service) : M (Option Bytes) := do
  configText (← addAll serviceToJson (← create (.arr [])) l)

/-- `tcp_tunnel_create_default_services_file`, `tcp_tunnel_services.c:148-168`. -/
def defaultServices : List Service := [{ id := "ssh", type := "ssh", host := "127.0.0.1", port := 22 }]

/-! ## Loading -/

/-- `(uint16_t)valuedouble`: undefined if the whole part of the number is not a `uint16_t`. -/
def toPort (i : Int) : R Nat := if 0 ≤ i ∧ i ≤ 65535 then .ok i.toNat else .ub

/-- `nn_string_map_insert`. -/
def mapInsert (m : List (String × String)) (k v : String) : List (String × String) :=
  if k ∈ m.map (·.1) then m.map (fun e => if e.1 = k then (k, v) else e) else m ++ [(k, v)]

/-- The loop over the members of `Metadata`, `tcp_tunnel_services.c:100-112`: other values than strings are skipped. -/
def loadMetadata (m : List (String × String)) : List (String × Doc) → List (String × String)
  | [] => m
  | (k, .str v) :: l => loadMetadata (mapInsert m k v) l
  | _ :: l => loadMetadata m l

/-- `service_from_json`, `tcp_tunnel_services.c:77-123`. -/
def serviceFromJson (j : Doc) : R Service :=
  match j with
  | .obj _ =>
    match asStr (getItem j "Id"), asStr (getItem j "Type"), asStr (getItem j "Host"), asNum (getItem j "Port") with
    | some id, some type, some host, some port =>
      (toPort port).bind fun port =>
        .ok { id, type, host, port,
              metadata := match getItem j "Metadata" with
                | some (.obj l) => loadMetadata [] l
                | _ => [] }
    | _, _, _, _ => .fail
  | _ => .fail

/-- The loop of `load_services_from_json`, `tcp_tunnel_services.c:65-74`. -/
def loadEach : List Doc → R (List Service)
  | [] => .ok []
  | j :: l => (serviceFromJson j).bind fun s => (loadEach l).bind fun rest => .ok (s :: rest)

/-- `load_services_from_json`, `tcp_tunnel_services.c:57-75`. -/
def loadServices : Doc → R (List Service)
  | .arr l => loadEach l
  | _ => .fail

/-! ## The device configuration -/

/-- `struct device_config`, `device_config.h`. -/
structure DeviceConfig where
  productId : Option String := none
  deviceId : Option String := none
  server : Option String := none
  serverPort : Nat := 0
  deriving DecidableEq, Repr

/-- `save_device_config`, `device_config.c:53-71`, up to the text. -/
def deviceConfigText (dc : DeviceConfig) : M (Option Bytes) := do
  let root ← create (.obj [])
  let root ← addOpt root "ProductId" dc.productId
  let root ← addOpt root "DeviceId" dc.deviceId
  let root ← addOpt root "Server" dc.server
  let root ← if dc.serverPort ≠ 0 then do addItem root "ServerPort" (← create (.num dc.serverPort)) else pure root
  configText root

/-- `load_device_config`, `device_config.c:20-51`, after the parser, into a configuration of zeros. -/
def deviceConfigFromJson (j : Doc) : R DeviceConfig :=
  match asStr (getItem j "ProductId"), asStr (getItem j "DeviceId") with
  | some p, some d =>
    let dc : DeviceConfig := { productId := some p, deviceId := some d, server := asStr (getItem j "Server") }
    match asNum (getItem j "ServerPort") with
    | some i => (toPort i).bind fun port => .ok { dc with serverPort := port }
    | none => .ok dc
  | _, _ => .fail

/-! ## Starting -/

/-- `load_tcp_tunnel_services`, `tcp_tunnel_services.c:32-55`: a missing file is created first. The result is the file and
the text which goes to the parser; `written` are the events of the creation, the file is read with `io`. -/
def servicesStart (d : Disk) (written : List WEv) (io : ReadIo) : Disk × R Bytes :=
  match d with
  | some f => (d, loadJsonText (some f) (some f) io)
  | none =>
    match (servicesText defaultServices []).1 with
    | none => (none, .fail)
    | some text =>
      let w := writeFile none text written
      match saveResult w with
      | some true => (w.disk, loadJsonText w.disk w.disk io)
      | _ => (w.disk, .fail)

end Verif.Apps
