/-!
# What a device announces over mDNS

Model of `nabto_device_enable_mdns`, `nabto_device_mdns_add_subtype` and `nabto_device_mdns_add_txt_item`
(`src/api/nabto_device_mdns.c:7-35`, `src/core/nc_device.c:677-714`), of what the start of the device adds
(`nc_device_populate_mdns`, `nc_device_sockets_bound`) and of what the mDNS server keeps of it (`nm_mdns_server.c:220-244`).

The string map, the string set and the mDNS library of nabto-common are not in the repository. Two things which matter are
parameters (`Cfg`), and the theorems are proved for every choice of them: what inserting a key into a map does which has
the key, and whether the library copies the map and the set or keeps pointers to them. Erasing a key is assumed to remove all its
entries.

Simplifications: a second start of a started device is left out (C90); the ids are values (C92); sending and receiving of
packets is C101 and C102.
-/

namespace Verif.Device.Announce

abbrev Text := List UInt8

/-- What `nn_string_map_insert` may do with a key which is in the map. -/
inductive Insert
  | keep | overwrite | duplicate
  deriving DecidableEq, Repr

structure Cfg where
  /-- the platform has mDNS: `nc_device_has_mdns_capability`, nc_device.c:733-736 -/
  cap : Bool
  insert : Insert
  /-- the library keeps pointers to the map and the set -/
  byRef : Bool
  deriving DecidableEq, Repr

inductive Ec
  | ok | outOfMemory | invalidState | notImplemented
  deriving DecidableEq, Repr

inductive DState
  | setup | running | stopped
  deriving DecidableEq, Repr

/-- The states of the mDNS server, `nm_mdns_server.h`. -/
inductive Server
  | new | running | closed
  deriving DecidableEq, Repr

/-- What is announced. -/
structure Service where
  port : Nat
  name : Text
  subtypes : List Text
  txt : List (Text × Text)
  deriving DecidableEq, Repr

structure St where
  state : DState := .setup
  productId : Option Text := none
  deviceId : Option Text := none
  enable : Bool := false
  /-- the sockets are being bound -/
  binding : Bool := false
  /-- the core is being closed -/
  closing : Bool := false
  published : Bool := false
  /-- `mdnsInstanceName` -/
  name : Text := []
  port : Nat := 0
  subtypes : List Text := []
  txt : List (Text × Text) := []
  server : Server := .new
  /-- what the mDNS server was told last -/
  told : Option Service := none
  deriving DecidableEq, Repr

def St.init : St := {}

/-- `nn_string_map_insert`; `none`: no memory. -/
def insertTxt (i : Insert) (m : List (Text × Text)) (k v : Text) (mem : Bool) : Option (List (Text × Text)) :=
  match i with
  | .keep => if m.any (·.1 == k) then some m else if mem then some (m ++ [(k, v)]) else none
  | .overwrite => if mem then some (m.filter (·.1 != k) ++ [(k, v)]) else none
  | .duplicate => if mem then some (m ++ [(k, v)]) else none

/-- `nn_string_set_insert`. -/
def insertSub (l : List Text) (t : Text) (mem : Bool) : Option (List Text) :=
  if l.contains t then some l else if mem then some (l ++ [t]) else none

/-- `"productid"`. -/
def productKey : Text := [112, 114, 111, 100, 117, 99, 116, 105, 100]

/-- `"deviceid"`. -/
def deviceKey : Text := [100, 101, 118, 105, 99, 101, 105, 100]

/-- `publish_service`, nm_mdns_server.c:220-238. -/
def St.publish (s : St) : St :=
  let s := if s.server = .new then { s with server := .running } else s
  if s.server = .running then { s with told := some ⟨s.port, s.name, s.subtypes, s.txt⟩ } else s

/-- `reload_mdns`, nc_device.c:634-642; `unpublish_service` does nothing, nm_mdns_server.c:240-244. -/
def St.reload (s : St) : St := if s.published then s.publish else s

/-- `nc_device_enable_mdns`, nc_device.c:677-687. -/
def St.enableMdns (cfg : Cfg) (s : St) : St × Ec :=
  if !cfg.cap then (s, .notImplemented)
  else if s.state ≠ .setup then (s, .invalidState)
  else ({ s with enable := true }, .ok)

/-- `nc_device_mdns_add_subtype`, nc_device.c:689-699. -/
def St.addSubtype (cfg : Cfg) (s : St) (t : Text) (mem : Bool) : St × Ec :=
  if !cfg.cap then (s, .notImplemented)
  else
    match insertSub s.subtypes t mem with
    | none => (s, .outOfMemory)
    | some l => ({ s with subtypes := l }.reload, .ok)

/-- `nc_device_mdns_add_txt_item`, nc_device.c:702-714: the key is erased and inserted. -/
def St.addTxt (cfg : Cfg) (s : St) (k v : Text) (mem : Bool) : St × Ec :=
  if !cfg.cap then (s, .notImplemented)
  else
    let s := { s with txt := s.txt.filter (·.1 != k) }
    match insertTxt cfg.insert s.txt k v mem with
    | none => (s, .outOfMemory)
    | some m => ({ s with txt := m }.reload, .ok)

/-- `<product id>-<device id>`. -/
def unique (p d : Text) : Text := p ++ [45] ++ d

/-- `nc_device_populate_mdns`, nc_device.c:306-341. `mem`: whether there is memory for the four strings. -/
def St.populate (cfg : Cfg) (s : St) (p d : Text) (mem : Bool × Bool × Bool × Bool) : St × Ec :=
  match insertTxt cfg.insert s.txt productKey p mem.1 with
  | none => (s, .outOfMemory)
  | some m1 =>
    match insertTxt cfg.insert m1 deviceKey d mem.2.1 with
    | none => ({ s with txt := m1 }, .outOfMemory)
    | some m2 =>
      if 63 < p.length + 1 + d.length then ({ s with txt := m2 }, .invalidState)
      else
        match insertSub s.subtypes (unique p d) mem.2.2.1 with
        | none => ({ s with txt := m2 }, .outOfMemory)
        | some l =>
          if mem.2.2.2 then ({ s with txt := m2, subtypes := l, name := unique p d }, .ok)
          else ({ s with txt := m2, subtypes := l, name := [] }, .outOfMemory)

/-- `nabto_device_start`, nabto_device.c:488-518, and `nc_device_start`, nc_device.c:394-433. `pre`: the keys are set and there is
memory for the host name. -/
def St.start (cfg : Cfg) (s : St) (pre : Bool) (mem : Bool × Bool × Bool × Bool) : St × Ec :=
  match s.productId, s.deviceId with
  | some p, some d =>
    if !pre then (s, .outOfMemory)
    else
      match s.populate cfg p d mem with
      | (s, .ok) => ({ s with state := .running, binding := true }, .ok)
      | (s, ec) => (s, ec)
  | _, _ => (s, .invalidState)

/-- The binding of the sockets has ended, nc_device.c:245-303, and `nc_device_sockets_bound`, nc_device.c:343-389.
`bind`: the sockets could be bound; `attach`: the attacher could be started, or need not be. Simplified: the three sockets are bound at
once. -/
def St.bound (cfg : Cfg) (s : St) (port : Nat) (bind attach : Bool) : St :=
  let s := { s with binding := false, port := port }
  if s.state = .stopped then s
  else if !bind then { s with state := .stopped }
  else if !attach then s
  else if s.enable && cfg.cap then { s.publish with published := true } else s

inductive Op
  | setProduct (t : Text) (mem : Bool)
  | setDevice (t : Text) (mem : Bool)
  | enable
  | addSubtype (t : Text) (mem : Bool)
  | addTxt (k v : Text) (mem : Bool)
  | start (pre : Bool) (mem : Bool × Bool × Bool × Bool)
  | bound (port : Nat) (bind attach : Bool)
  /-- `nabto_device_close` -/
  | close
  /-- the core is closed -/
  | coreClosed
  deriving DecidableEq, Repr

def step (cfg : Cfg) (s : St) : Op → Option (St × Ec)
  -- `nc_device_set_product_id`, nc_device.c:604-612
  | .setProduct t mem => some (if mem then ({ s with productId := some t }, .ok) else ({ s with productId := none }, .outOfMemory))
  | .setDevice t mem => some (if mem then ({ s with deviceId := some t }, .ok) else ({ s with deviceId := none }, .outOfMemory))
  | .enable => some (s.enableMdns cfg)
  | .addSubtype t mem => some (s.addSubtype cfg t mem)
  | .addTxt k v mem => some (s.addTxt cfg k v mem)
  | .start pre mem => if s.state = .setup then some (s.start cfg pre mem) else none
  | .bound port bind attach => if s.binding then some (s.bound cfg port bind attach, .ok) else none
  -- `nc_device_close`, nc_device.c:468-485
  | .close => some (if s.state = .running then ({ s with state := .stopped, closing := true }, .ok) else (s, .invalidState))
  -- `nabto_device_core_closed_cb`, nabto_device.c:653-661, and `nm_mdns_server_close`, nm_mdns_server.c:141-155
  | .coreClosed =>
    if s.closing then some ({ s with closing := false, server := if s.server = .running then .closed else s.server }, .ok) else none

def runFrom (cfg : Cfg) (s : St) : List Op → Option St
  | [] => some s
  | op :: ops => (step cfg s op).bind fun r => runFrom cfg r.1 ops

def run (cfg : Cfg) (ops : List Op) : Option St := runFrom cfg St.init ops

/-- What the answers of the mDNS server are made of. -/
def announced (cfg : Cfg) (s : St) : Option Service :=
  if s.server = .running then
    if cfg.byRef then s.told.map fun v => { v with subtypes := s.subtypes, txt := s.txt } else s.told
  else none

end Verif.Device.Announce
