/-!
# The settings of a device

Model of the functions of `src/api/nabto_device.c` which set and get the product id, the device id, the server url, the name
and version of the application and the private key, and of what `nabto_device_start` hands on to the core.

Strings are allocated; an address is never used twice in the model, so that an address in `freed` is one which is not valid
any more. What is left out: the parsing of keys. `K` is the type of the texts of private keys; the environment tells whether
a certificate and a fingerprint can be made.
-/

namespace Verif.Device.Identity

abbrev Text := List UInt8

/-- A string on the heap. -/
structure Str where
  addr : Nat
  text : Text
  deriving DecidableEq, Repr

/-- What the core is started with: nc_device.c:394-433 and nc_device.c:229-243. -/
structure Launch (K : Type) where
  certificate : K
  privateKey : K
  fingerprint : List UInt8
  productId : Text
  deviceId : Text
  host : Text
  appName : Option Text
  appVersion : Option Text
  instanceName : Text
  deriving DecidableEq, Repr

structure St (K : Type) where
  productId : Option Str
  deviceId : Option Str
  /-- `hostname`: the server url, or the default after a start -/
  host : Option Str
  appName : Option Str
  appVersion : Option Str
  privateKey : Option K
  /-- the key of which `certificate` was made -/
  certificate : Option K
  fingerprint : List UInt8
  next : Nat
  freed : List Nat
  launched : List (Launch K)
  deriving DecidableEq, Repr

/-- `nabto_device_new`, nabto_device.c:73-184: the memory is zero. -/
def St.init {K : Type} : St K :=
  { productId := none, deviceId := none, host := none, appName := none, appVersion := none, privateKey := none,
    certificate := none, fingerprint := List.replicate 32 0, next := 0, freed := [], launched := [] }

inductive Ec
  | ok | outOfMemory | invalidState | stringTooLong | unknown
  deriving DecidableEq, Repr

inductive Field
  | productId | deviceId | serverUrl | appName | appVersion
  deriving DecidableEq, Repr

variable {K : Type}

def St.get (s : St K) : Field → Option Str
  | .productId => s.productId
  | .deviceId => s.deviceId
  | .serverUrl => s.host
  | .appName => s.appName
  | .appVersion => s.appVersion

def St.put (s : St K) (v : Option Str) : Field → St K
  | .productId => { s with productId := v }
  | .deviceId => { s with deviceId := v }
  | .serverUrl => { s with host := v }
  | .appName => { s with appName := v }
  | .appVersion => { s with appVersion := v }

/-- `np_free` of a string. -/
def St.free (s : St K) : Option Str → St K
  | none => s
  | some a => { s with freed := a.addr :: s.freed }

/-- `nn_strdup`. -/
def St.strdup (s : St K) (t : Text) (mem : Bool) : St K × Option Str :=
  if mem then ({ s with next := s.next + 1 }, some ⟨s.next, t⟩) else (s, none)

/-- `nc_device_set_product_id` and the functions like it, nc_device.c:573-632; `nabto_device_set_app_name`,
nabto_device.c:367-378, and `nabto_device_set_app_version`, nabto_device.c:389-400, look at the length first. -/
def St.set (s : St K) (f : Field) (t : Text) (mem : Bool) : St K × Ec :=
  if (f = .appName ∨ f = .appVersion) ∧ 32 < t.length then (s, .stringTooLong)
  else
    let s1 := s.free (s.get f)
    let (s2, v) := s1.strdup t mem
    (s2.put v f, if v.isSome then .ok else .outOfMemory)

/-- `nabto_device_set_private_key`, nabto_device.c:327-365. `crt` and `fp`: the certificate and the fingerprint, if they can
be made. -/
def St.setKey (s : St K) (k : K) (mem crt : Bool) (fp : Option (List UInt8)) : St K × Ec :=
  if !mem then ({ s with privateKey := none }, .outOfMemory)
  else if !crt then ({ s with privateKey := some k, certificate := none }, .unknown)
  else
    match fp with
    | none => ({ s with privateKey := some k, certificate := some k }, .unknown)
    | some h => ({ s with privateKey := some k, certificate := some k, fingerprint := h }, .ok)

def digit (n : Nat) : Char := if n < 10 then Char.ofNat (48 + n) else Char.ofNat (87 + n)

/-- `toHex`, nabto_device.c:520-533. -/
def toHex (d : List UInt8) : List Char := d.flatMap fun b => [digit (b.toNat / 16), digit (b.toNat % 16)]

/-- `nabto_device_get_device_fingerprint`, nabto_device.c:535-549: the code, and the string. -/
def St.getFingerprint (s : St K) (mem : Bool) : Ec × Option (List Char) :=
  match s.privateKey with
  | none => (.invalidState, none)
  | some _ => (.ok, if mem then some (toHex (s.fingerprint.take 32)) else none)

/-- `defaultServerUrlSuffix`, nabto_device.c:51: ".devices.nabto.net". -/
def suffix : Text := ".devices.nabto.net".toUTF8.toList

/-- `nc_device_start`, nc_device.c:394-433, with `nc_device_populate_mdns`, nc_device.c:306-341: up to the binding of the
sockets. `hostMem`: the default host name can be allocated; `mdnsMem`: the records for mDNS can. -/
def St.launch (s : St K) (cert key : K) (hostMem mdnsMem : Bool) : St K × Ec :=
  match s.deviceId, s.productId with
  | some d, some p =>
    let r : Option (St K × Str) :=
      match s.host with
      | some h => some (s, h)
      | none =>
        if hostMem then
          let h : Str := ⟨s.next, p.text ++ suffix⟩
          some ({ s with next := s.next + 1, host := some h }, h)
        else none
    match r with
    | none => (s, .outOfMemory)
    | some (s1, h) =>
      if 63 < p.text.length + 1 + d.text.length then (s1, .invalidState)
      else if !mdnsMem then (s1, .outOfMemory)
      else
        ({ s1 with launched := s1.launched ++
            [⟨cert, key, s.fingerprint, p.text, d.text, h.text, s.appName.map (·.text), s.appVersion.map (·.text),
              p.text ++ [45] ++ d.text⟩] }, .ok)
  | _, _ => (s, .invalidState)

/-- `nabto_device_start`, nabto_device.c:488-517. `keysOk`: the attacher and the DTLS server take the keys. -/
def St.start (s : St K) (keysOk hostMem mdnsMem : Bool) : St K × Ec :=
  match s.certificate, s.privateKey with
  | some c, some k => if keysOk then s.launch c k hostMem mdnsMem else (s, .unknown)
  | _, _ => (s, .invalidState)

inductive Op (K : Type)
  | set (f : Field) (t : Text) (mem : Bool)
  | setKey (k : K) (mem crt : Bool) (fp : Option (List UInt8))
  | start (keysOk hostMem mdnsMem : Bool)
  deriving DecidableEq, Repr

def step (s : St K) : Op K → St K × Ec
  | .set f t mem => s.set f t mem
  | .setKey k mem crt fp => s.setKey k mem crt fp
  | .start a b c => s.start a b c

def run (ops : List (Op K)) : St K := ops.foldl (fun s op => (step s op).1) St.init

end Verif.Device.Identity
