/-!
# Which key a device has after it was started — model

`nabto_device_start` gives certificate and private key to the DTLS client and to the DTLS server of the device, each time
it is called: `nc_device_set_keys`, then `set_keys` of `nm_mbedtls_cli.c`, `nm_mbedtls_srv.c`, `nm_wolfssl_cli.c` and
`nm_wolfssl_srv.c`.

Simplifications: a number stands for a private key, its certificate and its fingerprint, which `Device/Keys` relates. What
the libraries do is not in the repository. For MbedTLS the documentation is taken: `mbedtls_x509_crt_parse` appends to the
chain it is given; `mbedtls_pk_parse_key` wants an empty context and `mbedtls_ctr_drbg_seed` one which was not seeded, and
what they do otherwise is a parameter (`Tolerance`). For wolfSSL: `wolfSSL_CTX_use_PrivateKey_buffer` and
`wolfSSL_CTX_use_certificate_buffer` replace what was there. A certificate or key which does not parse adds nothing.
-/

namespace Verif.Dtls.Identity

inductive Lib | mbed | wolf
  deriving DecidableEq, Repr

/-- Blocks of memory the libraries allocate. -/
inductive Obj | cert (k : Nat) | key (k : Nat)
  deriving DecidableEq, Repr

/-- Which steps of a start work. -/
structure Works where
  cliCrt : Bool := true
  cliPk : Bool := true
  cliOwn : Bool := true
  srvConf : Bool := true
  srvSeed : Bool := true
  srvCrt : Bool := true
  srvPk : Bool := true
  srvOwn : Bool := true
  core : Bool := true
  deriving DecidableEq, Repr

/-- What MbedTLS does when it is used against its documentation: whether seeding again works, and what is in a context with
key `j`, into which key `k` is parsed, and whether that works. -/
structure Tolerance where
  seed : Bool
  pk : (j k : Nat) → Option Nat × Bool

/-- Answers of `nabto_device_start`. -/
inductive Ec | ok | invalidState | unknown | outOfMemory
  deriving DecidableEq, Repr

structure St where
  /-- `privateKey`, `certificate` and `fingerprint` of the device -/
  key : Option Nat := none
  /-- product id and device id are set -/
  ids : Bool := false
  /-- `fingerprint` of the core, used in password authentication -/
  fp : Option Nat := none
  /-- `publicKey` and `privateKey` of the DTLS client -/
  cliCrt : List Nat := []
  cliPk : Option Nat := none
  /-- `publicKey` and `privateKey` of the DTLS server -/
  srvCrt : List Nat := []
  srvPk : Option Nat := none
  /-- `ctr_drbg` of the DTLS server is seeded -/
  seeded : Bool := false
  /-- memory which nothing points to any more -/
  lost : List Obj := []
  /-- a library was used against its documentation -/
  misuse : Bool := false
  deriving DecidableEq, Repr

/-- `set_keys`, nm_mbedtls_cli.c:473-514. Both contexts are initialised without being freed (lines 482-483). The two calls
of `mbedtls_ssl_conf_own_cert` are one step. -/
def St.cliMbed (s : St) (k : Nat) (w : Works) : St × Bool :=
  let s1 := { s with lost := s.lost ++ s.cliCrt.map .cert ++ (s.cliPk.map .key).toList, cliCrt := [], cliPk := none }
  if !w.cliCrt then (s1, false)
  else
    let s2 := { s1 with cliCrt := s1.cliCrt ++ [k] }
    if !w.cliPk then (s2, false)
    else ({ s2 with cliPk := some k }, w.cliOwn)

/-- Whether `mbedtls_ctr_drbg_seed` works, nm_mbedtls_srv.c:528-530. -/
def St.seeds (t : Tolerance) (s : St) (w : Works) : Bool := if s.seeded then t.seed else w.srvSeed

/-- `nm_mbedtls_srv_init_config`, nm_mbedtls_srv.c:507-573. -/
def St.srvMbed (t : Tolerance) (s : St) (k : Nat) (w : Works) : St × Bool :=
  if !w.srvConf then (s, false)
  else
    let s1 := { s with misuse := s.misuse || s.seeded }
    if !s.seeds t w then (s1, false)
    else
      let s2 := { s1 with seeded := true }
      if !w.srvCrt then (s2, false)
      else
        let s3 := { s2 with srvCrt := s2.srvCrt ++ [k] }
        match s3.srvPk with
        | none => if !w.srvPk then (s3, false) else ({ s3 with srvPk := some k }, w.srvOwn)
        | some j => ({ s3 with misuse := true, srvPk := (t.pk j k).1 }, (t.pk j k).2 && w.srvOwn)

/-- `set_keys`, nm_wolfssl_cli.c:349-366. -/
def St.cliWolf (s : St) (k : Nat) (w : Works) : St × Bool :=
  if !w.cliPk then (s, false)
  else
    let s1 := { s with cliPk := some k }
    if !w.cliCrt then (s1, false) else ({ s1 with cliCrt := [k] }, true)

/-- `nm_wolfssl_srv_init_config`, nm_wolfssl_srv.c:556-591. -/
def St.srvWolf (s : St) (k : Nat) (w : Works) : St × Bool :=
  if !w.srvConf then (s, false)
  else if !w.srvPk then (s, false)
  else
    let s1 := { s with srvPk := some k }
    if !w.srvCrt then (s1, false) else ({ s1 with srvCrt := [k] }, true)

/-- `nc_device_set_keys`, nc_device.c:229-243. -/
def St.setKeys (l : Lib) (t : Tolerance) (s : St) (k : Nat) (w : Works) : St × Bool :=
  let s1 := { s with fp := some k }
  let r := match l with
    | .mbed => s1.cliMbed k w
    | .wolf => s1.cliWolf k w
  if !r.2 then r
  else match l with
    | .mbed => r.1.srvMbed t k w
    | .wolf => r.1.srvWolf k w

/-- `nabto_device_start`, nabto_device.c:488-517, up to the start of the core, nc_device.c:402-421. It does not look whether
the device was started before. -/
def St.start (l : Lib) (t : Tolerance) (s : St) (w : Works) : St × Ec :=
  match s.key with
  | none => (s, .invalidState)
  | some k =>
    let r := s.setKeys l t k w
    if !r.2 then (r.1, .unknown)
    else if !s.ids then (r.1, .invalidState)
    else if !w.core then (r.1, .outOfMemory)
    else (r.1, .ok)

inductive Op
  /-- `nabto_device_set_private_key` succeeds, nabto_device.c:326-365 -/
  | setKey (k : Nat)
  /-- `nabto_device_set_product_id` and `nabto_device_set_device_id` succeed -/
  | setIds
  | start (w : Works)
  deriving DecidableEq, Repr

def step (l : Lib) (t : Tolerance) (s : St) : Op → St
  | .setKey k => { s with key := some k }
  | .setIds => { s with ids := true }
  | .start w => (s.start l t w).1

def run (l : Lib) (t : Tolerance) (ops : List Op) : St := ops.foldl (step l t) {}

end Verif.Dtls.Identity
