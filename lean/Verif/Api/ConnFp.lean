import Verif.Util.Hex

/-!
# Fingerprints of connections

Model of the functions of `src/api/nabto_device_virtual_connection.c` and `src/api/nabto_device.c` which make virtual
connections and tell the application who is at the two ends of a connection, with `src/core/nc_virtual_connection.c` and
the getters of `src/core/nc_connection.c`.

Strings given to the functions are C strings, written without their terminating zero. Strings handed out are blocks of
memory: all bytes of the block, with a terminating zero if there is one. Blocks are counted when they are made and when
they are freed. A connection is named by its reference; references count upwards (`nc_device_next_connection_ref`; what
happens after 2^64 connections is in `Verif.Core.Conn`). A handle of a virtual connection is named by the reference of
the connection. Left out: CoAP requests and streams on virtual connections (`Verif.Core.VirtualCoap`,
`Verif.Core.VirtualStream`), and the limit of connections (`Verif.Core.Conn`).
-/

namespace Verif.Api.ConnFp

open Verif.Util.Hex

abbrev Bytes := List UInt8

/-- The codes that occur, `nabto_device.h`. -/
inductive Ec
  | ok | invalidArgument | outOfMemory | invalidConnection | invalidState
  deriving DecidableEq, Repr

/-- `struct nc_connection` with `struct nc_virtual_connection` (`virt`) or `struct nc_client_connection`. -/
structure Conn where
  ref : Nat
  virt : Bool
  /-- virtual: `clientFingerprint`; else what the DTLS session tells, `none` if it fails -/
  cfp : Option Bytes := none
  /-- `deviceFingerprint` of a virtual connection -/
  dfp : Option Bytes := none
  /-- the current channel of a client connection uses the local socket -/
  isLocal : Bool := false
  deriving DecidableEq, Repr

structure W where
  conns : List Conn := []
  last : Nat := 0
  /-- `dev->fingerprint` if `dev->privateKey` is set -/
  device : Option Bytes := none
  made : Nat := 0
  freed : Nat := 0
  /-- undefined behaviour occurred -/
  bad : Bool := false
  deriving DecidableEq, Repr

/-- What the application observes. -/
inductive Out
  /-- a handle, or NULL -/
  | made (ref : Option Nat)
  /-- a code -/
  | ret (ec : Ec)
  /-- a code and a string -/
  | str (ec : Ec) (block : Option Bytes)
  | bool (b : Bool)
  /-- a connection event -/
  | event (ref : Nat) (closed : Bool)
  /-- the future is resolved -/
  | resolve (fut : Nat) (ec : Ec)
  deriving DecidableEq, Repr

/-- `nc_device_connection_from_ref`, `nc_device.c:499-503` and `nc_connection.c:127-136`. -/
def find (w : W) (ref : Nat) : Option Conn := w.conns.find? (·.ref = ref)

def W.put (w : W) (c : Conn) : W := { w with conns := w.conns.map fun k => if k.ref = c.ref then c else k }

def fault (w : W) : W := { w with bad := true }

def size : Option Bytes → Nat
  | some _ => 1
  | none => 0

/-- `nc_virtual_connection_destroy`, `nc_virtual_connection.c:21-30`, with `nc_connections_free_connection`,
`nc_connection.c:111-125`: the two fingerprints, the implementation and the connection are freed. -/
def destroy (w : W) (c : Conn) : W × List Out :=
  ({ w with
      conns := w.conns.filter fun k => k.ref ≠ c.ref
      freed := w.freed + size c.cfp + size c.dfp + 2 },
    [.event c.ref true])

/-- `nabto_device_virtual_connection_new`, `nabto_device_virtual_connection.c:71-91`, with `nc_virtual_connection_new`,
`nc_virtual_connection.c:9-19`, and `nc_connections_alloc_virtual_connection`, `nc_connection.c:86-109`. The flags tell
whether the connection, its implementation and the block of the API can be allocated. -/
def vnew (w : W) (m1 m2 m3 : Bool) : W × List Out :=
  let w := { w with made := w.made + m1.toNat + m2.toNat }
  if m1 && m2 then
    let c : Conn := { ref := w.last + 1, virt := true }
    let w := { w with last := w.last + 1, conns := w.conns ++ [c] }
    if m3 then ({ w with made := w.made + 1 }, [.event c.ref false, .made (some c.ref)])
    else
      let r := destroy w c
      (r.1, .event c.ref false :: r.2 ++ [.made none])
  else ({ w with freed := w.freed + m1.toNat + m2.toNat }, [.made none])

/-- `nabto_device_virtual_connection_free`, `nabto_device_virtual_connection.c:95-109`. -/
def vfree (w : W) (ref : Nat) : W × List Out :=
  match find w ref with
  | some c =>
    if c.virt then
      let r := destroy w c
      ({ r.1 with freed := r.1.freed + 1 }, r.2)
    else (fault w, [])
  | none => (fault w, [])

/-- `nabto_device_virtual_connection_close`, `nabto_device_virtual_connection.c:112-118`. -/
def vclose (w : W) (_ref : Nat) (_fut : Nat) : W × List Out := (w, [])

/-- Which of the two fingerprints. -/
inductive Side
  | client | device
  deriving DecidableEq, Repr

def Conn.fp (c : Conn) : Side → Option Bytes
  | .client => c.cfp
  | .device => c.dfp

def Conn.setFp (c : Conn) : Side → Option Bytes → Conn
  | .client, v => { c with cfp := v }
  | .device, v => { c with dfp := v }

/-- `nc_virtual_connection_set_client_fingerprint` and `nc_virtual_connection_set_device_fingerprint`,
`nc_virtual_connection.c:53-73`: the old one is freed first. -/
def coreSet (w : W) (c : Conn) (s : Side) (fp : Bytes) (mem : Bool) : W × Ec :=
  let w := { w with freed := w.freed + size (c.fp s) }
  if mem then ({ w.put (c.setFp s (some fp)) with made := w.made + 1 }, .ok)
  else (w.put (c.setFp s none), .outOfMemory)

/-- `nabto_device_virtual_connection_set_device_fingerprint` and `nabto_device_virtual_connection_set_client_fingerprint`,
`nabto_device_virtual_connection.c:120-155`. Only the first looks at the length of the string. The buffer is not checked:
without memory `np_hex_to_data` writes to address zero when the string has the right length (`np_util.c:9-19`). -/
def vset (w : W) (ref : Nat) (s : Side) (text : Bytes) (m1 m2 : Bool) : W × List Out :=
  match find w ref with
  | none => (fault w, [])
  | some c =>
    if !c.virt then (fault w, [])
    else if s = .device ∧ text.length ≠ 64 then (w, [.ret .invalidArgument])
    else if !m1 then
      if text.length = 64 ∨ text.length = 63 then (fault w, []) else (w, [.ret .invalidArgument])
    else
      match hexToData text 32 with
      | .ub => (fault w, [])
      | .reject => ({ w with made := w.made + 1, freed := w.freed + 1 }, [.ret .invalidArgument])
      | .ok fp =>
        let r := coreSet { w with made := w.made + 1 } c s fp m2
        ({ r.1 with freed := r.1.freed + 1 }, [.ret r.2])

/-- `nabto_device_connection_is_virtual`, `nabto_device_virtual_connection.c:165-177`. -/
def isVirtual (w : W) (ref : Nat) : Bool :=
  match find w ref with
  | some c => c.virt
  | none => false

/-- `nabto_device_connection_is_local`, `nabto_device.c:622-636`, with `nc_connection_is_local`, `nc_connection.c:207-216`. -/
def isLocal (w : W) (ref : Nat) : Bool :=
  match find w ref with
  | some c => if c.virt then false else c.isLocal
  | none => false

/-- Bytes written into a block; `none` if they do not fit. -/
def write (block : Bytes) (off : Nat) (bs : Bytes) : Option Bytes :=
  if off + bs.length ≤ block.length then some (block.take off ++ bs ++ block.drop (off + bs.length)) else none

/-- The loop of `toHex`, `nabto_device.c:527-531`: `sprintf` with "%02x" writes two digits and a zero. -/
def toHexGo (block : Bytes) (off : Nat) : Bytes → Option Bytes
  | [] => some block
  | b :: bs =>
    match write block off [encodeChar ((b >>> 4) &&& 0xF), encodeChar (b &&& 0xF), 0] with
    | some block => toHexGo block (off + 2) bs
    | none => none

/-- `toHex`, `nabto_device.c:519-533`, of the first `n` bytes; a block with zeros is allocated. -/
def toHex (w : W) (data : Bytes) (n : Nat) (mem : Bool) : W × Option Bytes :=
  if mem then
    match toHexGo (List.replicate (n * 2 + 1) 0) 0 (data.take n) with
    | some block => ({ w with made := w.made + 1 }, some block)
    | none => (fault w, none)
  else (w, none)

/-- `nabto_device_get_device_fingerprint` and `nabto_device_get_device_fingerprint_hex`, `nabto_device.c:535-566`. -/
def devFp (w : W) (n : Nat) (mem : Bool) : W × List Out :=
  match w.device with
  | none => (w, [.str .invalidState none])
  | some fp =>
    let r := toHex w fp n mem
    (r.1, [.str .ok r.2])

/-- `nabto_device_connection_get_client_fingerprint` and `nabto_device_connection_get_client_fingerprint_hex`,
`nabto_device.c:573-614`, with `nc_connection_get_client_fingerprint`, `nc_connection.c:184-195`, and
`nc_virtual_connection_get_client_fingerprint`, `nc_virtual_connection.c:76-83`. -/
def cliFp (w : W) (ref : Nat) (n : Nat) (mem : Bool) : W × List Out :=
  match find w ref with
  | none => (w, [.str .invalidConnection none])
  | some c =>
    match c.cfp with
    | none => (w, [.str .invalidConnection none])
    | some fp =>
      let r := toHex w fp n mem
      (r.1, [.str .ok r.2])

/-- `nabto_device_connection_get_device_fingerprint`, `nabto_device_virtual_connection.c:180-206`, with
`nc_connection_get_device_fingerprint`, `nc_connection.c:197-205`, and `nc_virtual_connection_get_device_fingerprint`,
`nc_virtual_connection.c:85-92`. The block for a virtual connection has 64 bytes and is not checked. -/
def connDev (w : W) (ref : Nat) (mem : Bool) : W × List Out :=
  if isVirtual w ref then
    match find w ref with
    | none => (w, [.str .invalidConnection none])
    | some c =>
      match c.dfp with
      | none => (w, [.str .invalidConnection none])
      | some fp =>
        if mem then
          match write (List.replicate 64 0) 0 (dataToHex (fp.take 32)) with
          | some block => ({ w with made := w.made + 1 }, [.str .ok (some block)])
          | none => (fault w, [])
        else (fault w, [])
  else devFp w 32 mem

/-- One call, or something that happens in the core. -/
inductive Call
  | vnew (m1 m2 m3 : Bool)
  | vfree (ref : Nat)
  | vclose (ref fut : Nat)
  | vset (ref : Nat) (s : Side) (text : Bytes) (m1 m2 : Bool)
  | isVirtual (ref : Nat)
  | isLocal (ref : Nat)
  | cliFp (ref : Nat) (short mem : Bool)
  | devFp (short mem : Bool)
  | connDev (ref : Nat) (mem : Bool)
  /-- `nabto_device_string_free`, `nabto_device_util.c:21-24`, of a string that was handed out -/
  | strFree
  /-- a private key is set, see `Verif.Device.Identity` -/
  | key (fp : Bytes)
  /-- a client connects; the fingerprint is that of its certificate if the session has one -/
  | client (fp : Option Bytes) (isLocal : Bool)
  /-- the channel of a client changes, `nc_client_connection.c:105-136` -/
  | channel (ref : Nat) (isLocal : Bool)
  /-- a client goes away, `nc_client_connection_destroy_connection`, `nc_client_connection.c:147-166` -/
  | gone (ref : Nat)
  deriving DecidableEq, Repr

/-- How many bytes of a fingerprint are shown: the functions with `_hex` in their names show half of it. -/
def shown (short : Bool) : Nat := if short then 16 else 32

def step (w : W) : Call → W × List Out
  | .vnew m1 m2 m3 => vnew w m1 m2 m3
  | .vfree r => vfree w r
  | .vclose r f => vclose w r f
  | .vset r s t m1 m2 => vset w r s t m1 m2
  | .isVirtual r => (w, [.bool (isVirtual w r)])
  | .isLocal r => (w, [.bool (isLocal w r)])
  | .cliFp r short mem => cliFp w r (shown short) mem
  | .devFp short mem => devFp w (shown short) mem
  | .connDev r mem => connDev w r mem
  | .strFree => ({ w with freed := w.freed + 1 }, [])
  | .key fp => ({ w with device := some fp }, [])
  | .client fp l =>
    ({ w with last := w.last + 1, conns := w.conns ++ [{ ref := w.last + 1, virt := false, cfp := fp, isLocal := l }] },
      [.event (w.last + 1) false])
  | .channel r l =>
    match find w r with
    | some c => (w.put { c with isLocal := l }, [])
    | none => (w, [])
  | .gone r => ({ w with conns := w.conns.filter fun k => k.ref ≠ r }, [.event r true])

def run (w : W) : List Call → W × List Out
  | [] => (w, [])
  | c :: cs =>
    let r := step w c
    let r' := run r.1 cs
    (r'.1, r.2 ++ r'.2)

end Verif.Api.ConnFp
