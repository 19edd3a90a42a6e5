import Verif.Stream.Ops

/-!
# Virtual streams (model, C46)

Model of `src/core/nc_virtual_stream.c` with the functions of `src/core/nc_stream.c` as far as they concern
virtual streams. A virtual stream has two ends in the same process: the device's application (the server,
`nc_stream_async_*`) and the one which uses the virtual connection (the client,
`nc_virtual_stream_client_*`). Bytes are copied from the buffer of a write into the buffer of a read.

An operation is named by its completion event (type `E`). A read which waits is one record, since the two
pointers `readAllEv` and `readSomeEv` are never set at the same time: every function which sets one of them
first looks that both are NULL.
-/

namespace Verif.Stream.Virtual

open Verif.Stream (Ec)

/-- The two ends. -/
inductive Side where
  | server | client
deriving DecidableEq, Repr

/-- A read which waits: `all` says that it is a read of exactly `readLeft + got.length` bytes, `left` is
`readBufferLength`, `got` are the bytes in the buffer. -/
structure Rdr (E : Type) where
  ev : E
  all : Bool
  left : Nat
  got : List UInt8
deriving DecidableEq, Repr

/-- A write which waits: its event and the bytes which have not been copied. -/
structure Wrr (E : Type) where
  ev : E
  rest : List UInt8
deriving DecidableEq, Repr

/-- The parts of `struct nc_stream_context` and `struct nc_virtual_stream_context` (nc_stream.h:23-81) which a
virtual stream uses: `sRd`, `sWr`, `sClosed`, `sCl` of the server, `cRd`, `cWr`, `cClosed`, `cCl` of the
client (`virt`), `opened` is `virt.openedEv`, `vstopped` is `virt.stopped`. -/
structure St (E : Type) where
  stopped : Bool
  vstopped : Bool
  opened : Option E
  sRd : Option (Rdr E)
  sWr : Option (Wrr E)
  sClosed : Bool
  sCl : Option E
  cRd : Option (Rdr E)
  cWr : Option (Wrr E)
  cClosed : Bool
  cCl : Option E
deriving DecidableEq, Repr

variable {E : Type}

/-- `nc_virtual_stream_init` (nc_virtual_stream.c:12-31), when there is a listener for the port; the context was
allocated with `np_calloc`. The other case is in `Verif.Stream.Manager`. -/
def St.init (e : E) : St E :=
  { stopped := false, vstopped := false, opened := some e, sRd := none, sWr := none, sClosed := false,
    sCl := none, cRd := none, cWr := none, cClosed := false, cCl := none }

/-- An operation of an end is completed, with the bytes in its buffer if it is a read. -/
inductive Out (E : Type) where
  | done (side : Side) (e : E) (ec : Ec) (got : List UInt8)
deriving DecidableEq, Repr

/-- Complete an operation which does not read, if there is one. -/
def finish (side : Side) (ev : Option E) (ec : Ec) : List (Out E) :=
  match ev with
  | some e => [.done side e ec []]
  | none => []

/-- Complete a write, if there is one. -/
def finishWr (side : Side) (w : Option (Wrr E)) (ec : Ec) : List (Out E) := finish side (w.map (·.ev)) ec

/-- Complete a read, if there is one. -/
def finishRd (side : Side) (r : Option (Rdr E)) (ec : Ec) : List (Out E) :=
  match r with
  | some r => [.done side r.ev ec r.got]
  | none => []

/-- `nc_stream_resolve_read` (nc_stream.c:497-513). -/
def resolveRead (s : St E) (ec : Ec) : St E × List (Out E) :=
  ({ s with sRd := none }, finishRd .server s.sRd ec)

/-- `nc_virtual_stream_resolve_read` (nc_virtual_stream.c:179-194). -/
def cResolveRead (s : St E) (ec : Ec) : St E × List (Out E) :=
  ({ s with cRd := none }, finishRd .client s.cRd ec)

/-- `nc_virtual_stream_resolve_write` (nc_virtual_stream.c:97-111). -/
def cResolveWrite (s : St E) (ec : Ec) : St E × List (Out E) :=
  let o1 := finishWr .client s.cWr ec
  let s1 := { s with cWr := none }
  let (s2, o2) :=
    match s1.sRd with
    | some r => if s1.cClosed && r.all then resolveRead s1 .ok else (s1, [])
    | none => (s1, [])
  if s2.cClosed then ({ s2 with cCl := none }, o1 ++ o2 ++ finish .client s2.cCl .ok)
  else (s2, o1 ++ o2)

/-- `nc_virtual_stream_do_write` (nc_virtual_stream.c:114-148), called with a write of the client. -/
def cDoWrite (s : St E) : St E × List (Out E) :=
  match s.sRd, s.cWr with
  | some r, some w =>
    let b := w.rest.take r.left
    let s1 := { s with sRd := some { r with got := r.got ++ b } }
    if w.rest.length > r.left then
      resolveRead { s1 with cWr := some { w with rest := w.rest.drop b.length } } .ok
    else if w.rest.length < r.left && r.all then
      cResolveWrite { s1 with sRd := some { r with got := r.got ++ b, left := r.left - b.length } } .ok
    else
      let (s2, o2) := resolveRead s1 .ok
      let (s3, o3) := cResolveWrite s2 .ok
      (s3, o2 ++ o3)
  | _, _ => (s, [])

/-- `nc_virtual_stream_do_read` (nc_virtual_stream.c:196-234), called with a read of the client. -/
def cDoRead (s : St E) : St E × List (Out E) :=
  match s.cRd, s.sWr with
  | some r, some w =>
    let b := w.rest.take r.left
    let s1 := { s with cRd := some { r with got := r.got ++ b } }
    let (s2, o2) :=
      if w.rest.length > r.left then
        cResolveRead { s1 with sWr := some { w with rest := w.rest.drop b.length } } .ok
      else if w.rest.length < r.left && r.all then
        ({ s1 with cRd := some { r with got := r.got ++ b, left := r.left - b.length }, sWr := none },
          [.done .server w.ev .ok []])
      else
        let (s2, o2) := cResolveRead { s1 with sWr := none } .ok
        (s2, .done .server w.ev .ok [] :: o2)
    if s2.sWr.isNone && s2.sClosed then ({ s2 with sCl := none }, o2 ++ finish .server s2.sCl .ok)
    else (s2, o2)
  | _, _ => (s, [])

/-- The operations of the two ends. `stop` is `nc_stream_stop`: the application of the device aborts or frees
the stream or the virtual connection is closed; `cStop` is `nc_virtual_stream_client_stop`. -/
inductive Op (E : Type) where
  | accept (e : E)
  | readAll (e : E) (n : Nat)
  | readSome (e : E) (n : Nat)
  | write (e : E) (d : List UInt8)
  | close (e : E)
  | stop
  | cReadAll (e : E) (n : Nat)
  | cReadSome (e : E) (n : Nat)
  | cWrite (e : E) (d : List UInt8)
  | cClose (e : E)
  | cStop
deriving DecidableEq, Repr

/-- `nc_stream_async_accept` (nc_stream.c:364-384) with `nc_virtual_stream_server_accepted`
(nc_virtual_stream.c:77-88). -/
def accept (s : St E) (e : E) : St E × List (Out E) :=
  if s.stopped || s.vstopped then (s, [.done .server e .stopped []])
  else ({ s with opened := none }, finish .client s.opened .ok ++ [.done .server e .ok []])

/-- `nc_stream_async_read_all` (nc_stream.c:386-411), `nc_stream_do_read` (nc_stream.c:515-548) and
`nc_virtual_stream_server_read` (nc_virtual_stream.c:151-156). -/
def readAll (s : St E) (e : E) (n : Nat) : St E × List (Out E) :=
  if s.stopped || s.vstopped then (s, [.done .server e .stopped []])
  else if s.sRd.isSome then (s, [.done .server e .inProgress []])
  else if s.cClosed then (s, [.done .server e .eof []])
  else cDoWrite { s with sRd := some ⟨e, true, n, []⟩ }

/-- `nc_stream_async_read_some` (nc_stream.c:413-441). -/
def readSome (s : St E) (e : E) (n : Nat) : St E × List (Out E) :=
  if s.stopped || s.vstopped then (s, [.done .server e .stopped []])
  else if s.sRd.isSome then (s, [.done .server e .inProgress []])
  else if s.cWr.isNone && s.cClosed then (s, [.done .server e .eof []])
  else cDoWrite { s with sRd := some ⟨e, false, n, []⟩ }

/-- `nc_stream_async_write` (nc_stream.c:443-470) with `nc_virtual_stream_server_write`
(nc_virtual_stream.c:236-241). -/
def write (s : St E) (e : E) (d : List UInt8) : St E × List (Out E) :=
  if s.stopped || s.vstopped then (s, [.done .server e .stopped []])
  else if s.sWr.isSome then (s, [.done .server e .inProgress []])
  else if s.sClosed then (s, [.done .server e .closed []])
  else cDoRead { s with sWr := some ⟨e, d⟩ }

/-- `nc_stream_async_close` (nc_stream.c:472-495) with `nc_virtual_stream_server_close`
(nc_virtual_stream.c:298-311). -/
def close (s : St E) (e : E) : St E × List (Out E) :=
  if s.stopped || s.vstopped then (s, [.done .server e .stopped []])
  else if s.sCl.isSome then (s, [.done .server e .inProgress []])
  else
    let s1 := { s with sCl := some e, sClosed := true }
    if s1.sWr.isSome then (s1, [])
    else
      let (s2, o2) := cResolveRead s1 .eof
      ({ s2 with sCl := none }, o2 ++ finish .server s2.sCl .ok)

/-- `nc_stream_stop` (nc_stream.c:635-679). -/
def stop (s : St E) : St E × List (Out E) :=
  if s.stopped then (s, [])
  else
    ({ s with stopped := true, sRd := none, sWr := none, sCl := none },
     finishRd .server s.sRd .aborted ++ finishWr .server s.sWr .aborted ++ finish .server s.sCl .aborted)

/-- `nc_virtual_stream_client_async_read_all` (nc_virtual_stream.c:243-261). -/
def cReadAll (s : St E) (e : E) (n : Nat) : St E × List (Out E) :=
  if s.cRd.isSome then (s, [.done .client e .inProgress []])
  else if s.sClosed then (s, [.done .client e .eof []])
  else cDoRead { s with cRd := some ⟨e, true, n, []⟩ }

/-- `nc_virtual_stream_client_async_read_some` (nc_virtual_stream.c:263-281). -/
def cReadSome (s : St E) (e : E) (n : Nat) : St E × List (Out E) :=
  if s.cRd.isSome then (s, [.done .client e .inProgress []])
  else if s.sClosed then (s, [.done .client e .eof []])
  else cDoRead { s with cRd := some ⟨e, false, n, []⟩ }

/-- `nc_virtual_stream_client_async_write` (nc_virtual_stream.c:158-177). -/
def cWrite (s : St E) (e : E) (d : List UInt8) : St E × List (Out E) :=
  if s.stopped || s.vstopped then (s, [.done .client e .stopped []])
  else if s.cClosed then (s, [.done .client e .closed []])
  else if s.cWr.isSome then (s, [.done .client e .inProgress []])
  else cDoWrite { s with cWr := some ⟨e, d⟩ }

/-- `nc_virtual_stream_client_async_close` (nc_virtual_stream.c:283-295); a close which waits is
overwritten. -/
def cClose (s : St E) (e : E) : St E × List (Out E) :=
  if s.cWr.isSome then ({ s with cClosed := true, cCl := some e }, [])
  else
    let (s1, o1) := resolveRead { s with cClosed := true } .eof
    (s1, o1 ++ [.done .client e .ok []])

/-- `nc_virtual_stream_client_stop` (nc_virtual_stream.c:33-74). -/
def cStop (s : St E) : St E × List (Out E) :=
  if s.vstopped then (s, [])
  else
    ({ s with vstopped := true, opened := none, cRd := none, cWr := none, cCl := none, sRd := none,
              sWr := none },
     finish .client s.opened .aborted ++ finishRd .client s.cRd .aborted ++
       finishWr .client s.cWr .aborted ++ finish .client s.cCl .aborted ++
       finishRd .server s.sRd .aborted ++ finishWr .server s.sWr .aborted)

/-- One step. -/
def step (s : St E) : Op E → St E × List (Out E)
  | .accept e => accept s e
  | .readAll e n => readAll s e n
  | .readSome e n => readSome s e n
  | .write e d => write s e d
  | .close e => close s e
  | .stop => stop s
  | .cReadAll e n => cReadAll s e n
  | .cReadSome e n => cReadSome s e n
  | .cWrite e d => cWrite s e d
  | .cClose e => cClose s e
  | .cStop => cStop s

/-- A history. -/
def run (s : St E) : List (Op E) → St E × List (Out E)
  | [] => (s, [])
  | op :: ops =>
    let (s1, o1) := step s op
    let (s2, o2) := run s1 ops
    (s2, o1 ++ o2)

end Verif.Stream.Virtual
