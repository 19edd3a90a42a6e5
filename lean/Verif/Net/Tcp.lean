/-
The TCP sockets of the two platforms: src/modules/select_unix/nm_select_unix_tcp.c (`Sel`) and
src/modules/libevent/nm_libevent_tcp.c (`Lev`).

One socket, the operations given to it, numbered in the order of the calls, what they were told,
and the bytes: those the peer sent and the socket has not taken (`kin`), those handed to the
system for sending, each with the number of its write (`out`).

The steps are atomic; the interleaving of the two threads inside a write of select is in `Race`.
The system decides how much is sent or received at a time and what fails.  Not modelled:
addresses, socket options, the descriptor sets (see `Loop`).
-/
namespace Verif.Net.Tcp

inductive Ec
  | ok | aborted | inProgress | eof | error
  deriving DecidableEq, Repr

inductive Kind
  | connect | write | read
  deriving DecidableEq, Repr

/-- What an operation was told; `data` is what a read has put into the buffer. -/
structure Ans where
  op : Nat
  kind : Kind
  ec : Ec
  data : List UInt8 := []
  deriving DecidableEq, Repr

/-- The completion events of a socket, and what has been resolved, oldest first. -/
structure Slots where
  /-- `connect.completionEvent`, `write.completionEvent`, `read.completionEvent` -/
  slot : Kind → Option Nat := fun _ => none
  /-- number of operations asked for -/
  asked : Nat := 0
  answers : List Ans := []

/-- Resolving the completion event of a call at once. -/
def Slots.refuse (s : Slots) (kind : Kind) (ec : Ec) : Slots :=
  { s with asked := s.asked + 1, answers := s.answers ++ [⟨s.asked, kind, ec, []⟩] }

/-- Storing the completion event of a call. -/
def Slots.place (s : Slots) (kind : Kind) : Slots :=
  { s with slot := fun j => if j = kind then some s.asked else s.slot j, asked := s.asked + 1 }

/-- Clearing and resolving the stored completion event, if there is one. -/
def Slots.resolve (s : Slots) (kind : Kind) (ec : Ec) (data : List UInt8) : Slots :=
  match s.slot kind with
  | some k =>
    { s with slot := fun j => if j = kind then none else s.slot j,
             answers := s.answers ++ [⟨k, kind, ec, data⟩] }
  | none => s

/-- The bytes of a write with the number of the write. -/
def tag (k : Nat) (l : List UInt8) : List (Nat × UInt8) := l.map (fun b => (k, b))

/-! ### select -/
namespace Sel

/-- What the start of a connect comes to. -/
inductive Conn
  | noSocket | connected | inProgress | failed
  deriving DecidableEq, Repr

structure St where
  /-- `fd` is valid -/
  opened : Bool := false
  /-- descriptors opened and not closed -/
  fds : Nat := 0
  sl : Slots := {}
  /-- `write.data` and `write.dataLength` -/
  wdata : List UInt8 := []
  /-- `read.bufferSize` -/
  rsize : Nat := 0
  aborted : Bool := false
  gone : Bool := false
  kin : List UInt8 := []
  /-- the peer has closed -/
  keof : Bool := false
  /-- everything the peer has sent -/
  peer : List UInt8 := []
  out : List (Nat × UInt8) := []

/-- `async_connect` (nm_select_unix_tcp.c:137-276). -/
def St.connect (s : St) (c : Conn) : St :=
  if s.aborted then { s with sl := s.sl.refuse .connect .aborted }
  else if (s.sl.slot .connect).isSome then { s with sl := s.sl.refuse .connect .inProgress }
  else
    let s : St := { s with sl := s.sl.place .connect }
    match c with
    | .noSocket => { s with sl := s.sl.resolve .connect .error [] }
    | .connected => { s with opened := true, fds := s.fds + 1, sl := s.sl.resolve .connect .ok [] }
    | .inProgress => { s with opened := true, fds := s.fds + 1 }
    | .failed => { s with opened := true, fds := s.fds + 1, sl := s.sl.resolve .connect .error [] }

/-- `async_write` (nm_select_unix_tcp.c:349-379). -/
def St.write (s : St) (d : List UInt8) : St :=
  if s.aborted then { s with sl := s.sl.refuse .write .aborted }
  else if (s.sl.slot .write).isSome then { s with sl := s.sl.refuse .write .inProgress }
  else { s with sl := s.sl.place .write, wdata := d }

/-- `async_read` (nm_select_unix_tcp.c:412-428). -/
def St.read (s : St) (size : Nat) : St :=
  if s.aborted then { s with sl := s.sl.refuse .read .aborted }
  else if (s.sl.slot .read).isSome then { s with sl := s.sl.refuse .read .inProgress }
  else { s with sl := s.sl.place .read, rsize := size }

/-- `tcp_abort` (nm_select_unix_tcp.c:435-456). -/
def St.abort (s : St) : St :=
  if s.aborted then s
  else { s with aborted := true,
                sl := ((s.sl.resolve .read .aborted []).resolve .write .aborted []).resolve .connect .aborted [] }

/-- `nm_select_unix_tcp_free_socket` (nm_select_unix_tcp.c:74-85). -/
def St.destroy (s : St) : St :=
  let s := s.abort
  { s with gone := true, fds := if s.opened then s.fds - 1 else s.fds }

/-- What `getsockopt(SO_ERROR)` gives (nm_select_unix_tcp.c:278-300). -/
inductive SoErr
  | none | inProgress | refused | other
  deriving DecidableEq, Repr

/-- What `send` and `recv` do; the number is the most that is taken. -/
inductive Io
  | again | fail | upTo (n : Nat)
  deriving DecidableEq, Repr

/-- `tcp_do_read` (nm_select_unix_tcp.c:381-410).  `recv` gives at least one byte if there is one
and the buffer is not empty. -/
def St.doRead (s : St) (io : Io) : St :=
  if (s.sl.slot .read).isSome then
    match io with
    | .again => s
    | .fail => { s with sl := s.sl.resolve .read .error [] }
    | .upTo n =>
      if s.rsize = 0 then { s with sl := s.sl.resolve .read .eof [] }
      else if s.kin = [] then
        if s.keof then { s with sl := s.sl.resolve .read .eof [] } else s
      else
        let m := max 1 (min n s.rsize)
        { s with kin := s.kin.drop m, sl := s.sl.resolve .read .ok (s.kin.take m) }
  else s

/-- `is_connected` (nm_select_unix_tcp.c:278-313). -/
def St.isConnected (s : St) (e : SoErr) : St :=
  match e with
  | .none => { s with sl := s.sl.resolve .connect .ok [] }
  | .inProgress => s
  | .refused => { s with sl := s.sl.resolve .connect .aborted [] }
  | .other => { s with sl := s.sl.resolve .connect .error [] }

/-- `tcp_do_write` (nm_select_unix_tcp.c:315-347). -/
def St.doWrite (s : St) (io : Io) : St :=
  match s.sl.slot .write with
  | some k =>
    match io with
    | .again => s
    | .fail => { s with sl := s.sl.resolve .write .error [] }
    | .upTo n =>
      let s : St := { s with out := s.out ++ tag k (s.wdata.take n), wdata := s.wdata.drop n }
      if s.wdata = [] then { s with sl := s.sl.resolve .write .ok [] } else s
  | none => s

/-- `nm_select_unix_tcp_handle_select` for this socket (nm_select_unix_tcp.c:87-108): whether its
descriptor is in the two sets, and what the system calls do. -/
def St.loop (s : St) (rd wr : Bool) (e : SoErr) (ri wi : Io) : St :=
  if s.opened then
    let s := if rd then s.doRead ri else s
    if wr then (s.isConnected e).doWrite wi else s
  else s

inductive Op
  | connect (c : Conn)
  | write (d : List UInt8)
  | read (size : Nat)
  | abort
  | destroy
  | loop (rd wr : Bool) (e : SoErr) (ri wi : Io)
  /-- bytes of the peer arrive -/
  | peer (l : List UInt8)
  | peerEof
  deriving DecidableEq, Repr

def St.step (s : St) (op : Op) : St :=
  if s.gone then s
  else match op with
    | .connect c => s.connect c
    | .write d => s.write d
    | .read n => s.read n
    | .abort => s.abort
    | .destroy => s.destroy
    | .loop rd wr e ri wi => s.loop rd wr e ri wi
    | .peer l => if s.keof then s else { s with kin := s.kin ++ l, peer := s.peer ++ l }
    | .peerEof => { s with keof := true }

def run (ops : List Op) : St := ops.foldl St.step {}

theorem run_snoc (ops : List Op) (op : Op) : run (ops ++ [op]) = (run ops).step op := by
  simp [run, List.foldl_append]

end Sel

/-! ### libevent

The buffer event of libevent: its two buffers, which directions are enabled, and whether it is
connected.  Assumed of libevent: it reads and writes only what is enabled, it disables the
direction in which it met an end or an error before it says so, it says so only then, and a call
that fails calls nothing back. -/
namespace Lev

inductive Phase
  | idle | connecting | connected
  deriving DecidableEq, Repr

structure St where
  sl : Slots := {}
  rsize : Nat := 0
  aborted : Bool := false
  gone : Bool := false
  phase : Phase := .idle
  /-- `EV_READ` and `EV_WRITE` are enabled -/
  rdOn : Bool := false
  wrOn : Bool := false
  ibuf : List UInt8 := []
  obuf : List (Nat × UInt8) := []
  kin : List UInt8 := []
  keof : Bool := false
  peer : List UInt8 := []
  out : List (Nat × UInt8) := []

/-- `tcp_async_connect` (nm_libevent_tcp.c:219-258).  The event is stored whether or not there is
one already. -/
def St.connect (s : St) (ok : Bool) : St :=
  let s : St := { s with sl := s.sl.place .connect, rdOn := true, wrOn := true }
  if ok then { s with phase := .connecting }
  else { s with sl := s.sl.resolve .connect .error [] }

/-- `tcp_async_write` (nm_libevent_tcp.c:260-277). -/
def St.write (s : St) (d : List UInt8) (ok : Bool) : St :=
  if (s.sl.slot .write).isSome then { s with sl := s.sl.refuse .write .inProgress }
  else
    let k := s.sl.asked
    let s : St := { s with sl := s.sl.place .write, wrOn := true }
    if ok then { s with obuf := s.obuf ++ tag k d }
    else { s with sl := s.sl.resolve .write .error [] }

/-- `bufferevent_read` and what follows in the two places where it is called
(nm_libevent_tcp.c:126-141, 292-298). -/
def St.take (s : St) : St :=
  if s.ibuf.take s.rsize = [] then s
  else { s with ibuf := s.ibuf.drop s.rsize, rdOn := false,
                sl := s.sl.resolve .read .ok (s.ibuf.take s.rsize) }

/-- `tcp_async_read` (nm_libevent_tcp.c:279-302).  If there is an event already it is that one that
is resolved, and it is not cleared. -/
def St.read (s : St) (size : Nat) : St :=
  match s.sl.slot .read with
  | some j =>
    { s with sl := { s.sl with asked := s.sl.asked + 1,
                               answers := s.sl.answers ++ [⟨j, .read, .inProgress, []⟩] } }
  | none =>
    let s : St := { s with sl := s.sl.place .read, rsize := size }
    if s.ibuf.take s.rsize = [] then { s with rdOn := true } else s.take

/-- `tcp_abort` (nm_libevent_tcp.c:314-324). -/
def St.abort (s : St) : St :=
  if s.aborted then s
  else { s with aborted := true,
                sl := ((s.sl.resolve .connect .aborted []).resolve .read .aborted []).resolve .write .aborted [] }

/-- `tcp_destroy` (nm_libevent_tcp.c:203-217). -/
def St.destroy (s : St) : St := { ({ s with rdOn := false } : St).abort with gone := true }

/-- Bytes of the peer go into the input buffer, then `tcp_bufferevent_event_read`
(nm_libevent_tcp.c:126-141). -/
def St.evData (s : St) (n : Nat) : St :=
  if s.rdOn ∧ s.phase = .connected ∧ s.kin ≠ [] then
    let m := max 1 n
    let s : St := { s with ibuf := s.ibuf ++ s.kin.take m, kin := s.kin.drop m }
    if (s.sl.slot .read).isSome then s.take else s
  else s

/-- The end of the stream: `tcp_eof` (nm_libevent_tcp.c:111-124, 187-193). -/
def St.evEof (s : St) : St :=
  if s.rdOn ∧ s.phase = .connected ∧ s.kin = [] ∧ s.keof then
    { s with rdOn := false, sl := (s.sl.resolve .connect .eof []).resolve .read .eof [] }
  else s

/-- An error met while reading or while writing (or connecting): `tcp_error`
(nm_libevent_tcp.c:111-124, 195-201). -/
def St.evError (s : St) (reading : Bool) : St :=
  if reading then
    if s.rdOn ∧ s.phase = .connected then
      { s with rdOn := false, sl := (s.sl.resolve .connect .aborted []).resolve .read .aborted [] }
    else s
  else
    if s.wrOn ∧ s.phase ≠ .idle then
      { s with wrOn := false, phase := if s.phase = .connecting then .idle else s.phase,
               sl := (s.sl.resolve .connect .aborted []).resolve .read .aborted [] }
    else s

/-- The connect succeeds (nm_libevent_tcp.c:111-118, 159-166). -/
def St.evConnected (s : St) : St :=
  if s.wrOn ∧ s.phase = .connecting then
    { s with phase := .connected, sl := s.sl.resolve .connect .ok [] }
  else s

/-- Bytes of the output buffer are handed to the system; when it is empty
`tcp_bufferevent_event_write` is called (nm_libevent_tcp.c:143-157). -/
def St.evDrain (s : St) (n : Nat) : St :=
  if s.wrOn ∧ s.phase = .connected ∧ s.obuf ≠ [] then
    let s : St := { s with out := s.out ++ s.obuf.take n, obuf := s.obuf.drop n }
    if s.obuf = [] then { s with sl := (s.sl.resolve .connect .ok []).resolve .write .ok [] } else s
  else s

inductive Op
  | connect (ok : Bool)
  | write (d : List UInt8) (ok : Bool)
  | read (size : Nat)
  | abort
  | destroy
  | evConnected
  | evData (n : Nat)
  | evEof
  | evError (reading : Bool)
  | evDrain (n : Nat)
  | peer (l : List UInt8)
  | peerEof
  deriving DecidableEq, Repr

def St.step (s : St) (op : Op) : St :=
  if s.gone then s
  else match op with
    | .connect ok => s.connect ok
    | .write d ok => s.write d ok
    | .read n => s.read n
    | .abort => s.abort
    | .destroy => s.destroy
    | .evConnected => s.evConnected
    | .evData n => s.evData n
    | .evEof => s.evEof
    | .evError r => s.evError r
    | .evDrain n => s.evDrain n
    | .peer l => if s.keof then s else { s with kin := s.kin ++ l, peer := s.peer ++ l }
    | .peerEof => { s with keof := true }

def run (ops : List Op) : St := ops.foldl St.step {}

theorem run_snoc (ops : List Op) (op : Op) : run (ops ++ [op]) = (run ops).step op := by
  simp [run, List.foldl_append]

end Lev

/-! ### The two threads in a write of select

`async_write` stores the completion event before the data and the length
(nm_select_unix_tcp.c:371-373, 353-354).  The network thread may be in `handle_select` with the
descriptor in the write set (it has just completed a connect or found the socket writable) and
look at the completion event at any time (nm_select_unix_tcp.c:98-105, 315-347). -/
namespace Race

structure St where
  /-- the accesses of `async_write` that are done: the event, the data, the length -/
  event : Bool := false
  data : List UInt8 := []
  len : Nat := 0
  /-- accesses of the core done so far -/
  core : Nat := 0
  told : List Ec := []
  out : List UInt8 := []
  deriving DecidableEq, Repr

/-- `true` is the network thread: it sends what it finds and the send takes everything.  `false`
is the next access of the core. -/
def step (d : List UInt8) (s : St) (net : Bool) : St :=
  if net then
    if s.event then
      { s with out := s.out ++ s.data.take s.len, len := 0, event := false, told := s.told ++ [.ok] }
    else s
  else match s.core with
    | 0 => { s with event := true, core := 1 }
    | 1 => { s with data := d, core := 2 }
    | 2 => { s with len := d.length, core := 3 }
    | _ => s

def run (d : List UInt8) (sched : List Bool) : St := sched.foldl (step d) {}

end Race

end Verif.Net.Tcp
