import Verif.Iam.JsonSpec

/-!
# Files of the example applications

Model of `src/modules/fs/posix/nm_fs_posix.c`, `apps/common/string_file.c`, `apps/common/json_config.c` (loading),
`apps/common/private_key.c` and `apps/tcp_tunnel_device/src/tcp_tunnel_state.c`.

A file is a list of bytes, or it does not exist. The C library and the operating system are events which happen in any
order: bytes go from the application to the buffer of the stream, and from the buffer to the file. A crash is the end of
the events: the file keeps what has reached it. That bytes reach the file in order, and that opening a file for writing
empties it at once, is assumed.

Simplifications: one file at a time; nobody else writes it unless a definition says so; dumping the state does not run
out of memory (`C69` is about that).
-/

namespace Verif.Apps

open Verif.Json (Bytes R Strtod)
open Verif.Iam (IamState stateDump)
open Verif.Iam.Spec (StateLoads)

/-- A file, if it exists. -/
abbrev Disk := Option Bytes

/-- `enum nm_fs_error`, `nm_fs.h`. -/
inductive FsError | ok | noEntry | truncated | unknown
  deriving DecidableEq, Repr

/-! ## Writing -/

/-- An open stream: what `fwrite` has not taken yet, and its buffer. -/
structure Stream where
  todo : Bytes
  buf : Bytes
  deriving DecidableEq, Repr

/-- A call of `write_file`: the file, the stream, and the result once there is one. -/
structure Write where
  disk : Disk
  stream : Option Stream := none
  result : Option FsError := none
  deriving DecidableEq, Repr

/-- What happens during `write_file`. -/
inductive WEv
  /-- `fopen` returns -/
  | open (ok : Bool)
  /-- `fwrite` takes bytes into the buffer -/
  | put (n : Nat)
  /-- bytes of the buffer reach the file -/
  | flush (n : Nat)
  /-- `fwrite` has returned and `fclose` returns; all of the buffer reaches the file, or only some bytes of it do -/
  | close (some : Option Nat)
  deriving DecidableEq, Repr

/-- Appends to a file. -/
def append (d : Disk) (b : Bytes) : Disk := d.map (· ++ b)

/-- `write_file`, `nm_fs_posix.c:119-138`. Opening the file with `"wb"` (124) empties it. The result of `fwrite` (129) is
compared with the size (131); the result of `fclose` (136) is not used. Events which do not fit are ignored. -/
def Write.step (content : Bytes) (w : Write) : WEv → Write
  | .open ok =>
    if w.stream.isSome || w.result.isSome then w
    else if ok then { w with disk := some [], stream := some ⟨content, []⟩ }
    else { w with result := some .unknown }
  | .put n =>
    match w.stream with
    | none => w
    | some s => { w with stream := some ⟨s.todo.drop n, s.buf ++ s.todo.take n⟩ }
  | .flush n =>
    match w.stream with
    | none => w
    | some s => { w with disk := append w.disk (s.buf.take n), stream := some ⟨s.todo, s.buf.drop n⟩ }
  | .close lost =>
    match w.stream with
    | none => w
    | some s =>
      { disk := append w.disk (match lost with | none => s.buf | some n => s.buf.take n)
        stream := none
        result := some (if s.todo.length ≠ 0 then .truncated else .ok) }

/-- A call of `write_file` up to its end or to a crash. -/
def writeFile (d : Disk) (content : Bytes) (evs : List WEv) : Write := evs.foldl (Write.step content) { disk := d }

/-- `string_file_save`, `string_file.c:35-43`: the result, if it returns. -/
def saveResult (w : Write) : Option Bool := w.result.map (· = .ok)

/-! ## Reading -/

/-- `size`, `nm_fs_posix.c:68-92`, and `read_file`, 94-117: does the file open, and how many bytes does `fread` deliver? An
error of `fread` is not noticed (108 compares an unsigned number with zero). -/
structure ReadIo where
  openSize : Bool := true
  alloc : Bool := true
  openRead : Bool := true
  delivered : Nat

/-- The buffer of `string_file_load`: `calloc` of the size and one byte, then `read_file` of as many bytes. -/
def readBuffer (size : Nat) (file : Bytes) (delivered : Nat) : Bytes :=
  let b := file.take (min delivered (size + 1))
  b ++ List.replicate (size + 1 - b.length) 0

/-- The string which a buffer holds; it must end in the buffer. -/
def cString (buffer : Bytes) : R Bytes := if 0 ∈ buffer then .ok (buffer.takeWhile (· ≠ 0)) else .ub

/-- `string_file_load`, `string_file.c:13-33`, and the use of the result as a string. `atSize` is the file when its size
is taken, `atRead` when it is read. -/
def loadString (atSize atRead : Disk) (io : ReadIo) : R Bytes :=
  match atSize with
  | none => .fail
  | some s =>
    if !io.openSize then .fail
    else if !io.alloc then .fail
    else match atRead with
      | none => .fail
      | some f => if !io.openRead then .fail else cString (readBuffer s.length f io.delivered)

/-- `json_config_load`, `json_config.c:23-54`, up to the parser. The result of `calloc` (31) is not checked, `fread` then
writes to a null pointer. A file which has grown is refused (39-43). -/
def loadJsonText (atSize atRead : Disk) (io : ReadIo) : R Bytes :=
  match atSize with
  | none => .fail
  | some s =>
    if !io.openSize then .fail
    else match atRead with
      | none => .fail
      | some f =>
        if !io.openRead then .fail
        else if !io.alloc then .ub
        else if (f.take (min io.delivered (s.length + 1))).length = s.length + 1 then .fail
        else cString (readBuffer s.length f io.delivered)

/-! ## The state of the tunnel device -/

/-- What `nm_iam_serializer_state_dump_json` writes for a state. -/
def dumpText (st : IamState) : Option Bytes := (stateDump st []).1

/-- `write_state_to_file`, `tcp_tunnel_state.c:44-61`. -/
def saveState (d : Disk) (st : IamState) (evs : List WEv) : Disk :=
  match dumpText st with
  | none => d
  | some text => (writeFile d text evs).disk

/-- The default of the friendly name, `tcp_tunnel_state.c:34-40`. -/
def named (st : IamState) : IamState :=
  match st.friendlyName with
  | none => { st with friendlyName := some "Tcp Tunnel" }
  | some _ => st

/-- What happens to a device: it starts, reads a state, and may write it again with a friendly name, or it saves a state
(`save_tcp_tunnel_state`, called on every change of the IAM state, `tcp_tunnel_main.c`, and by `--init`). Each of them ends
in the end or in a crash. A start which is refused changes nothing and is left out. -/
inductive Ev
  | start (io : ReadIo) (st : IamState) (rewrite : List WEv)
  | save (st : IamState) (evs : List WEv)

/-- The device starts with a state: `load_tcp_tunnel_state`, `tcp_tunnel_state.c:21-42`, when nobody else writes the
file. -/
def Starts (S : Strtod) (d : Disk) (io : ReadIo) (st : IamState) : Prop :=
  ∃ text loaded, loadString d d io = .ok text ∧ StateLoads S text loaded ∧ st = named loaded

/-- The file after an event. For a start the second argument is the state it has read. -/
def fileAfter (d : Disk) : Ev → Disk
  | .start _ st rewrite => if st.friendlyName.isNone then saveState d (named st) rewrite else d
  | .save st evs => saveState d st evs

/-- The histories of a device whose file did not exist first, and the file after them. -/
inductive History (S : Strtod) : List Ev → Disk → Prop
  | new : History S [] none
  | start {evs d} (io : ReadIo) (loaded : IamState) (rewrite : List WEv) (text : Bytes) : History S evs d →
      loadString d d io = .ok text → StateLoads S text loaded →
      History S (evs ++ [.start io loaded rewrite]) (fileAfter d (.start io loaded rewrite))
  | save {evs d} (st : IamState) (w : List WEv) : History S evs d →
      History S (evs ++ [.save st w]) (fileAfter d (.save st w))

/-! ## The private key -/

/-- `nabto_device_create_private_key` gives this text, `nabto_device_set_private_key` reads it. -/
structure Pem (K : Type) where
  read : Bytes → Option K

/-- One start: the key which is created if there is none (`none` if that fails), what happens while it is saved, and how
the file is read. -/
structure KeyStart where
  created : Option Bytes
  evs : List WEv
  io : ReadIo

/-- `load_or_create_private_key`, `private_key.c:24-48`, with `create_private_key`, 10-22: the file afterwards, and the key
which the device uses, if the start gets that far. `access` fails only if there is no file. -/
def keyStart {K} (P : Pem K) (d : Disk) (s : KeyStart) : Disk × Option K :=
  let load (d : Disk) : Disk × Option K :=
    match loadString d d s.io with
    | .ok text => (d, P.read text)
    | _ => (d, none)
  match d with
  | some _ => load d
  | none =>
    match s.created with
    | none => (d, none)
    | some text =>
      let w := writeFile d text s.evs
      if saveResult w = some true then load w.disk else (w.disk, none)

/-- Starts one after the other: the file and the keys which were used. -/
def keyStarts {K} (P : Pem K) (d : Disk) : List KeyStart → Disk × List (Option K)
  | [] => (d, [])
  | s :: l => ((keyStarts P (keyStart P d s).1 l).1, (keyStart P d s).2 :: (keyStarts P (keyStart P d s).1 l).2)

end Verif.Apps
