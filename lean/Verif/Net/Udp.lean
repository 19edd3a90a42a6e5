/-
The UDP sockets of the two platforms:
src/modules/libevent/nm_libevent_udp.c, nm_libevent_mdns_udp_bind.c and
src/modules/select_unix/nm_select_unix_udp.c, nm_select_unix_mdns_udp_bind.c.

The model has one socket, the waits for a packet given to it, and the file descriptors of the
process: those opened by this socket and not closed (`mine`) and those of everybody else
(`theirs`).  The kernel never hands out a number that is in use; an operation that asks for such
a number is a failed `socket()`.  Closing a number that is not in use does nothing (EBADF), and
closing one that belongs to somebody else closes it.

The steps are atomic: the thread of the network and the thread of the core do not interleave
inside one.  The interleaving is in `Race` at the end.  Not modelled: the addresses and the
contents of packets, `recv_from`, `get_local_port`.
-/
namespace Verif.Net.Udp

/-- The platform: libevent or select. -/
inductive Impl
  | libevent | select
  deriving DecidableEq, Repr

inductive Ec
  | ok | aborted | inProgress | error
  deriving DecidableEq, Repr

/-- The family of a socket (`np_udp_socket.type`). -/
inductive Fam
  | v4 | v6
  deriving DecidableEq, Repr

/-- `struct np_udp_socket` (nm_libevent_udp.h, nm_select_unix.h) and the descriptors of the
process. -/
structure St where
  impl : Impl
  /-- `sock`, `none` for the invalid one -/
  sock : Option Nat := none
  fam : Fam := .v4
  /-- `event` is not `NULL` (libevent) -/
  event : Bool := false
  aborted : Bool := false
  /-- `recv.completionEvent` -/
  recv : Option Nat := none
  /-- number of waits asked for -/
  asked : Nat := 0
  /-- what the waits were told, oldest first -/
  answers : List (Nat × Ec) := []
  /-- what the binds were told, oldest first -/
  binds : List Ec := []
  mine : List Nat := []
  theirs : List Nat := []
  /-- a descriptor of somebody else has been closed -/
  stray : Bool := false
  /-- a `NULL` event was given to libevent -/
  crash : Bool := false
  gone : Bool := false
  deriving DecidableEq, Repr

/-- `socket()`: the number given, if it is free. -/
def St.newFd (s : St) (fd : Option Nat) : Option Nat :=
  match fd with
  | some n => if n ∈ s.mine ∨ n ∈ s.theirs then none else some n
  | none => none

def St.opened (s : St) (n : Nat) : St := { s with mine := n :: s.mine }

/-- `close()`. -/
def St.closeFd (s : St) (n : Option Nat) : St :=
  match n with
  | none => s
  | some n =>
    if n ∈ s.mine then { s with mine := s.mine.erase n }
    else if n ∈ s.theirs then { s with theirs := s.theirs.erase n, stray := true }
    else s

def St.told (s : St) (ec : Ec) : St := { s with binds := s.binds ++ [ec] }

/-- What the system does in a bind: the descriptors for IPv6 and IPv4 (`none` if there is none),
whether the options can be set, whether the bind succeeds, whether there is memory for the event
of libevent. -/
structure Sys where
  fd6 : Option Nat
  fd4 : Option Nat
  opt : Bool
  bind : Bool
  mem : Bool
  deriving DecidableEq, Repr

/-- `udp_create_socket_any` of libevent (nm_libevent_udp.c:423-451). -/
def St.createAnyL (s : St) (y : Sys) : St × Bool :=
  match s.newFd y.fd6 with
  | some n =>
    if y.opt then ({ s.opened n with sock := some n, fam := .v6 }, true)
    else ((s.opened n).closeFd (some n), false)
  | none =>
    match s.newFd y.fd4 with
    | some n => ({ s.opened n with sock := some n, fam := .v4 }, true)
    | none => (s, false)

/-- `create_socket_any` of select (nm_select_unix_udp.c:425-451).  The test after the attempt with
IPv4 looks at `s->sock`, and the failure to set the option closes `s->sock`. -/
def St.createAnyS (s : St) (y : Sys) : St × Bool :=
  match s.newFd y.fd6 with
  | some n =>
    if y.opt then ({ s.opened n with sock := some n, fam := .v6 }, true)
    else (({ s.opened n with fam := .v6 } : St).closeFd s.sock, false)
  | none =>
    let n := s.newFd y.fd4
    let t := match n with | some n => s.opened n | none => s
    match s.sock with
    | none => (t, false)
    | some _ => ({ t with sock := n, fam := .v4 }, true)

/-- `udp_async_bind_port` (nm_libevent_udp.c:167-199) and
`nm_select_unix_udp_async_bind_port` (nm_select_unix_udp.c:94-118). -/
def St.bindPort (s : St) (y : Sys) : St :=
  if s.aborted then s.told .aborted
  else match s.impl with
    | .libevent =>
      match s.createAnyL y with
      | (s, false) => s.told .error
      | (s, true) =>
        if y.bind ∧ y.mem then ({ s with event := true } : St).told .ok
        else ({ s.closeFd s.sock with sock := none, event := if y.bind then false else s.event } : St).told .error
    | .select =>
      match s.createAnyS y with
      | (s, false) => s.told .error
      | (s, true) =>
        if s.sock.isSome ∧ y.bind then s.told .ok
        else (s.closeFd s.sock).told .error

/-- The binds of the mDNS sockets (nm_libevent_mdns_udp_bind.c:70-165,
nm_select_unix_mdns_udp_bind.c:47-140): the descriptor is closed on failure and stays in the
socket. -/
def St.bindMdns (s : St) (f : Fam) (y : Sys) : St :=
  if s.aborted then s.told .aborted
  else
    match s.newFd (match f with | .v4 => y.fd4 | .v6 => y.fd6) with
    | none => s.told .error
    | some n =>
      let s : St := { s.opened n with sock := some n, fam := f }
      if y.bind = false then (s.closeFd s.sock).told .error
      else match s.impl with
        | .select => s.told .ok
        | .libevent =>
          if y.mem then ({ s with event := true } : St).told .ok
          else (({ s with event := false } : St).closeFd s.sock).told .error

def St.answer (s : St) (k : Nat) (ec : Ec) : St := { s with answers := s.answers ++ [(k, ec)] }

/-- Resolving the pending wait (nm_libevent_udp.c:126-133, nm_select_unix_udp.c:181-185,
197-204). -/
def St.complete (s : St) (ec : Ec) : St :=
  match s.recv with
  | some k => ({ s with recv := none } : St).answer k ec
  | none => s

/-- `async_recv_wait` (nm_libevent_udp.c:221-240, nm_select_unix_udp.c:141-159). -/
def St.recvWait (s : St) : St :=
  let k := s.asked
  let s := { s with asked := s.asked + 1 }
  if s.aborted then s.answer k .aborted
  else if s.recv.isSome then s.answer k .inProgress
  else
    let s : St := { s with recv := some k }
    match s.impl with
    | .libevent => { s with crash := s.crash || !s.event }
    | .select => s

/-- The network thread finds the socket ready (nm_libevent_udp.c:135-142,
nm_select_unix_udp.c:218-245).  A descriptor that is closed makes `select` fail and counts as
ready. -/
def St.ready (s : St) : St :=
  match s.impl with
  | .libevent => if s.event then s.complete .ok else s
  | .select => if s.sock.isSome then s.complete .ok else s

/-- `udp_abort` (nm_libevent_udp.c:117-124), `nm_select_unix_udp_abort`
(nm_select_unix_udp.c:175-186). -/
def St.abort (s : St) : St :=
  match s.impl with
  | .libevent => if s.aborted then s else ({ s with aborted := true } : St).complete .aborted
  | .select => ({ s with aborted := true } : St).complete .aborted

/-- `udp_destroy` (nm_libevent_udp.c:144-165), `nm_select_unix_udp_free_socket`
(nm_select_unix_udp.c:188-216). -/
def St.destroy (s : St) : St :=
  match s.impl with
  | .libevent =>
    let s := if s.sock.isSome then s.abort else s
    let s := { s with event := false }
    { s.closeFd s.sock with sock := none, gone := true }
  | .select =>
    let s := s.abort
    { s.closeFd s.sock with gone := true }

inductive Op
  | bindPort (y : Sys)
  | bindMdns (f : Fam) (y : Sys)
  | recvWait
  | ready
  | abort
  | destroy
  /-- somebody else opens a descriptor, if the number is free -/
  | otherOpen (n : Nat)
  | otherClose (n : Nat)
  deriving DecidableEq, Repr

def St.step (s : St) (op : Op) : St :=
  match op with
  | .otherOpen n => if n ∈ s.mine ∨ n ∈ s.theirs then s else { s with theirs := n :: s.theirs }
  | .otherClose n => { s with theirs := s.theirs.erase n }
  | op =>
    if s.gone then s
    else match op with
      | .bindPort y => s.bindPort y
      | .bindMdns f y => s.bindMdns f y
      | .recvWait => s.recvWait
      | .ready => s.ready
      | .abort => s.abort
      | .destroy => s.destroy
      | _ => s

def run (impl : Impl) (ops : List Op) : St := ops.foldl St.step { impl := impl }

theorem run_snoc (i : Impl) (ops : List Op) (op : Op) : run i (ops ++ [op]) = (run i ops).step op := by
  simp [run, List.foldl_append]

/-! ### The two threads

Both the callback of the network thread and the abort of the core thread take the pending event
with three accesses and no common lock: look whether there is one, read and clear it, resolve it
(nm_libevent_udp.c:126-133; nm_select_unix_udp.c:181-185 without and 197-204 with the lock of
the select thread). -/
namespace Race

/-- Where a thread is in `complete_recv_wait`. -/
inductive Pc
  | start | seen | has (k : Option Nat) | done
  deriving DecidableEq, Repr

structure St where
  /-- `recv.completionEvent` -/
  ev : Option Nat
  net : Pc := .start
  core : Pc := .start
  answers : List (Nat × Ec) := []
  deriving DecidableEq, Repr

/-- One access of a thread. -/
def go (ev : Option Nat) (pc : Pc) (ec : Ec) : Option Nat × Pc × List (Nat × Ec) :=
  match pc with
  | .start => (ev, if ev.isSome then .seen else .done, [])
  | .seen => (ev, .has ev, [])
  | .has (some k) => (none, .done, [(k, ec)])
  | .has none => (none, .done, [])
  | .done => (ev, .done, [])

/-- A schedule says which thread moves: `true` is the thread of the network. -/
def step (s : St) (who : Bool) : St :=
  if who then
    let r := go s.ev s.net .ok
    { s with ev := r.1, net := r.2.1, answers := s.answers ++ r.2.2 }
  else
    let r := go s.ev s.core .aborted
    { s with ev := r.1, core := r.2.1, answers := s.answers ++ r.2.2 }

def run (k : Nat) (sched : List Bool) : St := sched.foldl step { ev := some k }

end Race

end Verif.Net.Udp
