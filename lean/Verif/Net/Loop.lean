/-
The loop of the select platform: src/modules/select_unix/nm_select_unix.c and the parts of
nm_select_unix_udp.c and nm_select_unix_tcp.c that build the descriptor sets and look at them.

The core thread sets a completion event in a socket and then writes one byte into a pipe; the
network thread builds the sets from the events it finds, sleeps in `select`, reads one byte and
looks at the sockets.  The two threads interleave at every access that matters: the model has one
step per access of the core thread and one per stage of the network thread.

Sockets are numbered in the order in which they were created; the number is never used again.
The system is a parameter of the step: which of the sockets watched are ready, and whether
`select` fails (EINTR, or EBADF when a watched descriptor has been closed).  Not modelled: what a
completed operation does (see `Udp` and `Tcp`), that the pipe has a limit (writing blocks while it
is full, and then the pipe is not empty).
-/
namespace Verif.Net.Loop

inductive Kind
  | udp | tcp
  deriving DecidableEq, Repr

/-- `FD_SETSIZE` -/
def setSize : Int := 1024

/-- A descriptor that `FD_SET` and `FD_ISSET` may be given. -/
def fits (fd : Int) : Bool := decide (0 ≤ fd ∧ fd < setSize)

structure Sock where
  id : Nat
  kind : Kind
  /-- the descriptor, −1 before there is one -/
  fd : Int
  deriving DecidableEq, Repr

/-- Where the network thread is (nm_select_unix.c:144-160). -/
inductive Pc
  /-- before the test of `stopped` -/
  | top
  | build
  /-- in `select` -/
  | asleep
  /-- `select` has returned: whether the pipe is in the set, and the descriptors that are -/
  | woken (pipe : Bool) (ready : List Int)
  | handle (ready : List Int)
  | exited
  deriving DecidableEq, Repr

structure St where
  socks : List Sock := []
  next : Nat := 0
  /-- sockets with a completion event set -/
  pend : List Nat := []
  /-- operations completed by the network thread, oldest first -/
  served : List Nat := []
  /-- what the network thread watches: the descriptors in the sets, with the socket each stood for
  when the sets were built (`select` watches that one even if the number is given to another) -/
  set : List (Nat × Int) := []
  /-- bytes in the pipe -/
  bytes : Nat := 0
  /-- calls of `nm_select_unix_notify` that have not written yet -/
  notes : Nat := 0
  stopped : Bool := false
  pc : Pc := .top
  /-- `FD_SET` or `FD_ISSET` was given a descriptor outside the set -/
  ub : Bool := false
  deriving DecidableEq, Repr

/-- The core creates a socket (nm_select_unix_tcp.c:112-126, nm_select_unix_udp.c:75-92).  The
notification of the UDP socket is left out: there is nothing to watch yet. -/
def St.create (s : St) (k : Kind) : St :=
  { s with socks := s.socks ++ [⟨s.next, k, -1⟩], next := s.next + 1 }

/-- A socket gets its descriptor: a bind (nm_select_unix_udp.c:449) or the start of a connect
(nm_select_unix_tcp.c:160). -/
def St.openFd (s : St) (k : Nat) (fd : Int) : St :=
  { s with socks := s.socks.map (fun x => if x.id = k then { x with fd := fd } else x) }

/-- The core sets a completion event; the call of notify is still to come
(nm_select_unix_udp.c:156-157, nm_select_unix_tcp.c:263-265, 371-373, 426-427). -/
def St.request (s : St) (k : Nat) : St :=
  if (∃ x ∈ s.socks, x.id = k) ∧ k ∉ s.pend then { s with pend := s.pend ++ [k], notes := s.notes + 1 }
  else s

/-- An abort clears the completion event (nm_select_unix_udp.c:175-186). -/
def St.cancel (s : St) (k : Nat) : St := { s with pend := s.pend.filter (fun x => decide (x ≠ k)) }

/-- `destroy` (nm_select_unix_udp.c:206-216, nm_select_unix_tcp.c:74-85). -/
def St.remove (s : St) (k : Nat) : St :=
  { s.cancel k with socks := s.socks.filter (fun x => decide (x.id ≠ k)) }

/-- `nm_select_unix_notify` (nm_select_unix.c:139-142). -/
def St.notify (s : St) : St :=
  if 0 < s.notes then { s with notes := s.notes - 1, bytes := s.bytes + 1 } else s

/-- `nm_select_unix_stop` up to the call of notify (nm_select_unix.c:63-70). -/
def St.stop (s : St) : St := { s with stopped := true, notes := s.notes + 1 }

/-- Whether `build_fd_sets` puts a socket into the sets: a completion event is set, and a UDP
socket has a descriptor (nm_select_unix_udp.c:218-230, nm_select_unix_tcp.c:55-72). -/
def St.watched (s : St) (x : Sock) : Bool :=
  decide (x.id ∈ s.pend) && (match x.kind with | .udp => decide (x.fd ≠ -1) | .tcp => true)

/-- Whether `handle_select` looks at a socket in the sets (nm_select_unix_udp.c:232-245,
nm_select_unix_tcp.c:87-108). -/
def looked (x : Sock) : Bool :=
  match x.kind with | .udp => decide (x.fd ≠ -1) | .tcp => true

/-- Whether `handle_select` finds the descriptor of a socket in the sets. -/
def St.found (s : St) (r : List Int) (k : Nat) : Bool :=
  s.socks.any (fun x => decide (x.id = k) && looked x && decide (x.fd ∈ r))

/-- One stage of the network thread (nm_select_unix.c:72-83, 101-137, 144-160).
When `select` fails the sets are left as they were built, with the pipe and all sockets.  The
read of the pipe blocks while the pipe is empty.  (The other end of the pipe is in the set too;
it is never ready, and reading it fails at once.) -/
def St.thread (s : St) (err : Bool) (ready : List (Nat × Int)) : St :=
  match s.pc with
  | .top => if s.stopped then { s with pc := .exited } else { s with pc := .build }
  | .build =>
    { s with set := (s.socks.filter s.watched).map (fun x => (x.id, x.fd)),
             ub := s.ub || s.socks.any (fun x => s.watched x && !fits x.fd),
             pc := .asleep }
  | .asleep =>
    if err then { s with pc := .woken true (s.set.map (·.2)) }
    else
      let r := (ready.filter (fun k => decide (k ∈ s.set))).map (·.2)
      if r = [] ∧ s.bytes = 0 then s
      else { s with pc := .woken (decide (0 < s.bytes)) r }
  | .woken pipe r =>
    if pipe then
      if s.bytes = 0 then s
      else { s with bytes := s.bytes - 1, pc := .handle r }
    else { s with pc := .handle r }
  | .handle r =>
    { s with ub := s.ub || s.socks.any (fun x => looked x && !fits x.fd),
             served := s.served ++ s.pend.filter (s.found r),
             pend := s.pend.filter (fun k => !s.found r k),
             pc := .top }
  | .exited => s

inductive Op
  | create (k : Kind)
  | openFd (k : Nat) (fd : Int)
  | request (k : Nat)
  | cancel (k : Nat)
  | remove (k : Nat)
  | notify
  | stop
  | thread (err : Bool) (ready : List (Nat × Int))
  deriving DecidableEq, Repr

def St.step (s : St) : Op → St
  | .create k => s.create k
  | .openFd k fd => s.openFd k fd
  | .request k => s.request k
  | .cancel k => s.cancel k
  | .remove k => s.remove k
  | .notify => s.notify
  | .stop => s.stop
  | .thread e r => s.thread e r

def run (ops : List Op) : St := ops.foldl St.step {}

theorem run_snoc (ops : List Op) (op : Op) : run (ops ++ [op]) = (run ops).step op := by
  simp [run, List.foldl_append]

theorem run_append (ops more : List Op) : run (ops ++ more) = more.foldl St.step (run ops) := by
  simp [run, List.foldl_append]

end Verif.Net.Loop
