/-
The mDNS server of the platform: src/modules/mdns/nm_mdns_server.c.

The server owns two sockets, one for IPv4 and one for IPv6.  Everything it does happens in
the callbacks of three completion events per socket and of one event for the closing, all
run by the event queue.  The model keeps, for each such event, whether it is at rest, handed
to the socket, or resolved and lying in the event queue with a result.  The queue may run the
resolved events in any order, which covers the order it uses.

Not modelled: the contents of the packets and the matching of queries
(`nabto_mdns_server_*`, in a library that is not part of the repository) – whether a received
packet is a query to be answered and whether a packet can be built are choices of the
environment; the addresses of the device (nm_mdns_server.c:246-263), read again for every
packet; failure of the initialisation.
-/
namespace Verif.Net.Mdns

/-- The results seen here (src/include/nabto/nabto_device.h, the `NABTO_EC` values);
`error` is any other one. -/
inductive Ec
  | ok | inProgress | oom | unknown | aborted | failedToSend | again | error
  deriving DecidableEq, Repr

/-- The two instances of the server (nm_mdns_server.h:54-55). -/
inductive Fam
  | v4 | v6
  deriving DecidableEq, Repr

/-- `enum nm_mdns_server_state` (nm_mdns_server.h:20-25). -/
inductive Phase
  | fresh | running | closed | stopped
  deriving DecidableEq, Repr

/-- A completion event given to a socket: at rest, held by the socket, or resolved and in the
event queue (src/platform/np_completion_event.c). -/
inductive Wait
  | idle | held | posted (ec : Ec)
  deriving DecidableEq, Repr

/-- Where a packet goes: to the multicast group, or to the endpoint the query came from. -/
inductive Dest
  | group | asker
  deriving DecidableEq, Repr

/-- What a packet is: an announcement or answer (`goodbye = false`), or a goodbye. -/
structure Packet where
  fam : Fam
  goodbye : Bool
  dest : Dest
  /-- the query id put into the packet -/
  id : Nat
  port : Nat
  /-- the published information, by the number of the publication -/
  info : Nat
  deriving DecidableEq, Repr

/-- `struct nm_mdns_server_instance` (nm_mdns_server.h:28-39) with its socket. -/
structure Inst where
  /-- `sendBuffer` is not `NULL` -/
  buf : Bool := false
  /-- the callback of `sendCompletionEvent` is that of the goodbye -/
  bye : Bool := false
  /-- `openedCompletionEvent` -/
  opened : Wait := .idle
  /-- `recvWaitCompletionEvent` -/
  recv : Wait := .idle
  /-- `sendCompletionEvent` -/
  sent : Wait := .idle
  /-- the socket has been aborted -/
  aborted : Bool := false
  deriving DecidableEq, Repr

/-- `struct nm_mdns_server` (nm_mdns_server.h:41-60). -/
structure St where
  phase : Phase := .fresh
  port : Nat := 0
  /-- number of the publication whose information is used -/
  info : Nat := 0
  v4 : Inst := {}
  v6 : Inst := {}
  /-- `instanceCloseCompletionEvent` resolved and in the event queue: callback and result -/
  closeEv : Option (Fam × Ec) := none
  /-- callback of `instanceCloseCompletionEvent` -/
  closeCb : Fam := .v4
  /-- `closedCompletionEvent` -/
  closing : Option Nat := none
  /-- number of calls of close so far -/
  calls : Nat := 0
  /-- what the calls of close were told, oldest first -/
  answers : List (Nat × Ec) := []
  /-- packets handed to the network, oldest first -/
  net : List Packet := []
  /-- an event was given to a socket or resolved while in use, a buffer overwritten or freed
  without being there, a `NULL` event resolved, or a freed event resolved -/
  bad : Bool := false
  /-- buffers never freed, counted at the deinit -/
  leaked : Nat := 0
  gone : Bool := false
  deriving DecidableEq, Repr

def St.inst (s : St) : Fam → Inst
  | .v4 => s.v4
  | .v6 => s.v6

def St.set (s : St) (f : Fam) (i : Inst) : St :=
  match f with
  | .v4 => { s with v4 := i }
  | .v6 => { s with v6 := i }

/-- `nm_mdns_recv_packet` (nm_mdns_server.c:280-285).  On an aborted socket the wait resolves
at once (nm_libevent_udp.c:221-240, nm_select_unix_udp.c:141-159). -/
def St.recvPacket (s : St) (f : Fam) : St :=
  if s.phase = .running then
    let i := s.inst f
    let s := if i.recv = .idle then s else { s with bad := true }
    s.set f { i with recv := if i.aborted then .posted .aborted else .held }
  else s

/-- What the environment decides when a packet is made: is there memory, can the packet be
built, and what becomes of the sending. -/
structure Luck where
  mem : Bool
  build : Bool
  send : Ec
  deriving DecidableEq, Repr

/-- `np_udp_async_send_to`: the event is resolved at once (nm_libevent_udp.c:201-218,
nm_select_unix_udp.c:121-138), an aborted socket does not send. -/
def St.udpSend (s : St) (f : Fam) (p : Packet) (r : Ec) : St :=
  let i := s.inst f
  let s := if i.sent = .idle then s else { s with bad := true }
  if i.aborted then s.set f { i with sent := .posted .aborted }
  else
    let s := if r = .ok then { s with net := s.net ++ [p] } else s
    s.set f { i with sent := .posted r }

/-- `nm_mdns_send_packet` (nm_mdns_server.c:347-377). -/
def St.sendPacket (s : St) (f : Fam) (id : Nat) (d : Dest) (l : Luck) : St :=
  if s.phase = .running ∧ (s.inst f).buf = false ∧ s.port > 0 then
    if l.mem ∧ l.build then
      let s := s.set f { s.inst f with buf := true }
      s.udpSend f ⟨f, false, d, id, s.port, s.info⟩ l.send
    else s.recvPacket f
  else s.recvPacket f

/-- Resolving `instanceCloseCompletionEvent`. -/
def St.resolveInst (s : St) (ec : Ec) : St :=
  { s with closeEv := some (s.closeCb, ec), bad := s.bad || s.closeEv.isSome }

/-- `nm_mdns_server_close_instance` (nm_mdns_server.c:169-206). -/
def St.closeInstance (s : St) (f : Fam) (l : Luck) : St :=
  if (s.inst f).buf then s.resolveInst .inProgress
  else
    let s := s.set f { s.inst f with bye := true }
    if s.port > 0 then
      if l.mem then
        if l.build then
          let s := s.set f { s.inst f with buf := true }
          s.udpSend f ⟨f, true, .group, 0, s.port, s.info⟩ l.send
        else s.resolveInst .unknown
      else s.resolveInst .oom
    else s.resolveInst .unknown

/-- What `np_udp_recv_from` and the matching of the query make of a received packet. -/
structure Got where
  /-- memory for the receive buffer -/
  mem : Bool
  /-- result of `np_udp_recv_from` -/
  ec : Ec
  /-- `nabto_mdns_server_handle_packet` says that the packet is to be answered -/
  query : Bool
  id : Nat
  /-- source port of the packet -/
  srcPort : Nat
  deriving DecidableEq, Repr

inductive Op
  /-- `publish_service` with the results of the two binds -/
  | publish (port : Nat) (b4 b6 : Ec)
  /-- `nm_mdns_server_close` -/
  | close (l : Luck)
  | stop
  | deinit
  /-- the event queue runs the callback of `openedCompletionEvent` -/
  | runOpened (f : Fam) (l : Luck)
  /-- the socket resolves the pending wait, as data has come or as the socket failed -/
  | ready (f : Fam) (ec : Ec)
  /-- the event queue runs the callback of `recvWaitCompletionEvent` -/
  | runRecv (f : Fam) (g : Got) (l : Luck)
  /-- the event queue runs the callback of `sendCompletionEvent` -/
  | runSent (f : Fam)
  /-- the event queue runs the callback of `instanceCloseCompletionEvent` -/
  | runClosed (l : Luck)
  deriving DecidableEq, Repr

/-- `publish_service` (nm_mdns_server.c:220-238). -/
def St.publish (s : St) (port : Nat) (b4 b6 : Ec) : St :=
  let s :=
    if s.phase = .fresh then
      { s with phase := .running
               v4 := { s.v4 with opened := .posted b4 }
               v6 := { s.v6 with opened := .posted b6 } }
    else s
  if s.phase = .running then { s with port := port, info := s.info + 1 } else s

/-- `nm_mdns_server_close` (nm_mdns_server.c:141-155). -/
def St.close (s : St) (l : Luck) : St :=
  let k := s.calls
  let s := { s with calls := s.calls + 1 }
  if s.closing.isSome then { s with answers := s.answers ++ [(k, .inProgress)] }
  else if s.phase = .running then
    ({ s with phase := .closed, closing := some k, closeCb := .v4 } : St).closeInstance .v4 l
  else { s with answers := s.answers ++ [(k, .ok)] }

/-- `np_udp_abort` on one socket (nm_libevent_udp.c:117-133, nm_select_unix_udp.c:175-186). -/
def Inst.abort (i : Inst) : Inst :=
  { i with aborted := true, recv := if i.recv = .held then .posted .aborted else i.recv }

/-- `nm_mdns_server_stop` (nm_mdns_server.c:208-218). -/
def St.stop (s : St) : St :=
  { s with phase := .stopped, v4 := s.v4.abort, v6 := s.v6.abort }

/-- `nm_mdns_server_deinit` (nm_mdns_server.c:87-93, 117-122).  The events are gone before the
sockets are destroyed, and destroying a socket resolves the wait it holds.  A buffer whose
sending has not been reported stays. -/
def St.deinit (s : St) : St :=
  { s with gone := true
           bad := s.bad || decide (s.v4.recv = .held) || decide (s.v6.recv = .held)
           leaked := s.leaked + s.v4.buf.toNat + s.v6.buf.toNat }

/-- `nm_mdns_socket_opened` (nm_mdns_server.c:265-278). -/
def St.runOpened (s : St) (f : Fam) (l : Luck) : St :=
  match (s.inst f).opened with
  | .posted ec =>
    let s := s.set f { s.inst f with opened := .idle }
    if s.phase = .stopped ∨ s.phase = .closed then s
    else if ec = .ok then s.sendPacket f 0 .group l
    else s
  | _ => s

/-- `nm_mdns_packet_recv_wait_completed` (nm_mdns_server.c:287-345). -/
def St.runRecv (s : St) (f : Fam) (g : Got) (l : Luck) : St :=
  match (s.inst f).recv with
  | .posted ec =>
    let s := s.set f { s.inst f with recv := .idle }
    if s.phase = .stopped ∨ s.phase = .closed ∨ ec = .aborted then s
    else if ec ≠ .ok then s
    else if g.mem = false then
      if g.ec = .ok ∨ g.ec = .again then s.recvPacket f else s
    else if g.ec = .ok then
      if g.query then s.sendPacket f g.id (if g.srcPort ≠ 5353 then .asker else .group) l
      else s.recvPacket f
    else if g.ec = .again then s.recvPacket f
    else s
  | _ => s

/-- `nm_mdns_packet_sent` (nm_mdns_server.c:379-389) and
`nm_mnds_server_close_instance_udp_sent_callback` (nm_mdns_server.c:157-167). -/
def St.runSent (s : St) (f : Fam) : St :=
  match (s.inst f).sent with
  | .posted ec =>
    let i := s.inst f
    let s := if i.buf then s else { s with bad := true }
    let s := s.set f { i with sent := .idle, buf := false }
    if i.bye then
      if ec = .ok ∨ ec = .failedToSend then s.resolveInst .ok else s.resolveInst ec
    else s.recvPacket f
  | _ => s

/-- `v4_closed` and `v6_closed` (nm_mdns_server.c:124-139). -/
def St.runClosed (s : St) (l : Luck) : St :=
  match s.closeEv with
  | some (.v4, _) => ({ s with closeEv := none, closeCb := .v6 } : St).closeInstance .v6 l
  | some (.v6, ec) =>
    match s.closing with
    | some k => { s with closeEv := none, closing := none, answers := s.answers ++ [(k, ec)] }
    | none => { s with closeEv := none, bad := true }
  | none => s

/-- The socket resolves a wait it holds (nm_libevent_udp.c:135-142,
nm_select_unix_udp.c:197-204). -/
def St.ready (s : St) (f : Fam) (ec : Ec) : St :=
  if (s.inst f).recv = .held then s.set f { s.inst f with recv := .posted ec } else s

def St.step (s : St) (op : Op) : St :=
  if s.gone then s
  else match op with
    | .publish p b4 b6 => s.publish p b4 b6
    | .close l => s.close l
    | .stop => s.stop
    | .deinit => s.deinit
    | .runOpened f l => s.runOpened f l
    | .ready f ec => s.ready f ec
    | .runRecv f g l => s.runRecv f g l
    | .runSent f => s.runSent f
    | .runClosed l => s.runClosed l

def run : List Op → St := List.foldl St.step {}

theorem run_snoc (ops : List Op) (op : Op) : run (ops ++ [op]) = (run ops).step op := by
  simp [run, List.foldl_append]

end Verif.Net.Mdns
