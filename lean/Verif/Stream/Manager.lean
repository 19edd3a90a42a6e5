import Verif.Core.Packet

/-!
# The stream manager and the lives of streams

Model of `src/core/nc_stream_manager.c` together with the parts of `src/core/nc_stream.c` and
`src/core/nc_virtual_stream.c` which decide when a stream starts, who holds it and when its memory is given back.

* `C` are the addresses of connections (`struct nc_connection*`). An address may be used again once its
  connection is freed.
* `L` names listeners.
* Streams are numbered in the order of their allocation; a number is never used again.
* Using a stream whose memory was given back sets `ub`. Nothing is said about what happens after that: `step` leaves
  such a state alone.
* The streaming module (nabto-common, not in the repository) decides which events a stream has; every choice it
  makes is an argument of the operation (`Ev`). Assumption: it raises ACCEPT at most once for a stream.
* Data of streams is in `Verif.Stream.Ops` and `Verif.Stream.Virtual`.
-/

namespace Verif.Stream.Manager

open Verif.Core.Packet

/-- The flag bits of the packet header, constants of the streaming module. -/
structure Flags where
  syn : UInt8
  rst : UInt8

/-- `struct nc_stream_context` (nc_stream.h:56-110), the fields about its life. -/
structure Strm (C : Type) where
  sid : UInt64
  conn : Option C
  virt : Bool
  /-- `refCount` -/
  refs : Nat
  accepted : Bool
  stopped : Bool
  isSending : Bool
  deriving DecidableEq, Repr

/-- What the environment sees. -/
inductive Out (C L : Type)
  /-- `nc_stream_manager_add_listener` succeeded with this port. -/
  | listening (l : L) (port : UInt32)
  /-- It failed since the port is in use. -/
  | portInUse (l : L)
  /-- It failed since no ephemeral port was found. -/
  | noPort (l : L)
  /-- A stream was created for a client, with this nonce. -/
  | created (n : Nat) (c : C) (sid : UInt64) (nonce : UInt64)
  /-- A stream was given to a listener. -/
  | delivered (n : Nat) (l : L) (port : UInt32)
  /-- A RST packet was given to a connection. -/
  | rst (c : C) (sid : UInt64)
  /-- The packet was given to the stream. -/
  | packet (n : Nat)
  /-- The memory of a stream was given back. -/
  | freed (n : Nat)
  /-- A virtual stream was opened. -/
  | opened (n : Nat) (c : C) (port : UInt32)
  | openFailed (c : C)
  | segment
  | noSegment
  deriving DecidableEq, Repr

/-- `struct nc_stream_manager_context` (nc_stream_manager.h:20-32) with the memory and the environment. -/
structure St (C L : Type) where
  listeners : List (L × UInt32)
  /-- the list `streams` -/
  streams : List Nat
  /-- memory of the streams -/
  mem : Nat → Option (Strm C)
  /-- number of the next stream -/
  next : Nat
  current : Nat
  maxStreams : Nat
  nonce : UInt64
  /-- `rstBuf != NULL` -/
  rstBuf : Bool
  /-- a connection has taken `sendRstCtx` and will resolve its event -/
  rstOut : Bool
  segs : Nat
  maxSegs : Nat
  /-- connections of clients which exist -/
  conns : List C
  /-- virtual connections which exist -/
  vconns : List C
  /-- streams the application has got and not freed -/
  apps : List Nat
  /-- virtual streams their clients have got and not freed -/
  clis : List Nat
  /-- streams of which a connection has taken `sendCtx` -/
  sends : List Nat
  /-- streams whose event `ev` is posted -/
  posted : List Nat
  ub : Bool
  out : List (Out C L)

variable {C L : Type}

/-- `nc_stream_manager_init`, nc_stream_manager.c:26-36. The other fields are zero from the allocation of the device;
`SIZE_MAX` on a 64 bit platform. -/
def St.init : St C L :=
  { listeners := [], streams := [], mem := fun _ => none, next := 0, current := 0, maxStreams := 2 ^ 64 - 1,
    nonce := 0, rstBuf := false, rstOut := false, segs := 0, maxSegs := 1000000, conns := [], vconns := [],
    apps := [], clis := [], sends := [], posted := [], ub := false, out := [] }

def St.bad (s : St C L) : St C L := { s with ub := true }

def St.say (s : St C L) (o : Out C L) : St C L := { s with out := s.out ++ [o] }

/-- Write to the memory of a stream. -/
def St.put (s : St C L) (n : Nat) (x : Option (Strm C)) : St C L :=
  { s with mem := fun m => if m = n then x else s.mem m }

/-- An access to a stream: it must not have been freed. -/
def St.withS (s : St C L) (n : Nat) (f : Strm C → St C L) : St C L :=
  match s.mem n with
  | none => s.bad
  | some x => f x

/-- A read access. -/
def St.touch (s : St C L) (n : Nat) : St C L := s.withS n fun _ => s

/-- `nc_stream_ref_count_inc`, nc_stream.c:681-684. -/
def St.refInc (s : St C L) (n : Nat) : St C L :=
  s.withS n fun x => s.put n (some { x with refs := x.refs + 1 })

/-- `nc_stream_free` (nc_stream.c:107-117) and `nc_stream_manager_free_stream` (nc_stream_manager.c:196-201). A
posted event would be cancelled and a pending send would be left; both hold a reference, so this does not happen
(`Inv.refs`). -/
def St.free (s : St C L) (n : Nat) : St C L :=
  ({ s with current := s.current - 1 }.put n none).say (.freed n)

/-- `nc_stream_ref_count_dec`, nc_stream.c:686-696. A count below zero is outcome `ub`. -/
def St.refDec (s : St C L) (n : Nat) : St C L :=
  s.withS n fun x =>
    if x.refs = 0 then s.bad
    else if x.refs = 1 then s.free n
    else s.put n (some { x with refs := x.refs - 1 })

/-- What happens when an RST packet is sent: whether a buffer can be allocated, and whether the connection takes the
packet (it refuses while it is closing, nm_mbedtls_srv.c:454-464). `want` is the answer of
`nabto_stream_stop_should_send_rst`. -/
structure RstEnv where
  want : Bool
  buf : Bool
  send : Bool
  deriving DecidableEq, Repr

variable [DecidableEq C] [DecidableEq L]

/-- `nc_stream_manager_send_rst`, nc_stream_manager.c:255-283. The result of sending is not looked at. -/
def St.sendRst (s : St C L) (c : C) (sid : UInt64) (r : RstEnv) : St C L :=
  if s.rstBuf then s
  else if !r.buf then s
  else if c ∉ s.conns then s.bad
  else if r.send then { s with rstBuf := true, rstOut := true }.say (.rst c sid)
  else { s with rstBuf := true }

/-- `nc_stream_stop`, nc_stream.c:635-679, without the completion of operations (`Verif.Stream.Ops`). The packet is
sent before `conn` is cleared. -/
def St.stop (s : St C L) (n : Nat) (r : RstEnv) : St C L :=
  s.withS n fun x =>
    if x.stopped then s
    else
      let s1 := s.put n (some { x with stopped := true, conn := none, sid := 0 })
      match x.conn with
      | none => s1
      | some c => if !x.virt && r.want then s1.sendRst c x.sid r else s1

/-- `nc_stream_manager_stream_remove`, nc_stream_manager.c:203-209. -/
def St.remove (s : St C L) (n : Nat) : St C L :=
  { s with streams := s.streams.filter (· ≠ n) }.refDec n

/-- `nc_stream_destroy`, nc_stream.c:99-105. -/
def St.destroy (s : St C L) (n : Nat) (r : RstEnv) : St C L :=
  ((s.stop n r).remove n).refDec n

/-- `nc_stream_manager_ready_for_accept`, nc_stream_manager.c:140-167. `keep` tells whether the listener keeps the
stream or frees it at once (nabto_device_stream.c:383-386 and :392-394, nm_tcp_tunnel.c:176-215). -/
def St.ready (s : St C L) (n : Nat) (port : UInt32) (keep : Bool) (r : RstEnv) : St C L :=
  (s.refInc n).withS n fun x =>
    let s1 := (s.refInc n).put n (some { x with accepted := true })
    match s1.listeners.find? (fun p => p.2 = port) with
    | none => s1.destroy n r
    | some (l, _) =>
      let s2 := s1.say (.delivered n l port)
      if keep then { s2 with apps := s2.apps ++ [n] } else s2.destroy n r

/-- `nc_stream_event_deferred`, nc_stream.c:299-306: the event is posted once. -/
def St.deferred (s : St C L) (n : Nat) : St C L :=
  s.withS n fun x =>
    if x.stopped then s
    else if n ∈ s.posted then s
    else { s with posted := s.posted ++ [n] }.refInc n

/-- `nc_stream_send_packet`, nc_stream.c:236-288. `empty`: the module has no packet; `ok`: the connection takes
it. When it does not, `isSending` stays set. -/
def St.sendPacket (s : St C L) (n : Nat) (empty ok : Bool) : St C L :=
  s.withS n fun x =>
    if x.stopped then s
    else match x.conn with
    | none => s.deferred n
    | some c =>
      if x.isSending then s
      else if empty then s
      else if c ∉ s.conns then s.bad
      else
        let s1 := s.put n (some { x with isSending := true })
        if ok then { s1 with sends := s1.sends ++ [n] }.refInc n
        else if n ∈ s1.posted then s1
        else { s1 with posted := s1.posted ++ [n] }.refInc n

/-- An event of the streaming module. -/
inductive Ev
  /-- `ET_ACCEPT`, with the content type the client has asked for -/
  | accept (port : UInt32) (keep : Bool) (r : RstEnv)
  /-- `ET_ACK`, `ET_SYN`, `ET_SYN_ACK`, `ET_DATA`, `ET_RST` -/
  | send (empty ok : Bool)
  /-- `ET_TIMEOUT`, `ET_APPLICATION_EVENT`, `ET_TIME_WAIT` -/
  | other
  /-- the module calls `notify_event` (nc_stream.c:312-317) -/
  | notify
  deriving DecidableEq, Repr

/-- `nc_stream_event`, nc_stream.c:119-158, for the events the module gives; the end of the list is `ET_WAIT`,
`ET_NOTHING` or `ET_CLOSED`. After ACCEPT the stream is used again (nc_stream.c:151-155). A second ACCEPT does not
exist. -/
def St.events : List Ev → St C L → Nat → St C L
  | [], s, n => s.touch n
  | e :: es, s, n => s.withS n fun x =>
    if x.stopped then s
    else match e with
    | .accept port keep r =>
      if x.accepted then events es s n
      else events es ((s.ready n port keep r).touch n) n
    | .send empty ok => s.sendPacket n empty ok
    | .other => events es s n
    | .notify => events es (s.deferred n) n

/-- Result of looking for a stream. -/
inductive Found
  | ub
  | no
  | at (n : Nat)
  deriving DecidableEq, Repr

/-- `nc_stream_manager_find_stream`, nc_stream_manager.c:169-178. -/
def find (mem : Nat → Option (Strm C)) (sid : UInt64) (c : C) : List Nat → Found
  | [] => .no
  | n :: ns =>
    match mem n with
    | none => .ub
    | some x => if x.sid = sid ∧ x.conn = some c then .at n else find mem sid c ns

/-- Whether allocations succeed: the stream, and its events in `nc_stream_init` (nc_stream.c:62-75). -/
structure MemEnv where
  alloc : Bool
  init : Bool
  deriving DecidableEq, Repr

/-- `nc_stream_manager_accept_stream` (nc_stream_manager.c:211-231), with `nc_stream_manager_alloc_stream` (:180-194)
and `nc_stream_init` (nc_stream.c:49-97); the number of the stream. -/
def St.acceptStream (s : St C L) (c : C) (sid : UInt64) (m : MemEnv) : St C L × Option Nat :=
  if sid % 2 = 1 then (s, none)
  else if s.current ≥ s.maxStreams then (s, none)
  else if !m.alloc then (s, none)
  else if !m.init then ({ s with nonce := s.nonce + 1 }, none)
  else
    (({ s with current := s.current + 1, nonce := s.nonce + 1, next := s.next + 1,
               streams := s.streams ++ [s.next] }.put s.next
        (some { sid := sid, conn := some c, virt := false, refs := 1, accepted := false, stopped := false,
                isSending := false })).say (.created s.next c sid s.nonce), some s.next)

/-- `nc_stream_manager_handle_packet` from line 130 and `nc_stream_handle_packet` (nc_stream.c:199-206). The
streaming module of a virtual stream was never initialised: giving it a packet is outcome `ub`. -/
def St.packetTo (s : St C L) (n : Nat) (evs : List Ev) : St C L :=
  (s.refInc n).withS n fun x =>
    let s1 := (s.refInc n).say (.packet n)
    if x.stopped then s1.refDec n
    else if x.virt then s1.bad
    else (St.events evs s1 n).refDec n

/-- `nc_stream_manager_handle_packet`, nc_stream_manager.c:93-138. -/
def St.handlePacket (f : Flags) (s : St C L) (c : C) (bytes : List UInt8) (m : MemEnv) (r : RstEnv)
    (evs : List Ev) : St C L :=
  match parseHeader bytes with
  | .ub => s.bad
  | .fail => s
  | .ok h =>
    match find s.mem h.streamId c s.streams with
    | .ub => s.bad
    | .at n => s.packetTo n evs
    | .no =>
      let a := if h.flags = f.syn then s.acceptStream c h.streamId m else (s, none)
      match a.2 with
      | some n => a.1.packetTo n evs
      | none => if h.flags &&& f.rst ≠ f.rst then a.1.sendRst c h.streamId r else a.1

/-- `nc_stream_manager_accept_virtual_stream` (nc_stream_manager.c:233-247) with `nc_virtual_stream_init`
(nc_virtual_stream.c:12-31): the stream is in the list from the start, the reference of the list is counted at the
end. -/
def St.openVirtual (s : St C L) (c : C) (port : UInt32) (alloc keep : Bool) : St C L :=
  if s.current ≥ s.maxStreams ∨ alloc = false then s.say (.openFailed c)
  else
    let n := s.next
    let s1 := { s with current := s.current + 1, next := s.next + 1, streams := s.streams ++ [n] }.put n
      (some { sid := 0, conn := some c, virt := true, refs := 1, accepted := false, stopped := false,
              isSending := false })
    let s2 := s1.ready n port keep ⟨false, false, false⟩
    let s3 := s2.refInc n
    { s3 with clis := s3.clis ++ [n] }.say (.opened n c port)

/-- The loop body of `nc_stream_manager_remove_connection` (nc_stream_manager.c:355-370) with
`nc_stream_handle_connection_closed` (nc_stream.c:208-222). -/
def St.closeOne (c : C) (s : St C L) (n : Nat) : St C L :=
  s.withS n fun x =>
    if x.conn = some c then
      let s1 := (s.put n (some { x with conn := none })).refInc n
      let s2 :=
        if x.stopped then s1
        else
          let s2 := s1.stop n ⟨false, false, false⟩
          if x.accepted then s2 else s2.remove n
      s2.refDec n
    else s

/-- `nc_stream_manager_port_in_use`, nc_stream_manager.c:55-65. -/
def St.inUse (s : St C L) (port : UInt32) : Bool := s.listeners.any fun p => p.2 = port

/-- The loop of `nc_stream_manager_get_ephemeral_stream_port`, nc_stream_manager.c:390-409; `rand` gives the
numbers of `rand()`, `k` tries are left. -/
def St.ephemeral (s : St C L) (rand : Nat → UInt32) : Nat → Nat → Option UInt32
  | 0, _ => none
  | k + 1, i =>
    let port := 0x80000000 + (rand i &&& 0x7FFFFFFF)
    if s.inUse port then ephemeral s rand k (i + 1) else some port

/-- `nc_stream_manager_add_listener`, nc_stream_manager.c:67-86, after the choice of the port. -/
def St.listen (s : St C L) (l : L) (port : UInt32) : St C L :=
  if s.inUse port then s.say (.portInUse l)
  else { s with listeners := s.listeners ++ [(l, port)] }.say (.listening l port)

/-- `nc_stream_manager_add_listener`, nc_stream_manager.c:67-86. -/
def St.addListener (s : St C L) (l : L) (port : UInt32) (rand : Nat → UInt32) : St C L :=
  if port = 0 then
    match s.ephemeral rand 10 0 with
    | none => s.say (.noPort l)
    | some p => s.listen l p
  else s.listen l port

/-- What can happen. -/
inductive Op (C L : Type)
  | addListener (l : L) (port : UInt32) (rand : Nat → UInt32)
  | removeListener (l : L)
  /-- A client has connected; its `struct nc_connection` is at `c`. -/
  | newConn (c : C)
  /-- `nc_client_connection_destroy_connection`. -/
  | closeConn (c : C)
  | newVirtual (c : C)
  /-- `nabto_device_virtual_connection_free`. -/
  | freeVirtual (c : C)
  | packet (c : C) (bytes : List UInt8) (m : MemEnv) (r : RstEnv) (evs : List Ev)
  | openVirtual (c : C) (port : UInt32) (alloc keep : Bool)
  /-- `nc_stream_handle_timeout`. -/
  | timer (n : Nat) (evs : List Ev)
  /-- `nc_stream_dtls_send_callback`. -/
  | sendDone (n : Nat) (evs : List Ev)
  /-- `nc_stream_event_queue_callback`. -/
  | run (n : Nat) (evs : List Ev)
  /-- The application uses a stream (accept, read, write, close); the module may notify. -/
  | use (n : Nat) (notify : Bool)
  /-- `nabto_device_stream_abort`. -/
  | abort (n : Nat) (r : RstEnv)
  /-- `nabto_device_stream_free`. -/
  | destroy (n : Nat) (r : RstEnv)
  /-- The client uses a virtual stream. -/
  | clientUse (n : Nat)
  /-- `nabto_device_virtual_stream_free`. -/
  | clientFree (n : Nat)
  /-- `nc_stream_manager_send_rst_callback`. -/
  | rstDone
  /-- A stream wants memory for a segment; whether `np_calloc` succeeds. -/
  | allocSeg (ok : Bool)
  | freeSeg
  /-- `nabto_device_limit_streams`. -/
  | limitStreams (k : Nat)
  /-- `nabto_device_limit_stream_segments`. -/
  | limitSegs (k : Nat)

/-- One operation. An operation which the environment cannot do changes nothing: the memory of a new connection is
not that of an existing one, packets come from existing connections, a listener is added once, events run when they
were posted, timers of freed streams are destroyed, and applications and clients only use streams they were given and
have not freed. -/
def step (f : Flags) (s : St C L) (op : Op C L) : St C L :=
  if s.ub then s
  else match op with
  | .addListener l port rand => if s.listeners.any (fun p => p.1 = l) then s else s.addListener l port rand
  -- nc_stream_manager.c:88-91
  | .removeListener l => { s with listeners := s.listeners.filter fun p => p.1 ≠ l }
  | .newConn c => if c ∈ s.conns ∨ c ∈ s.vconns then s else { s with conns := s.conns ++ [c] }
  | .closeConn c =>
    if c ∉ s.conns then s
    else
      let s1 := s.streams.foldl (St.closeOne c) s
      { s1 with conns := s1.conns.filter (· ≠ c) }
  | .newVirtual c => if c ∈ s.conns ∨ c ∈ s.vconns then s else { s with vconns := s.vconns ++ [c] }
  -- nc_virtual_connection.c:21-30: streams are not told
  | .freeVirtual c => { s with vconns := s.vconns.filter (· ≠ c) }
  | .packet c bytes m r evs => if c ∉ s.conns then s else s.handlePacket f c bytes m r evs
  | .openVirtual c port alloc keep => if c ∉ s.vconns then s else s.openVirtual c port alloc keep
  -- nc_stream.c:189-197
  | .timer n evs =>
    match s.mem n with
    | none => s
    | some x => if x.virt ∨ x.stopped then s else St.events evs s n
  -- nc_stream.c:224-234
  | .sendDone n evs =>
    if n ∉ s.sends then s
    else
      let s1 := { s with sends := s.sends.erase n }
      s1.withS n fun x =>
        let s2 := s1.put n (some { x with isSending := false })
        (if x.stopped then s2 else St.events evs s2 n).refDec n
  -- nc_stream.c:290-297
  | .run n evs =>
    if n ∉ s.posted then s else (St.events evs { s with posted := s.posted.erase n } n).refDec n
  | .use n notify =>
    if n ∉ s.apps then s
    else s.withS n fun x => if notify && !x.virt then s.deferred n else s
  | .abort n r => if n ∉ s.apps then s else s.stop n r
  | .destroy n r => if n ∉ s.apps then s else { s with apps := s.apps.erase n }.destroy n r
  | .clientUse n => if n ∉ s.clis then s else s.touch n
  | .clientFree n => if n ∉ s.clis then s else { s with clis := s.clis.erase n }.refDec n
  | .rstDone => if s.rstOut then { s with rstBuf := false, rstOut := false } else s
  -- nc_stream_manager.c:293-312, :324-343
  | .allocSeg ok =>
    if s.segs ≥ s.maxSegs then s.say .noSegment
    else if !ok then s.say .noSegment
    else { s with segs := s.segs + 1 }.say .segment
  -- nc_stream_manager.c:314-322, :345-353
  | .freeSeg => if s.segs = 0 then s else { s with segs := s.segs - 1 }
  | .limitStreams k => { s with maxStreams := k }
  | .limitSegs k => { s with maxSegs := k }

/-- A history from the start of the device. -/
def run (f : Flags) (ops : List (Op C L)) : St C L := ops.foldl (step f) St.init

end Verif.Stream.Manager
