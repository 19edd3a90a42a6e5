/-!
# Starting, closing and stopping a device

Model of `nabto_device_start`, `nabto_device_close` and `nabto_device_stop` of `src/api/nabto_device.c` with their part of
`src/core/nc_device.c`, and of the closing of connections in `src/core/nc_connection.c`.

Each call of start or close comes with a future of its own, which gets the next number. Every function holds the lock of the
core, except that `nabto_device_close` reads `closeFut` before it takes the lock and `nabto_device_stop` reads `closing`
before; the model takes both under the lock.

What is left out: the sockets, the attacher and the mDNS server themselves. The environment tells the results of binding
and the end of closing.
-/

namespace Verif.Device.Life

inductive Ec
  | ok | stopped | invalidState | inProgress
  /-- any other error -/
  | other (n : Nat)
  deriving DecidableEq, Repr

/-- `enum nc_device_state`, nc_device.h. -/
inductive Core
  | setup | running | stopped
  deriving DecidableEq, Repr

/-- The callback of `socketBoundCompletionEvent`. -/
inductive Stage
  | p2p | localPort | secondary
  deriving DecidableEq, Repr

structure St where
  /-- `certificate` and `privateKey` are set -/
  keys : Bool
  core : Core
  /-- `startCb` and `closeCb` of the core are set -/
  startCb : Bool
  closeCb : Bool
  startFut : Option Nat
  closeFut : Option Nat
  stage : Stage
  /-- the result in `socketBoundCompletionEvent`, while it is in the event queue -/
  bind : Option Ec
  /-- connections of clients and virtual connections -/
  clients : Nat
  virtuals : Nat
  /-- `closing` and whether `closeCb` is set in `nc_connections_context` -/
  connsClosing : Bool
  connsCb : Bool
  /-- the attacher is closing for `nc_device_close` -/
  attachCb : Bool
  /-- the platform is closing, `nabto_device_platform_close` -/
  platClosing : Bool
  /-- `closing` of `nabto_device_context` -/
  stopped : Bool
  /-- a future was resolved which is not there -/
  bad : Bool
  /-- the number of the next future -/
  next : Nat
  /-- the futures which were resolved -/
  out : List (Nat × Ec)
  deriving DecidableEq, Repr

/-- `nabto_device_new`, nabto_device.c:73-184, when it succeeds. -/
def St.init : St :=
  { keys := false, core := .setup, startCb := false, closeCb := false, startFut := none, closeFut := none, stage := .p2p,
    bind := none, clients := 0, virtuals := 0, connsClosing := false, connsCb := false, attachCb := false,
    platClosing := false, stopped := false, bad := false, next := 0, out := [] }

def St.tell (s : St) (f : Nat) (e : Ec) : St := { s with out := s.out ++ [(f, e)] }

/-- `nabto_device_closed`, nabto_device.c:637-642. -/
def St.closed (s : St) (e : Ec) : St :=
  match s.closeFut with
  | some f => { s with closeFut := none }.tell f e
  | none => { s with bad := true }

/-- `nabto_device_core_closed_cb`, nabto_device.c:653-661. -/
def St.coreClosed (s : St) (e : Ec) : St :=
  if e ≠ .ok then s.closed e else { s with platClosing := true }

/-- `nabto_device_start_cb`, nabto_device.c:478-483. -/
def St.started (s : St) (e : Ec) : St :=
  match s.startFut with
  | some f => s.tell f e
  | none => { s with bad := true }

/-- `nc_device_resolve_start_close_callbacks`, nc_device.c:209-227. -/
def St.resolveStartClose (s : St) (e : Ec) : St :=
  let s1 := { s with startCb := false, closeCb := false }
  let s2 := if s.closeCb then s1.coreClosed e else s1
  if s.startCb then s2.started e else s2

/-- `nabto_device_start`, nabto_device.c:488-517, with `nc_device_start`, nc_device.c:394-433. `keyEc`: the result of
`nc_device_set_keys`; `coreEc`: an error of `nc_device_start` for missing ids or memory; `bindEc`: the result of binding
the first socket. -/
def St.start (s : St) (keyEc coreEc bindEc : Ec) : St :=
  let f := s.next
  let s1 := { s with next := s.next + 1, startFut := some f }
  if !s.keys then s1.tell f .invalidState
  else if keyEc ≠ .ok then s1.tell f keyEc
  else if coreEc ≠ .ok then s1.tell f coreEc
  else { s1 with core := .running, startCb := true, stage := .p2p, bind := some bindEc }

/-- The callbacks of `socketBoundCompletionEvent`, nc_device.c:245-303, with `nc_device_sockets_bound`, nc_device.c:343-390.
`nextEc`: the result of binding the next socket; `attachEc`: the result of `nc_attacher_start`, if it is called. -/
def St.runBind (s : St) (nextEc attachEc : Ec) : St :=
  match s.bind with
  | none => s
  | some e =>
    let s1 := { s with bind := none }
    if s.core = .stopped then s1.resolveStartClose .stopped
    else if e ≠ .ok then { s1 with core := .stopped }.resolveStartClose e
    else
      match s.stage with
      | .p2p => { s1 with stage := .localPort, bind := some nextEc }
      | .localPort => { s1 with stage := .secondary, bind := some nextEc }
      | .secondary => s1.resolveStartClose attachEc

/-- `nc_device_client_connections_closed_cb`, nc_device.c:448-452. -/
def St.clientsClosed (s : St) : St := { s with attachCb := true }

/-- `nabto_device_close`, nabto_device.c:663-682, with `nc_device_close`, nc_device.c:468-485, and
`nc_connections_async_close`, nc_connection.c:37-60. -/
def St.close (s : St) : St :=
  let f := s.next
  let s1 := { s with next := s.next + 1 }
  if s.closeFut.isSome then s1.tell f .inProgress
  else if s.core ≠ .running then s1.tell f .invalidState
  else
    let s2 := { s1 with closeFut := some f, closeCb := true, core := .stopped, connsClosing := true }
    if s.clients = 0 then s2.clientsClosed else { s2 with connsCb := true }

/-- `nc_device_attach_closed_cb`, nc_device.c:435-446, called from `resolve_close`, nc_attacher.c:386-395. -/
def St.attachClosed (s : St) : St :=
  if s.attachCb then
    let s1 := { s with attachCb := false }
    if s.closeCb then { s1 with closeCb := false }.coreClosed .ok else s1
  else s

/-- `nc_connections_free_connection`, nc_connection.c:112-126, after the number of connections went down. -/
def St.connFreed (s : St) : St :=
  if s.connsClosing && s.clients + s.virtuals == 0 && s.connsCb then { s with connsCb := false }.clientsClosed else s

/-- `nabto_device_stop`, nabto_device.c:189-208, with `nc_device_stop`, nc_device.c:454-466. -/
def St.stop (s : St) : St :=
  if s.stopped then s
  else
    { s with stopped := true, core := .stopped, connsClosing := true, connsCb := if s.clients = 0 then s.connsCb else false }

inductive Op
  | setKeys (keys : Bool)
  | start (keyEc coreEc bindEc : Ec)
  | close
  | stop
  /-- events -/
  | runBind (nextEc attachEc : Ec)
  | attachClosed
  | platClosed (e : Ec)
  /-- connections come and go -/
  | clientOpened
  | clientFreed
  | virtualOpened
  | virtualFreed
  deriving DecidableEq, Repr

/-- One operation. -/
def step (s : St) : Op → St
  | .setKeys keys => { s with keys := keys }
  | .start a b c => s.start a b c
  | .close => s.close
  | .stop => s.stop
  | .runBind a b => s.runBind a b
  | .attachClosed => s.attachClosed
  /- nabto_device_platform_closed_cb, nabto_device.c:644-648 -/
  | .platClosed e => if s.platClosing then { s with platClosing := false }.closed e else s
  | .clientOpened => { s with clients := s.clients + 1 }
  | .clientFreed => if s.clients = 0 then s else { s with clients := s.clients - 1 }.connFreed
  | .virtualOpened => { s with virtuals := s.virtuals + 1 }
  | .virtualFreed => if s.virtuals = 0 then s else { s with virtuals := s.virtuals - 1 }.connFreed

def run (ops : List Op) : St := ops.foldl step St.init

end Verif.Device.Life
