/-!
# The attacher

Model of `src/core/nc_attacher.c`, `nc_attacher_sct.c`, the state machine of
`nc_attacher_attach_start.c` and `nc_attacher_attach_end.c`, and of the parts of the DTLS client
`src/modules/mbedtls/nm_mbedtls_cli.c` which decide when the attacher hears from a connection.

What the network, the DNS resolver, the CoAP library, the allocator and the clock do is an argument of the
actions (`Act`). Simplifications:

* Events of the event queue which other modules post (a resolved name, a received packet, a completed send,
  a CoAP result) may run in any order. The code runs them in the order in which they were posted, so the
  model has more executions than the code.
* `Nat` counters stand for the 64 bit token versions, connection identities and `redirectAttempts`.
* The CoAP library is taken to call the handler of each sent request once, with a response only when it
  arrived on the connection of the request. What `nabto_coap_client_response_get_code` gives for a missing
  response (`nc_attacher_sct.c:88-89` does not check for it) is taken to be a code which is not a success.
* `mbedtls_ssl_read` is taken not to return 0: it does so when the transport reports its end, and
  `nm_dtls_mbedtls_recv` (`nm_mbedtls_cli.c:800-815`) never does.
* `ctx->request` is never set to anything but NULL and is left out. The contents of CBOR messages, the
  keep alive settings and the STUN host in an answer are left out.
-/

namespace Verif.Core.Attacher

/-- `enum nc_attacher_attach_state`, `nc_attacher.h:93-101`. -/
inductive AState | dns | request | retryWait | deniedWait | redirect | attached | closed
  deriving DecidableEq, Repr

/-- `enum nc_attacher_module_state`, `nc_attacher.h:105-109`. -/
inductive Mod | setup | running | closed
  deriving DecidableEq, Repr

/-- The states of a DTLS client connection which matter, `nm_mbedtls_common.h:4-8`. -/
inductive Phase | connecting | data | closing
  deriving DecidableEq, Repr

/-- `struct np_dtls_cli_connection`, `nm_mbedtls_cli.c:51-83`: its state, whether a datagram is being sent
(`sslSendBuffer != NULL`) and `destroyed`. -/
structure Conn where
  id : Nat
  phase : Phase := .connecting
  sending : Bool := false
  destroyed : Bool := false
  deriving DecidableEq, Repr

/-- The events with which a DTLS connection ends, `np_dtls_cli.h`, `enum np_dtls_event` without
`NP_DTLS_EVENT_HANDSHAKE_COMPLETE`. -/
inductive Down | closed | denied | certificate
  deriving DecidableEq, Repr

/-- `enum nc_device_event`, as far as the attacher reports them. -/
inductive DevEvent | attached | detached | unknownFingerprint | wrongProductId | wrongDeviceId | certificate
  deriving DecidableEq, Repr

/-- A callback given to `nc_attacher_async_close`, with a number to tell calls apart. `disable` is
`nc_device_attach_disabled_cb` (`nc_device.c:653-655`), which reports a detached event; otherwise it is
`nc_device_attach_closed_cb` (`nc_device.c:435-445`). -/
structure Cb where
  id : Nat
  disable : Bool
  deriving DecidableEq, Repr

/-- What can be observed. -/
inductive Obs
  /-- a name is given to the resolver; `none` is a null pointer -/
  | resolve (name : Option String)
  /-- an attach connection is opened to these endpoints, with this name for the certificate -/
  | connect (id : Nat) (endpoints : List (String × Nat)) (sni : String)
  /-- the attach start, token upload and attach end requests on a connection -/
  | startRequest (conn : Option Nat)
  | upload (conn : Option Nat) (tokens : List String)
  | endRequest (conn : Option Nat)
  /-- the server acknowledged these tokens -/
  | acked (conn : Option Nat) (tokens : List String)
  /-- a token was added with success -/
  | added (token : String)
  /-- an event for the application -/
  | event (e : DevEvent)
  /-- the callback of a close is called -/
  | closedCb (cb : Cb)
  /-- the state listener is told a state -/
  | notify (s : AState)
  deriving DecidableEq, Repr

/-- `struct nc_attacher_sct_context`, `nc_attacher.h:131-138`. `callback` is `true` for
`send_attach_sct_request_callback` and `false` for `send_sct_request_callback`; `conn` and `body` are the
connection and payload of the request in flight. -/
structure Sct where
  tokens : List String := []
  version : Nat := 0
  synced : Nat := 0
  uploading : Nat := 0
  callback : Option Bool := none
  conn : Option Nat := none
  body : List String := []
  deriving DecidableEq, Repr

/-- `struct nc_attach_context`, `nc_attacher.h:154-246`, with the DTLS connections, the pending events and
what has been observed so far. `startReq` and `endReq` are the connections of outstanding requests
(`startCallback` and `endCallback` are not NULL). -/
structure St where
  mod : Mod := .setup
  state : AState := .dns
  host : String := ""
  defaultPort : Nat := 0
  dns : Option String := none
  port : Nat := 0
  redirects : Nat := 0
  endpoints : List (String × Nat) := []
  conns : List Conn := []
  nextId : Nat := 0
  dtls : Option Nat := none
  /-- a name is being resolved -/
  resolving : Bool := false
  /-- the reattach timer and its delay -/
  timer : Option Nat := none
  /-- `closeEv` is posted -/
  closeEv : Bool := false
  /-- `deferredHandleStateChange` is posted -/
  deferred : Bool := false
  closedCb : Option Cb := none
  /-- the keep alive timer runs -/
  keepAlive : Bool := false
  startReq : Option (Option Nat) := none
  endReq : Option (Option Nat) := none
  sct : Sct := {}
  out : List Obs := []
  deriving DecidableEq, Repr

/-- `nc_attacher_init`, `nc_attacher.c:101-160`. -/
def init : St := {}

/-- What the environment decides within one action: whether the memory for the three requests and for a DTLS
connection is there, whether connecting fails at once, whether an alert of the DTLS connection (the
close notify) was handed to the socket and is still being sent. -/
structure Env where
  start : Bool := true
  upload : Bool := true
  end_ : Bool := true
  create : Bool := true
  connect : Option Down := none
  sending : Bool := true
  deriving DecidableEq, Repr

/-- The answer to an attach start request, `coap_attach_start_handle_response`,
`nc_attacher_attach_start.c:94-178`. -/
inductive StartResponse
  | none
  | attached
  /-- a redirect; `mem` is whether the new name could be stored -/
  | redirect (host : String) (port : Nat) (mem : Bool)
  | error | unknownFingerprint | wrongProductId | wrongDeviceId
  deriving DecidableEq, Repr

namespace St

def emit (s : St) (o : Obs) : St := { s with out := s.out ++ [o] }

/-- The connection with an identity. -/
def conn? (s : St) (id : Nat) : Option Conn := s.conns.find? (fun c => c.id == id)

/-- The connection `ctx->dtls` points to. -/
def cur (s : St) : Option Conn := s.dtls.bind s.conn?

def setConn (s : St) (c : Conn) : St :=
  { s with conns := s.conns.map (fun x => if x.id == c.id then c else x) }

def dropConn (s : St) (id : Nat) : St := { s with conns := s.conns.filter (fun x => x.id != id) }

/-- `destroy_connection`, `nm_mbedtls_cli.c:438-448`. -/
def destroy (s : St) (c : Conn) : St :=
  if c.sending then s.setConn { c with phase := .closing, destroyed := true } else s.dropConn c.id

/-- `dns_start_resolve`, `nc_attacher.c:464-468`. -/
def startResolve (s : St) : St := { s with resolving := true }.emit (.resolve s.dns)

/-- The listener call at the end of `handle_state_change`, `nc_attacher.c:459-461`. -/
def notify (s : St) : St := s.emit (.notify s.state)

/-- `handle_state_change`, `nc_attacher.c:422-462`, for the states which open no connection. -/
def enter (s : St) : St :=
  match s.state with
  | .dns => s.startResolve.notify
  | .closed => { s with closeEv := true }.notify
  | .retryWait => { s with timer := some 10000 }.notify
  | .deniedWait => { s with timer := some 3600000 }.notify
  | .redirect | .attached | .request => s.notify

/-- `reset_dtls_connection`, `nc_attacher.c:554-572`. The CoAP requests on the connection are answered later
by the library. -/
def reset (s : St) : St :=
  { s with
    keepAlive := false
    conns := (match s.cur with | some c => (s.destroy c).conns | none => s.conns)
    dtls := none
    out := if s.state = .attached then s.out ++ [.event .detached] else s.out }

/-- `dtls_event_handler`, `nc_attacher.c:525-548`, for the events which end a connection, with
`handle_dtls_closed` (574-601), `handle_dtls_access_denied` (608-615) and
`handle_dtls_certificate_verification_failed` (617-628). -/
def down (s : St) (e : Down) : St :=
  if s.mod = .closed then { s.reset with state := .closed }.enter
  else match e with
    | .closed =>
      match s.reset.state with
      | .redirect => { s.reset with state := if s.reset.redirects ≥ 5 then .retryWait else .dns }.enter
      | .deniedWait => s.reset
      | _ => { s.reset with state := .retryWait }.enter
    | .denied => { s.reset with state := .deniedWait }.enter
    | .certificate => { s.reset.emit (.event .certificate) with state := .retryWait }.enter

/-- `async_close` on `ctx->dtls`, `nm_mbedtls_cli.c:680-700`; `sending` is whether the close notify is handed
to the socket. -/
def asyncClose (s : St) (sending : Bool) : St :=
  match s.cur with
  | none => s
  | some c =>
    if c.phase = .closing then s
    else
      let c := { c with phase := .closing, sending := c.sending || sending }
      if c.sending then s.setConn c else (s.setConn c).down .closed

/-- `handle_state_change`, `nc_attacher.c:440-453`, in `NC_ATTACHER_STATE_DTLS_ATTACH_REQUEST`: a connection
is created and connected. When it cannot be created the state becomes `RETRY_WAIT` and
`handle_state_change_deferred` is called. -/
def enterRequest (s : St) (e : Env) : St :=
  if !e.create then { s with dtls := none, state := .retryWait, deferred := true }
  else
    let id := s.nextId
    let c : Conn := { id, sending := e.sending }
    let s := { s with conns := s.conns ++ [c], nextId := id + 1, dtls := some id }.emit (.connect id s.endpoints s.host)
    match e.connect with
    | none => s.notify
    | some d => ((s.setConn { c with phase := .closing }).down d).notify

/-- `coap_attach_failed`, `nc_attacher.c:753-759`. -/
def failed (s : St) (e : Env) : St := s.asyncClose e.sending

/-- `send_attach_start_request`, `nc_attacher.c:630-636`, with `nc_attacher_attach_start_request`,
`nc_attacher_attach_start.c:31-92`. -/
def sendStart (s : St) (e : Env) : St :=
  if s.startReq.isSome || !e.start then s.failed e
  else { s with startReq := some s.dtls }.emit (.startRequest s.dtls)

/-- `send_attach_end_request`, `nc_attacher.c:717-723`, with `nc_attacher_attach_end_request`,
`nc_attacher_attach_end.c:9-30`. -/
def sendEnd (s : St) (e : Env) : St :=
  if s.endReq.isSome || !e.end_ then s.failed e
  else { s with endReq := some s.dtls }.emit (.endRequest s.dtls)

/-- What `nc_attacher_sct_upload` returns. -/
inductive UploadResult | noOperation | started | failed
  deriving DecidableEq, Repr

/-- `nc_attacher_sct_upload`, `nc_attacher_sct.c:18-80`. -/
def upload (s : St) (attach : Bool) (e : Env) : St × UploadResult :=
  if s.sct.version = s.sct.synced then (s, .noOperation)
  else if s.sct.callback.isSome || !e.upload then (s, .failed)
  else
    ({ s with sct := { s.sct with callback := some attach, uploading := s.sct.version, conn := s.dtls, body := s.sct.tokens } }.emit
      (.upload s.dtls s.sct.tokens), .started)

/-- `send_attach_sct_request`, `nc_attacher.c:667-679`. -/
def sendAttachSct (s : St) (e : Env) : St :=
  match { s with sct := { s.sct with synced := 0 } }.upload true e with
  | (s, .noOperation) => s.sendEnd e
  | (s, .started) => s
  | (s, .failed) => s.failed e

/-- `send_sct_request`, `nc_attacher.c:697-705`. -/
def sendSct (s : St) (e : Env) : St := (s.upload false e).1

/-- `reattach`, `nc_attacher.c:506-523`, with `update_dns` (251-261); `mem` is whether the name could be
copied. -/
def reattach (s : St) (mem : Bool) : St :=
  if s.mod = .closed then { s with state := .closed }.enter
  else if !mem then { s with dns := none, state := .retryWait }.enter
  else { s with dns := some s.host, port := s.defaultPort, state := .dns, redirects := 0 }.enter

/-- `do_close`, `nc_attacher.c:353-384`. -/
def doClose (s : St) (sending : Bool) : St :=
  if s.mod = .setup then { s with closeEv := true }
  else
    match s.state with
    | .retryWait | .deniedWait => { s with mod := .closed, timer := none, state := .closed }.enter
    | .closed => { s with mod := .closed, closeEv := true }
    | .request | .attached => { s with mod := .closed }.asyncClose sending
    | .dns | .redirect => { s with mod := .closed }

/-- `resolve_close`, `nc_attacher.c:386-395`. -/
def resolveClose (s : St) : St :=
  let s := { s with closeEv := false, timer := none }
  match s.closedCb with
  | none => s
  | some cb =>
    let s := { s with closedCb := none }.emit (.closedCb cb)
    if cb.disable then s.emit (.event .detached) else s

/-- `dns_resolved_callback`, `nc_attacher.c:470-504`; `none` is a failure. -/
def resolved (s : St) (ips : Option (List String)) (e : Env) : St :=
  let s := { s with resolving := false }
  if s.mod = .closed then { s with state := .closed }.enter
  else match ips with
    | none => { s with state := .retryWait }.enter
    | some ips => { s with endpoints := (ips.take 4).map (fun ip => (ip, s.port)), state := .request }.enterRequest e

/-- `handle_redirect`, `nc_attacher_attach_start.c:256-309`: a redirect replaces the name and the port. -/
def storeName (s : St) (r : StartResponse) : St :=
  match r with
  | .redirect h p true => { s with dns := some h, port := p }
  | .redirect _ _ false => { s with dns := none }
  | _ => s

/-- `coap_attach_start_callback`, `nc_attacher.c:638-665`, after `coap_attach_start_handler`,
`nc_attacher_attach_start.c:311-325`. -/
def startCallback (s : St) (r : StartResponse) (e : Env) : St :=
  let s := { s with startReq := none }.storeName r
  if s.mod = .closed then s.failed e
  else match r with
    | .attached => s.sendAttachSct e
    | .redirect _ _ true => { s with state := .redirect, redirects := s.redirects + 1 }.asyncClose e.sending
    | .unknownFingerprint => (s.emit (.event .unknownFingerprint)).failed e
    | .wrongProductId => (s.emit (.event .wrongProductId)).failed e
    | .wrongDeviceId => (s.emit (.event .wrongDeviceId)).failed e
    | .none | .error | .redirect _ _ false => s.failed e

/-- `sct_request_handler`, `nc_attacher_sct.c:82-102`, with `send_attach_sct_request_callback`
(`nc_attacher.c:681-695`) and `send_sct_request_callback` (707-715); `ok` is a success code. -/
def sctCallback (s : St) (attach : Bool) (ok : Bool) (e : Env) : St :=
  let s := if ok then { s with sct := { s.sct with synced := s.sct.uploading } }.emit (.acked s.sct.conn s.sct.body) else s
  let s := { s with sct := { s.sct with callback := none } }
  if attach then
    if s.mod = .closed then s.failed e
    else if ok then s.sendEnd e else s.failed e
  else if ok then s.sendSct e else s

/-- `coap_attach_end_handler`, `nc_attacher_attach_end.c:32-53` and `nc_attacher.c:726-751`. -/
def endCallback (s : St) (ok : Bool) (e : Env) : St :=
  let s := { s with endReq := none }
  if !ok then s.failed e
  else if s.mod = .closed then s.failed e
  else ({ s with keepAlive := true, state := .attached }.enter.emit (.event .attached)).sendSct e

/-- `nc_attacher_start`, `nc_attacher.c:263-284`. -/
def start (s : St) (host : String) (port : Nat) (mem : Bool) : St :=
  if s.mod ≠ .setup then s
  else if !mem then { s with dns := none }
  else { s with dns := some host, state := .dns, mod := .running, host, defaultPort := port, port }.enter

/-- `nc_attacher_restart`, `nc_attacher.c:286-299`. -/
def restart (s : St) (mem : Bool) : St :=
  if s.mod ≠ .closed then s
  else
    let s := { s with mod := .running }
    if s.state = .closed then s.reattach mem else s

/-- `nn_string_set_insert`. -/
def insertToken (l : List String) (t : String) : List String := if t ∈ l then l else l ++ [t]

/-- `nc_attacher_add_server_connect_token`, `nc_attacher.c:320-333`. -/
def addToken (s : St) (t : String) (mem : Bool) (e : Env) : St :=
  let s := { s with sct := { s.sct with version := s.sct.version + 1 } }
  if !mem then s
  else
    let s := { s with sct := { s.sct with tokens := insertToken s.sct.tokens t } }.emit (.added t)
    if s.state = .attached then s.sendSct e else s

/-- `nc_attacher_is_server_connect_tokens_synchronized`, `nc_attacher.c:337-347`: true for
`NABTO_EC_OK`, false for `NABTO_EC_OPERATION_IN_PROGRESS`. -/
def synchronized (s : St) : Bool :=
  if s.state = .attached then s.sct.synced == s.sct.version else true

/-- `dtls_udp_send_callback`, `nm_mbedtls_cli.c:720-743`: the datagram of a connection has been sent. A
closing connection then reports that it is closed, and is freed if it has been destroyed. -/
def sent (s : St) (c : Conn) : St :=
  if c.phase = .closing then
    let s := s.down .closed
    match s.conn? c.id with
    | none => s
    | some c => if c.destroyed then s.dropConn c.id else s.setConn { c with sending := false }
  else s.setConn { c with sending := false }

/-- A response can arrive on the connection of a request: it is `ctx->dtls` and its handshake is complete. -/
def answerable (s : St) (conn : Option Nat) : Bool :=
  s.dtls == conn && (match s.cur with | some c => c.phase == .data | none => false)

end St

/-- What can happen to an attacher. -/
inductive Act
  /-- `nc_attacher_start`, `_async_close`, `_stop`, `_restart`, `_add_server_connect_token` -/
  | start (host : String) (port : Nat) (mem : Bool)
  | close (cb : Cb) (sending : Bool)
  | stop (sending : Bool)
  | restart (mem : Bool)
  | addToken (t : String) (mem : Bool) (e : Env)
  /-- the resolver completes -/
  | resolved (ips : Option (List String)) (e : Env)
  /-- the handshake of a connection completes -/
  | connected (id : Nat) (e : Env)
  /-- a connection ends by a failed handshake, an error or an alert -/
  | fail (id : Nat) (d : Down) (sending : Bool)
  /-- a connection hands a datagram to the socket; the socket has sent it -/
  | send (id : Nat)
  | sent (id : Nat)
  /-- CoAP requests are answered -/
  | startResponse (r : StartResponse) (e : Env)
  | sctResponse (r : Option Bool) (e : Env)
  | endResponse (r : Option Bool) (e : Env)
  /-- too many keep alive packets are lost -/
  | keepAliveTimeout (sending : Bool)
  /-- the reattach timer, `closeEv` and `deferredHandleStateChange` run -/
  | timer (mem : Bool)
  | closeEvent
  | deferred
  deriving DecidableEq, Repr

/-- One action; `none` when it cannot occur. -/
def step (s : St) : Act → Option St
  | .start h p mem => some (s.start h p mem)
  | .close cb sending => some ({ s with closedCb := some cb }.doClose sending)
  | .stop sending => some ({ s with keepAlive := false }.doClose sending)
  | .restart mem => some (s.restart mem)
  | .addToken t mem e => some (s.addToken t mem e)
  | .resolved ips e => if s.resolving then some (s.resolved ips e) else none
  | .connected id e =>
    match s.conn? id with
    | none => none
    | some c =>
      if c.phase = .connecting then
        let s := s.setConn { c with phase := .data }
        if s.mod = .closed then some (s.asyncClose e.sending) else some (s.sendStart e)
      else none
  | .fail id d sending =>
    match s.conn? id with
    | none => none
    | some c =>
      if c.phase = .closing then none
      else if c.phase = .data ∧ d = .denied then some (s.down .denied)
      else if c.phase = .data ∧ d = .certificate then none
      else some ((s.setConn { c with phase := .closing, sending := c.sending || sending }).down d)
  | .send id =>
    match s.conn? id with
    | none => none
    | some c => if c.phase = .closing then none else some (s.setConn { c with sending := true })
  | .sent id =>
    match s.conn? id with
    | none => none
    | some c => if c.sending then some (s.sent c) else none
  | .startResponse r e =>
    match s.startReq with
    | none => none
    | some conn => if r = .none ∨ s.answerable conn then some (s.startCallback r e) else none
  | .sctResponse r e =>
    match s.sct.callback with
    | none => none
    | some attach => if r = none ∨ s.answerable s.sct.conn then some (s.sctCallback attach (r == some true) e) else none
  | .endResponse r e =>
    match s.endReq with
    | none => none
    | some conn => if r = none ∨ s.answerable conn then some (s.endCallback (r == some true) e) else none
  | .keepAliveTimeout sending => if s.keepAlive then some ({ s with keepAlive := false }.asyncClose sending) else none
  | .timer mem => if s.timer.isSome then some ({ s with timer := none }.reattach mem) else none
  | .closeEvent => if s.closeEv then some s.resolveClose else none
  | .deferred => if s.deferred then some s else none

/-- Some actions in a row. -/
def run (s : St) : List Act → Option St
  | [] => some s
  | a :: as => (step s a).bind (fun s => run s as)

end Verif.Core.Attacher
