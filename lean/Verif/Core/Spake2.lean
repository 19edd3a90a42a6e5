/-!
# Password authentication — model

Transcription of `/repo/src/core/nc_spake2.c` and `nc_spake2_coap.c` as a state machine over all
connections of a device.

Simplifications:
* SPAKE2 (`nm_mbedtls_spake2.c`) is ideal: a key is the password it was calculated from, and a key
  confirmation succeeds iff the peer used that password in a run that belongs to the stored key (`fresh`).
  With no password the device uses a random one (`nm_mbedtls_spake2.c:118-120`), which no peer can use.
  `Core/Pake` has the computation itself;
  for mbed TLS `C120_agree`, `C120_reject` and `C120_unknown_partial` justify this, up to collisions of the hash.
  For wolfSSL the last sentence is false (`C120_unknown_violated`).
* Time is a natural number of milliseconds; a timed event fires at or after its deadline.
* Connections are numbered in the order they are opened, numbers are not reused
  (`nc_device_next_connection_ref`). A request of a closed connection finds no connection.
-/

namespace Verif.Core.Spake2

/-- `NC_SPAKE2_MAX_TOKENS`, `nc_spake2.h:22`. -/
def maxTokens : Nat := 10

/-- `NC_SPAKE2_TOKEN_INTERVAL`, `nc_spake2.h:23`. -/
def tokenInterval : Nat := 1000

/-- The key held by a connection: none usable, or calculated from this password. -/
inductive Key | junk | of (password : String)
  deriving DecidableEq, Repr

/-- The password authentication part of `struct nc_connection`, `nc_connection.h:27-33`, initialised by
`nc_connection_init`, `nc_connection.c:173-186`. `username = none` is the NULL pointer. -/
structure Conn where
  hasKey : Bool := false
  key : Key := .junk
  authenticated : Bool := false
  username : Option String := none
  deriving DecidableEq, Repr

/-- A password request handed to the application, `np_spake2.h`. -/
structure Pending where
  id : Nat
  conn : Nat
  username : String
  deriving DecidableEq, Repr

/-- `struct nc_spake2_module`, `nc_spake2.h:26-37`, the connections and the event queue's view of
`tbEvent`. -/
structure St where
  handler : Bool := false
  tokens : Nat := maxTokens
  timer : Option Nat := none
  now : Nat := 0
  conns : List (Nat × Conn) := []
  nextConn : Nat := 0
  pending : List Pending := []
  nextId : Nat := 0
  deriving DecidableEq, Repr

/-- What can happen. `answer` is `nc_spake2_password_ready` for an outstanding request; `calcOk` is the
result of `calculate_key`, `allocOk` the result of `nn_strdup`. -/
inductive Ev
  | open_
  | close (c : Nat)
  | setHandler
  | clearHandler
  | step1 (c : Nat) (cborFormat payload wellFormed : Bool) (username : String)
  | answer (id : Nat) (password : Option String) (calcOk allocOk : Bool)
  | step2 (c : Nat) (lengthOk : Bool) (guess : String) (fresh : Bool)
  | tick (ms : Nat)
  | fire
  deriving DecidableEq, Repr

def setConn (s : St) (c : Nat) (k : Conn) : St :=
  { s with conns := s.conns.map (fun x => if x.1 = c then (c, k) else x) }

/-- `np_event_queue_post_timed_event` on `tbEvent`. -/
def postTimer (s : St) : St := { s with timer := some (s.now + tokenInterval) }

/-- `nc_spake2_spend_token`, `nc_spake2.c:124-130`. -/
def spendToken (s : St) : St :=
  let s := if s.tokens = maxTokens then postTimer s else s
  { s with tokens := s.tokens - 1 }

/-- `newTokenEvent`, `nc_spake2.c:115-122`; the event has left the queue when it runs. -/
def newToken (s : St) : St :=
  let s := { s with timer := none, tokens := s.tokens + 1 }
  if s.tokens < maxTokens then postTimer s else s

/-- `nc_spake2_handle_coap_1`, `nc_spake2_coap.c:77-120`. No response code: the request was handed to the
application. -/
def handle1 (s : St) (c : Nat) (cborFormat payload wellFormed : Bool) (username : String) : St × Option Nat :=
  if s.tokens = 0 then (s, some 429)
  else if !s.handler then (s, some 404)
  else if !cborFormat then (s, some 415)
  else if !payload then (s, some 400)
  else if !wellFormed then (s, some 400)
  else ({ s with pending := s.pending ++ [⟨s.nextId, c, username⟩], nextId := s.nextId + 1 }, none)

/-- `nc_spake2_password_ready`, `nc_spake2.c:74-113`. A failed `calculate_key` has overwritten the stored
key (`nm_mbedtls_spake2.c:175`). -/
def passwordReady (s : St) (p : Pending) (password : Option String) (calcOk allocOk : Bool) : St × Option Nat :=
  let s := { s with pending := s.pending.filter (fun x => x.id != p.id) }
  match s.conns.lookup p.conn with
  | none => (s, some 500)
  | some k =>
    if calcOk then
      let k := { k with hasKey := true, key := match password with | some w => .of w | none => .junk }
      if allocOk then (setConn s p.conn { k with username := some p.username }, some 201)
      else (setConn s p.conn { k with username := none }, some 500)
    else (setConn s p.conn { k with key := .junk }, some 500)

/-- `nc_spake2_handle_coap_2`, `nc_spake2_coap.c:123-163`, for a request on an open connection. -/
def handle2 (s : St) (c : Nat) (k : Conn) (lengthOk : Bool) (guess : String) (fresh : Bool) : St × Option Nat :=
  if s.tokens = 0 then (s, some 429)
  else if !s.handler then (s, some 404)
  else if !lengthOk then (s, some 400)
  else if !k.hasKey then (s, some 400)
  else if fresh && k.key = .of guess then (setConn s c { k with authenticated := true }, some 201)
  else (spendToken s, some 401)

/-- One step: new state and the CoAP response sent, if any. -/
def step (s : St) : Ev → St × Option Nat
  | .open_ => ({ s with conns := s.conns ++ [(s.nextConn, {})], nextConn := s.nextConn + 1 }, none)
  | .close c => ({ s with conns := s.conns.filter (fun x => x.1 != c) }, none)
  -- nc_spake2_set_password_request_callback, nc_spake2.c:45-53
  | .setHandler => ({ s with handler := true }, none)
  -- nc_spake2_clear_password_request_callback, nc_spake2.c:39-43
  | .clearHandler => ({ s with handler := false }, none)
  | .step1 c f p w u =>
    match s.conns.lookup c with
    | none => (s, none)
    | some _ => handle1 s c f p w u
  | .answer id pw calcOk allocOk =>
    match s.pending.find? (fun x => x.id == id) with
    | none => (s, none)
    | some p => passwordReady s p pw calcOk allocOk
  | .step2 c l g f =>
    match s.conns.lookup c with
    | none => (s, none)
    | some k => handle2 s c k l g f
  | .tick ms => ({ s with now := s.now + ms }, none)
  | .fire =>
    match s.timer with
    | some t => if t ≤ s.now then (newToken s, none) else (s, none)
    | none => (s, none)

/-- A run; `some` responses are collected with the event that caused them. -/
def run (s : St) : List Ev → St × List (Ev × Nat)
  | [] => (s, [])
  | e :: es =>
    let r := step s e
    let r' := run r.1 es
    (r'.1, (match r.2 with | some c => [(e, c)] | none => []) ++ r'.2)

/-- `nc_spake2_init`, `nc_spake2.c:20-30`. -/
def init : St := {}

/-- `nabto_device_connection_is_password_authenticated`,
`nabto_device_password_authentication.c:62-75`. -/
def isAuthenticated (s : St) (c : Nat) : Bool :=
  match s.conns.lookup c with
  | none => false
  | some k => k.authenticated

/-- Outcome of `nabto_device_connection_get_password_authentication_username`. -/
inductive NameRes | ok (name : String) | invalidConnection | invalidState | ub
  deriving DecidableEq, Repr

/-- `nabto_device_connection_get_password_authentication_username`,
`nabto_device_password_authentication.c:77-99`; `username[0]` of a NULL pointer is undefined. -/
def getUsername (s : St) (c : Nat) : NameRes :=
  match s.conns.lookup c with
  | none => .invalidConnection
  | some k =>
    match k.username with
    | none => .ub
    | some n => if n = "" then .invalidState else .ok n

end Verif.Core.Spake2
