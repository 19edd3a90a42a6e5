/-
What drives the CoAP client and the CoAP server: src/core/nc_coap_client.c and src/core/nc_coap_server.c:1-243.
The CoAP library itself (nabto-common, not part of the repository) is a parameter.

Not modelled: `nc_coap_client_stop`, `nc_coap_client_deinit`, `nc_coap_server_deinit` and failures of
the init functions.
-/
namespace Verif.Coap.Driver

/-- Is it the client or the server. -/
inductive Kind
  | client | server
  deriving DecidableEq, Repr

/-- What the library wants next (`nabto_coap_client_get_next_event`, `nabto_coap_server_next_event`). -/
inductive Next
  | nothing | wait | send | callback
  deriving DecidableEq, Repr

/-- The CoAP library: its state is an `L`, what comes in is an `I`.  Assumed: what it wants next
changes only when one of its functions is called, not with the time. -/
structure Lib (L I : Type) where
  next : L → Next
  /-- when the next timeout is, in ms since the start of the clock
  (`nabto_coap_client_get_next_timeout`, `nabto_coap_server_get_next_timeout` tell it modulo 2^32) -/
  due : L → Nat
  /-- `nabto_coap_server_get_connection_send` finds a connection -/
  conn : L → Bool
  /-- `nabto_coap_client_create_packet`, `nabto_coap_server_handle_send`, at a time, with or without
  a buffer; was a packet written -/
  create : L → Nat → Bool → L × Bool
  /-- `nabto_coap_client_handle_timeout`, `nabto_coap_server_handle_timeout` -/
  timeout : L → Nat → L
  /-- `nabto_coap_client_handle_callback` -/
  callback : L → L
  /-- `nabto_coap_client_handle_packet`, `nabto_coap_server_handle_packet` -/
  packet : L → Nat → I → L
  /-- a call of another function of the library, and did it call the function for notifications -/
  call : L → Nat → I → L × Bool

/-- A driver. -/
structure St (L : Type) where
  lib : L
  /-- ms since the start of the clock -/
  now : Nat := 0
  /-- when `currentExpiry` was last set to infinite; not in the code -/
  reset : Nat := 0
  /-- `currentExpiry` -/
  expiry : Nat := 2 ^ 29
  /-- `timer` is in the queue, for this time -/
  timer : Option Nat := none
  /-- `ev` is in the queue -/
  posted : Bool := false
  /-- `sendBuffer != NULL` -/
  buffer : Bool := false
  /-- the DTLS connection has the packet and will resolve `sendCtx.ev` -/
  inflight : Bool := false
  /-- packets given to a DTLS connection which took them; not in the code -/
  sent : Nat := 0
  /-- of these, how many it has finished; not in the code -/
  done : Nat := 0
  /-- timeouts the library was told; not in the code -/
  timeouts : Nat := 0
  deriving DecidableEq, Repr

/-- `np_timestamp_now_ms`, and every stamp: 32 bits. -/
def stamp (t : Nat) : Nat := t % 2 ^ 32

/-- `nabto_coap_stamp_diff`, assumed to be what `np_timestamp_difference` is
(np_timestamp_wrapper.c:27-30). -/
def stampDiff (a b : Nat) : Int :=
  let d : Nat := (a + 2 ^ 32 - b) % 2 ^ 32
  if d < 2 ^ 31 then (d : Int) else (d : Int) - 2 ^ 32

/-- `nabto_coap_is_stamp_less`, assumed to compare the way `np_timestamp_less_or_equal` does
(np_timestamp_wrapper.c:16-19). -/
def stampLess (a b : Nat) : Bool := decide (stampDiff a b < 0)

/-- What the world does while a function runs: is there memory for a buffer, and does the DTLS
connection take the packet. -/
structure Env where
  mem : Bool
  taken : Bool
  deriving DecidableEq, Repr

variable {L I : Type}

/-- `nc_coap_client_handle_wait` (nc_coap_client.c:128-142), `nc_coap_server_handle_wait`
(nc_coap_server.c:154-168).  The event queue is simplified: the timer is for a time, not a stamp. -/
def St.handleWait (E : Lib L I) (s : St L) : St L :=
  let next := stamp (E.due s.lib)
  if stampLess next s.expiry then
    let diff := stampDiff next (stamp s.now)
    { s with expiry := next, timer := some (s.now + (if diff < 0 then 0 else diff.toNat)) }
  else s

/-- `nc_coap_client_handle_send` (nc_coap_client.c:91-126) and `nc_coap_server_handle_send`
(nc_coap_server.c:107-152), with what is done with their result. -/
def St.handleSend (k : Kind) (E : Lib L I) (s : St L) (env : Env) : St L :=
  if s.buffer then s
  else if k = .server ∧ E.conn s.lib = false then { s with posted := true }
  else
    let r := E.create s.lib s.now env.mem
    if env.mem = true ∧ r.2 = true then
      { s with lib := r.1, buffer := true, inflight := env.taken, sent := s.sent + (if env.taken then 1 else 0) }
    else { s with lib := r.1, posted := true }

/-- `nc_coap_client_event` (nc_coap_client.c:164-187) with `nc_coap_client_handle_callback`
(nc_coap_client.c:153-162), `nc_coap_server_event` (nc_coap_server.c:86-105), which knows no
callbacks. -/
def St.event (k : Kind) (E : Lib L I) (s : St L) (env : Env) : St L :=
  match E.next s.lib with
  | .callback =>
    match k with
    | .client => { s with lib := E.callback s.lib, posted := true }
    | .server => s
  | .send => s.handleSend k E env
  | .wait => s.handleWait E
  | .nothing => s

/-- What happens. -/
inductive Op (I : Type)
  /-- time passes -/
  | tick (d : Nat)
  /-- the event thread gets to the timer -/
  | fire (env : Env)
  /-- the event thread gets to `ev` -/
  | event (env : Env)
  /-- the DTLS connection has sent the packet, or failed to -/
  | sent (env : Env)
  /-- a packet comes in -/
  | packet (i : I) (env : Env)
  /-- another function of the library is called -/
  | call (i : I)

/-- One step.
`fire`: `nc_coap_client_handle_timeout` (nc_coap_client.c:144-151), `nc_coap_server_handle_timeout`
(nc_coap_server.c:170-177), `nc_coap_client_set_infinite_stamp` (nc_coap_client.c:216-222),
`nc_coap_server_set_infinite_stamp` (nc_coap_server.c:238-242).
`event`: `nc_coap_client_notify_event_callback` (nc_coap_client.c:199-203), nc_coap_server.c:221-225.
`sent`: `nc_coap_client_send_to_callback` (nc_coap_client.c:190-197), nc_coap_server.c:206-214.
`packet`: `nc_coap_client_handle_packet` (nc_coap_client.c:74-89), nc_coap_server.c:77-84.
`call`: `nc_coap_client_notify_event` (nc_coap_client.c:210-214), nc_coap_server.c:232-236. -/
def St.step (k : Kind) (E : Lib L I) (s : St L) : Op I → St L
  | .tick d => { s with now := s.now + d }
  | .fire env =>
    match s.timer with
    | some t =>
      if t ≤ s.now then
        ({ s with timer := none, expiry := stamp (stamp s.now + 2 ^ 29), reset := s.now, lib := E.timeout s.lib s.now,
                  timeouts := s.timeouts + 1 } : St L).event k E env
      else s
    | none => s
  | .event env => if s.posted then ({ s with posted := false } : St L).event k E env else s
  | .sent env =>
    if s.inflight then ({ s with buffer := false, inflight := false, done := s.done + 1 } : St L).event k E env else s
  | .packet i env => ({ s with lib := E.packet s.lib s.now i } : St L).event k E env
  | .call i =>
    let r := E.call s.lib s.now i
    { s with lib := r.1, posted := s.posted || r.2 }

/-- `nc_coap_client_init` (nc_coap_client.c:26-54), `nc_coap_server_init` (nc_coap_server.c:33-63) at
time 0, and what happens then. -/
def run (k : Kind) (E : Lib L I) (l : L) (ops : List (Op I)) : St L := ops.foldl (St.step k E) { lib := l }

end Verif.Coap.Driver
