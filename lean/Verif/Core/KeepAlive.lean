/-!
# Keep alive

Model of `src/core/nc_keep_alive.c` and of its users' reaction (`nc_client_connection.c:241-282`,
`nc_attacher.c:851-897`): the check runs every `kaRetryInterval` milliseconds; a request is sent on
`SEND_KA`, the connection is closed on `KA_TIMEOUT`.
-/

namespace Verif.Core.KeepAlive

/-- `struct nc_keep_alive_context`, `nc_keep_alive.h:30-45` (without send buffer and event). -/
structure Ctx where
  interval : UInt32 := 30000
  retryInterval : UInt32 := 2000
  maxRetries : UInt32 := 15
  lastRecv : UInt32 := 0
  lastSent : UInt32 := 0
  lost : UInt32 := 0
  n : UInt32 := 15
  isSending : Bool := false
  deriving DecidableEq, Repr

/-- `enum nc_keep_alive_action`. -/
inductive Action | doNothing | sendKa | timeout
  deriving DecidableEq, Repr

/-- `nc_keep_alive_init`, `nc_keep_alive.c:10-25`; the context is zeroed by its owner. -/
def init : Ctx := {}

/-- `nc_keep_alive_reset`, `nc_keep_alive.c:41-52`. -/
def reset (c : Ctx) : Ctx :=
  { c with interval := 30000, retryInterval := 2000, maxRetries := 15, lastRecv := 0, lastSent := 0, lost := 0 }

/-- `nc_keep_alive_set_settings`, `nc_keep_alive.c:54-60`; `none` is a division by zero. -/
def setSettings (c : Ctx) (interval retryInterval maxRetries : UInt32) : Option Ctx :=
  if retryInterval = 0 then none
  else some { c with interval, retryInterval, maxRetries, n := interval / retryInterval }

/-- `nc_keep_alive_should_send`, `nc_keep_alive.c:62-80`. -/
def shouldSend (c : Ctx) (recv sent : UInt32) : Ctx × Action :=
  if recv > c.lastRecv ∧ sent > c.lastSent then
    ({ c with lost := 0, lastRecv := recv, lastSent := sent }, .doNothing)
  else if c.lost > c.maxRetries + c.n then (c, .timeout)
  else
    let c := { c with lost := c.lost + 1 }
    if !c.isSending ∧ c.lost > c.n then (c, .sendKa) else (c, .doNothing)

/-- What happens to a keep alive context. The counters read by a check are totals of packets received and
sent; the DTLS modules keep them in 32 bits. -/
inductive Ev
  | check (received sent : Nat)
  /-- a send of a keep alive packet completed, `nc_keep_alive_packet_sent` -/
  | packetSent
  /-- a keep alive request of this length arrived, `nc_keep_alive_handle_request` -/
  | request (length : Nat)
  deriving DecidableEq, Repr

/-- One event and the action, for checks. -/
def step (c : Ctx) : Ev → Ctx × Option Action
  | .check r s =>
    let x := shouldSend c (UInt32.ofNat r) (UInt32.ofNat s)
    -- nc_keep_alive_create_request, nc_keep_alive.c:87-98
    (if x.2 = .sendKa then { x.1 with isSending := true } else x.1, some x.2)
  | .packetSent => ({ c with isSending := false }, none)
  | .request len => (if len < 18 ∨ c.isSending then c else { c with isSending := true }, none)

/-- A run; the actions of the checks in order. -/
def run (c : Ctx) : List Ev → Ctx × List Action
  | [] => (c, [])
  | e :: es =>
    let r := step c e
    let r' := run r.1 es
    (r'.1, r.2.toList ++ r'.2)

/-- `nc_keep_alive_handle_request`, `nc_keep_alive.c:99-115`: the response, if one is sent. -/
def handleRequest (c : Ctx) (req : List UInt8) : Ctx × Option (List UInt8) :=
  if req.length < 18 ∨ c.isSending then (c, none)
  else ({ c with isSending := true }, some (4 :: 4 :: (req.drop 2).take 16))

end Verif.Core.KeepAlive
