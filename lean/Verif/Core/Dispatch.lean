/-!
# UDP dispatch

Model of `src/core/nc_udp_dispatch.c`: the receive loop and the choice of the protocol handler.
-/

namespace Verif.Core.Dispatch

/-- The handlers a datagram can be given to. -/
inductive Handler | stun | attacher | clientConnection | rendezvous
  deriving DecidableEq, Repr

/-- Handler contexts that are set, `struct nc_udp_dispatch_context`. -/
structure Ctx where
  stun : Bool := false
  attacher : Bool := false
  cliConn : Bool := false
  rendezvous : Bool := false
  deriving DecidableEq, Repr

/-- `nc_udp_dispatch_handle_packet`, `nc_udp_dispatch.c:134-158`: the handler called, if any. Reading the first
byte of an empty datagram does not occur because the size is checked. -/
def handlePacket (c : Ctx) (buffer : List UInt8) : Option Handler :=
  match buffer with
  | [] => none
  | b :: _ =>
    if c.stun ∧ (b = 0 ∨ b = 1) then some .stun
    else if c.attacher ∧ (b ≥ 20 ∧ b ≤ 64) then some .attacher
    else if c.cliConn ∧ b = 240 then some .clientConnection
    else if c.rendezvous ∧ b = 241 then some .rendezvous
    else none

/-- Result of `np_udp_recv_from`. -/
inductive Recv | datagram (d : List UInt8) | again | aborted | error
  deriving DecidableEq, Repr

/-- What happens to the socket: the wait for a packet completes (with an error or not), with memory for the
receive buffer or not; contexts are set and cleared. -/
inductive Ev
  | waitFailed
  | waitOk (memory : Bool) (r : Recv)
  | setCtx (c : Ctx)
  deriving DecidableEq, Repr

/-- State: whether a wait is pending on the socket, whether a platform failure was reported, whether the socket
was found to be aborted, and the datagrams delivered. -/
structure St where
  ctx : Ctx := {}
  waiting : Bool := false
  failed : Bool := false
  aborted : Bool := false
  delivered : List (Handler × List UInt8) := []
  deriving DecidableEq, Repr

/-- The receive buffer, `nc_udp_dispatch.c:91`: longer datagrams are cut off. -/
def bufferLength : Nat := 1500

/-- `async_recv_wait_complete`, `nc_udp_dispatch.c:81-132`. Completions only arrive while waiting. -/
def step (s : St) : Ev → St
  | .setCtx c => { s with ctx := c }
  | .waitFailed => if s.waiting then { s with waiting := false, failed := true } else s
  | .waitOk memory r =>
    if !s.waiting then s
    else if !memory then { s with waiting := true }
    else
      match r with
      | .datagram d =>
        let d := d.take bufferLength
        match handlePacket s.ctx d with
        | some h => { s with delivered := s.delivered ++ [(h, d)], waiting := true }
        | none => { s with waiting := true }
      | .again => { s with waiting := true }
      | .aborted => { s with waiting := false, aborted := true }
      | .error => { s with waiting := false, failed := true }

def run (s : St) (es : List Ev) : St := es.foldl step s

/-- After `nc_udp_dispatch_start_recv`. -/
def started (c : Ctx) : St := { ctx := c, waiting := true }

end Verif.Core.Dispatch
