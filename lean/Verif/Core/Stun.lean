/-!
# STUN analysis and the endpoints resource (model, C50, C78, C79)

Model of `src/core/nc_stun.c` and of `src/core/nc_stun_coap.c`, the only user of it. The STUN library
(`nabto_stun`, not part of the repository) is the environment: whenever the code asks it for the next
event, the answer is an input. The UDP sockets, the timer, the lookup of the host name and the allocator are
inputs too. Endpoints are numbers. The CoAP response is the list of its endpoints (the encoding is treated in
`Verif.Cbor`), `none` is the response 5.00.

A callback never starts another analysis: the only callback is `nc_rendezvous_endpoints_completed`.
-/

namespace Verif.Core.Stun

/-- Error codes; only some are distinguished by the code. -/
inductive Ec where
  | ok | aborted | invalidState | noValidEndpoints | udpSocketError | unknown
  | other (n : Nat)
deriving DecidableEq, Repr

/-- `enum nc_stun_state` (nc_stun.h:38-44). -/
inductive State where
  | none | resolving | running | done | aborted
deriving DecidableEq, Repr

/-- The answer of `nabto_stun_next_event_to_handle`, with what the code asks the library for next: the
endpoint for sending (`nabto_stun_get_data_endpoint` can fail) or the external endpoint of the result. -/
inductive LibEvent where
  | sendPrimary (ep : Option Nat)
  | sendSecondary (ep : Option Nat)
  | wait
  | noEvent
  | completed (ext : Nat)
  | failed
  | invalid
deriving DecidableEq, Repr

/-- The part of `struct nc_stun_context` (nc_stun.h:46-77) which is modelled. `cbs` are the numbers of the CoAP
requests whose callback is in the list. `host` is the heap block of the host name and `blocks` the number of
blocks used so far, `freed` the blocks which have been freed. `lookup` is the block whose address the lookup
of the platform has been given, `timer` says that `toEv` is armed, `sending` is the number of sends which
have not been completed. -/
structure Ctx where
  state : State
  cbs : List Nat
  ec : Ec
  res : Option Nat
  host : Option Nat
  blocks : Nat
  freed : List Nat
  lookup : Option Nat
  timer : Bool
  sending : Nat
  priUdp : Bool
  secUdp : Bool
deriving DecidableEq, Repr

/-- `nc_stun_init` (nc_stun.c:51-88). -/
def init : Ctx :=
  { state := .none, cbs := [], ec := .ok, res := none, host := none, blocks := 0, freed := [],
    lookup := none, timer := false, sending := 0, priUdp := false, secUdp := false }

/-- The surroundings of a request: the local endpoints at the time of the answer (addresses from
`np_local_ip_get_local_ips` with the port of the socket), and whether the response can be allocated and
encoded. -/
structure Env where
  locals : Nat → List Nat
  mem : Nat → Bool

/-- What the outside sees: the response to a CoAP request, or a packet to the STUN server. -/
inductive Out where
  | response (req : Nat) (eps : Option (List Nat))
  | send (primary : Bool) (ep : Nat)
deriving DecidableEq, Repr

/-- Result of a step; `none` is undefined behaviour. -/
abbrev R := Option (Ctx × List Out)

/-- `ENDPOINTS_RESPONSE_ENDPOINTS_MAX` (nc_stun_coap.c:18). -/
def maxEndpoints : Nat := 3

/-- `nc_rendezvous_endpoints_completed` (nc_stun_coap.c:86-165). Reading the result through a `NULL` pointer
is undefined. -/
def completed (env : Env) (ec : Ec) (res : Option Nat) (req : Nat) : Option Out :=
  let eps := (env.locals req).take (maxEndpoints - 1)
  if ec = .ok then
    match res with
    | none => none
    | some ext => some (.response req (if env.mem req then some (eps ++ [ext]) else none))
  else some (.response req (if env.mem req then some eps else none))

/-- The loop of `nc_stun_resolve_callbacks`. -/
def answerAll (env : Env) (ec : Ec) (res : Option Nat) : List Nat → Option (List Out)
  | [] => some []
  | r :: rs => do
    let o ← completed env ec res r
    let os ← answerAll env ec res rs
    return o :: os

/-- `nc_stun_resolve_callbacks` (nc_stun.c:360-370). -/
def resolveCallbacks (env : Env) (c : Ctx) : R := do
  let os ← answerAll env c.ec c.res c.cbs
  return ({ c with cbs := [] }, os)

/-- `nc_stun_resolve_callbacks_error` (nc_stun.c:351-356). -/
def resolveError (env : Env) (c : Ctx) (ec : Ec) : R :=
  resolveCallbacks env { c with state := .done, ec := ec }

/-- `nc_stun_set_host` (nc_stun.c:121-131): the old name is freed. `dup` says whether `nn_strdup` succeeds. -/
def setHost (c : Ctx) (dup : Bool) : Ctx :=
  let c := { c with freed := c.host.toList ++ c.freed, host := none }
  if dup then { c with host := some c.blocks, blocks := c.blocks + 1 } else c

/-- `nc_stun_async_analyze_simple` (nc_stun.c:140-169). The resolver hands the pointer to the name on to the
platform (nc_dns_multi_resolver.c:61-63). -/
def analyze (c : Ctx) (req : Nat) : Ctx × Ec :=
  if c.state = .aborted then (c, .aborted)
  else
    match c.host with
    | none => (c, .invalidState)
    | some h =>
      let c := { c with cbs := c.cbs ++ [req] }
      if c.state = .resolving ∨ c.state = .running then (c, .ok)
      else ({ c with state := .resolving, lookup := some h }, .ok)

/-- The two branches for sending of `nc_stun_event` (nc_stun.c:218-265). -/
def sendTo (env : Env) (c : Ctx) (primary : Bool) (ep : Option Nat) : R :=
  if !(if primary then c.priUdp else c.secUdp) then resolveError env c .udpSocketError
  else
    match ep with
    | none => resolveError env c .noValidEndpoints
    | some ep => some ({ c with sending := c.sending + 1 }, [.send primary ep])

/-- `nc_stun_event` (nc_stun.c:211-292). -/
def event (env : Env) (c : Ctx) (ev : LibEvent) : R :=
  let c := { c with timer := false }
  match ev with
  | .sendPrimary ep => sendTo env c true ep
  | .sendSecondary ep => sendTo env c false ep
  | .wait => some ({ c with timer := true }, [])
  | .noEvent => some (c, [])
  | .completed ext => resolveCallbacks env { c with state := .done, ec := .ok, res := some ext }
  | .failed => resolveError env c .unknown
  | .invalid => some (c, [])

/-- `nc_stun_dns_cb` (nc_stun.c:294-312). -/
def dnsCb (env : Env) (c : Ctx) (ec : Ec) (ev : LibEvent) : R :=
  if c.state = .aborted then resolveCallbacks env { c with ec := .aborted }
  else if ec ≠ .ok then resolveError env c ec
  else event env { c with state := .running } ev

/-- `nc_stun_stop` (nc_stun.c:90-96). -/
def stop (env : Env) (c : Ctx) : R :=
  resolveCallbacks env { c with state := .aborted, ec := .aborted }

/-- `nc_rendezvous_handle_coap_p2p_endpoints` (nc_stun_coap.c:167-186). -/
def request (env : Env) (c : Ctx) (req : Nat) (mem : Bool) : R :=
  if !mem then some (c, [.response req none])
  else
    match analyze c req with
    | (c, .ok) => some (c, [])
    | (c, ec) => (completed env ec none req).map fun o => (c, [o])

/-- What happens to the module. -/
inductive Op where
  /-- The request GET /p2p/endpoints. -/
  | request (req : Nat) (mem : Bool)
  | setHost (dup : Bool)
  /-- `nc_stun_set_sockets` and `nc_stun_remove_sockets` (nc_stun.c:115-119, 133-137). -/
  | sockets (pri sec : Bool)
  | packet (ev : LibEvent)
  | sendDone (ev : LibEvent)
  | timeout (ev : LibEvent)
  /-- The lookup of the platform reads the name it has been given (nm_unix_dns.c:65, in another thread). -/
  | dnsReads
  | dnsDone (ec : Ec) (ev : LibEvent)
  | stop
deriving DecidableEq, Repr

/-- One event: `nc_stun_handle_packet` (nc_stun.c:172-193), `nc_stun_send_to_cb` (nc_stun.c:314-324) and
`nc_stun_handle_timeout` (nc_stun.c:326-335) do something only in the state running. What has not been started
is not completed. -/
def step (env : Env) (c : Ctx) : Op → R
  | .request req mem => request env c req mem
  | .setHost dup => some (setHost c dup, [])
  | .sockets pri sec => some ({ c with priUdp := pri, secUdp := sec }, [])
  | .packet ev => if c.state = .running then event env c ev else some (c, [])
  | .sendDone ev =>
    if c.sending = 0 then some (c, [])
    else
      let c := { c with sending := c.sending - 1 }
      if c.state = .running then event env c ev else some (c, [])
  | .timeout ev =>
    if !c.timer then some (c, [])
    else
      let c := { c with timer := false }
      if c.state = .running then event env c ev else some (c, [])
  | .dnsReads =>
    match c.lookup with
    | none => some (c, [])
    | some h => if h ∈ c.freed then none else some (c, [])
  | .dnsDone ec ev =>
    if c.lookup.isNone then some (c, [])
    else dnsCb env { c with lookup := none } ec ev
  | .stop => stop env c

/-- A history. -/
def run (env : Env) (c : Ctx) : List Op → R
  | [] => some (c, [])
  | op :: ops => do
    let (c1, o1) ← step env c op
    let (c2, o2) ← run env c1 ops
    return (c2, o1 ++ o2)

end Verif.Core.Stun
