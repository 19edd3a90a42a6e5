/-
The TCP probe of the API: src/api/nabto_device_tcp_probe.c, with the connect of a TCP socket of
either platform (src/modules/libevent/nm_libevent_tcp.c, src/modules/select_unix/nm_select_unix_tcp.c)
and the completion event (src/platform/np_completion_event.c) in the event queue
(src/modules/event_queue/thread_event_queue.c).

Checks are numbered in the order of the calls; each is given its own future.  The documentation
(include/nabto/nabto_device_experimental.h:94-131) leaves the use of a probe for a second check
undefined; what the code does then is modelled all the same, up to what a second connect of the
same descriptor does to the descriptor, see `Tcp`.
-/
namespace Verif.Net.Probe

inductive Platform
  | select | libevent
  deriving DecidableEq, Repr

/-- What a future is resolved with. -/
inductive Ec
  | ok | inProgress | invalidArgument | aborted | failed
  deriving DecidableEq, Repr

/-- The completion event: not posted, in the queue, or taken by the event thread, which waits for
the core's lock (thread_event_queue.c:194-217). -/
inductive Event
  | idle | queued (ec : Ec) | taken (ec : Ec)
  deriving DecidableEq, Repr

structure St where
  /-- `ctx->future` -/
  future : Option Nat := none
  /-- `connect.completionEvent` of the socket is set -/
  connecting : Bool := false
  aborted : Bool := false
  event : Event := .idle
  freed : Bool := false
  /-- freed memory was used -/
  ub : Bool := false
  asked : Nat := 0
  /-- futures resolved, with the result, oldest first -/
  answers : List (Nat × Ec) := []
  deriving DecidableEq, Repr

/-- What the start of a connect comes to. -/
inductive Start
  | started | now (ok : Bool)
  deriving DecidableEq, Repr

/-- What happens. -/
inductive Op
  /-- `nabto_device_tcp_probe_check_reachability`; is the host an IPv4 address, and what does the
  start of the connect come to -/
  | check (v4 : Bool) (start : Start)
  /-- `nabto_device_tcp_probe_stop` -/
  | stop
  /-- the connect ends -/
  | connected (ok : Bool)
  /-- the event thread takes the event off the queue -/
  | take
  /-- the event thread runs the callback -/
  | run
  /-- `nabto_device_tcp_probe_free` -/
  | free
  deriving DecidableEq, Repr

/-- `np_completion_event_resolve` (np_completion_event.c:45-49).  An event which is queued already
keeps its place; the result is in the completion event, so the newer one counts.  Simplified: an
event which is taken and posted again would also be in the queue; it is never posted then
(`Inv.some`). -/
def St.post (s : St) (ec : Ec) : St :=
  match s.event with
  | .taken _ => { s with event := .taken ec }
  | _ => { s with event := .queued ec }

/-- `np_tcp_abort` (nm_libevent_tcp.c:314-324, nm_select_unix_tcp.c:435-456); the probe does not
read or write. -/
def St.abort (s : St) : St :=
  if s.aborted then s
  else
    let s : St := { s with aborted := true }
    if s.connecting then { s.post .aborted with connecting := false } else s

/-- `np_tcp_async_connect` (nm_libevent_tcp.c:220-264, nm_select_unix_tcp.c:137-276): only select
looks at `aborted`. -/
def St.connect (p : Platform) (s : St) (start : Start) : St :=
  if p = .select ∧ s.aborted = true then s.post .aborted
  else
    match start with
    | .started => { s with connecting := true }
    | .now ok => s.post (if ok then .ok else .failed)

/-- `nabto_device_tcp_probe_check_reachability` (nabto_device_tcp_probe.c:83-108). -/
def St.check (p : Platform) (s : St) (v4 : Bool) (start : Start) : St :=
  let k := s.asked
  let s : St := { s with asked := k + 1 }
  if s.future.isSome then { s with answers := s.answers ++ [(k, .inProgress)] }
  else if !v4 then { s with answers := s.answers ++ [(k, .invalidArgument)] }
  else { s with future := some k }.connect p start

/-- `connect_callback` (nabto_device_tcp_probe.c:118-124), from `resolve_event_callback`
(np_completion_event.c:52-56). -/
def St.callback (s : St) (ec : Ec) : St :=
  match s.future with
  | some k => { s with future := none, event := .idle, answers := s.answers ++ [(k, ec)] }
  | none => { s with ub := true }

/-- `probe_free` (nabto_device_tcp_probe.c:110-116): the completion event is destroyed, which takes
it off the queue; then `np_tcp_destroy` aborts the socket, which resolves a connect that is pending
with the destroyed event. -/
def St.free (s : St) : St :=
  let s : St := { s with freed := true, event := match s.event with | .queued _ => .idle | e => e }
  if s.connecting ∧ s.aborted = false then { s with ub := true, connecting := false, aborted := true }
  else { s with connecting := false, aborted := true }

def St.step (p : Platform) (s : St) (op : Op) : St :=
  if s.ub then s
  else
    match op with
    | .check v4 start => if s.freed then { s with ub := true } else s.check p v4 start
    | .stop => if s.freed then { s with ub := true } else s.abort
    | .connected ok =>
      if s.connecting then { s.post (if ok then .ok else .failed) with connecting := false } else s
    | .take => match s.event with | .queued ec => { s with event := .taken ec } | _ => s
    | .run =>
      match s.event with
      | .taken ec => if s.freed then { s with ub := true } else s.callback ec
      | _ => s
    | .free => if s.freed then { s with ub := true } else s.free

/-- `nabto_device_tcp_probe_new` (nabto_device_tcp_probe.c:23-48), and what happens then. -/
def run (p : Platform) (ops : List Op) : St := ops.foldl (St.step p) {}

end Verif.Net.Probe
