/-!
# Looking up a host name with the platform (model)

Model of the two implementations of `struct np_dns` in this repository:
`src/modules/dns/unix/nm_unix_dns.c` (a thread calling `getaddrinfo`, used by
`platform_integration_example/select_unix_platform.c`) and `src/modules/libevent/nm_libevent_dns.c`
(asynchronous lookups of libevent).

The first part is what one lookup writes to the memory of its caller. The second part is the life of
the thread of the unix resolver: requests are handed over in a list protected by a mutex, and the thread
sleeps on a condition variable.

Simplifications: an address is its family with its bytes; the linked list of `struct addrinfo` is a
list; the answer of `getaddrinfo` and of libevent is an input. The array of the caller is a list of cells
of which some may not have been written; a write past its end is recorded in `over` and is undefined
behaviour. In the second part a lookup is a number, and the addresses are left out.
-/

namespace Verif.Net.Lookup

/-- `struct np_ip_address` (np_ip_address.h): a family with its bytes. -/
inductive Ip where
  | v4 (b : List UInt8)
  | v6 (b : List UInt8)
deriving DecidableEq, Repr

/-- One `struct addrinfo`: `AF_INET`, `AF_INET6` or another family. -/
inductive Entry where
  | inet (b : List UInt8)
  | inet6 (b : List UInt8)
  | other
deriving DecidableEq, Repr

/-- The family asked for. -/
inductive Family where
  | v4
  | v6
deriving DecidableEq, Repr

/-- The error codes a lookup ends with (`np_error_code.h`). -/
inductive Ec where
  | ok
  | notFound
  | noData
  | stopped
  | outOfMemory
  | unknown
deriving DecidableEq, Repr

/-- The memory of the caller: the array `ips` with `ipsSize` cells and `*ipsResolved`. `over` says that a
cell past the end of the array has been written. -/
structure Mem where
  cells : List (Option Ip)
  count : Nat
  over : Bool
deriving DecidableEq, Repr

/-- An array of `size` cells, nothing written. -/
def Mem.fresh (size : Nat) : Mem := { cells := List.replicate size none, count := 0, over := false }

/-- `ips[i] = a`. -/
def Mem.put (m : Mem) (i : Nat) (a : Ip) : Mem :=
  if i < m.cells.length then { m with cells := m.cells.set i (some a) } else { m with over := true }

/-- The loop of `resolve_one_ec` (nm_unix_dns.c:77-93). The condition in line 79 looks at
`*event->ipsResolved`, which is `m.count` here; the local variable `resolved` is the index. -/
def unixLoop (size : Nat) : List Entry → (resolved : Nat) → Mem → Nat × Mem
  | [], resolved, m => (resolved, m)
  | e :: es, resolved, m =>
    if m.count < size then
      match e with
      | .inet b => unixLoop size es (resolved + 1) (m.put resolved (.v4 b))
      | .inet6 b => unixLoop size es (resolved + 1) (m.put resolved (.v6 b))
      | .other => unixLoop size es resolved m
    else unixLoop size es resolved m

/-- `resolve_one_ec` (nm_unix_dns.c:52-99). The answer of `getaddrinfo` is `none` for an error. -/
def unixResolve (size : Nat) (answer : Option (List Entry)) (m : Mem) : Ec × Mem :=
  let m := { m with count := 0 }
  match answer with
  | none => (.notFound, m)
  | some es =>
    let r := unixLoop size es 0 m
    (.ok, { r.2 with count := r.1 })

/-- The loop of `dns_cb_deferred` (nm_libevent_dns.c:289-303). -/
def levLoop (size : Nat) : List Entry → (resolved : Nat) → Mem → Nat × Mem
  | [], resolved, m => (resolved, m)
  | e :: es, resolved, m =>
    if resolved < size then
      match e with
      | .inet b => levLoop size es (resolved + 1) (m.put resolved (.v4 b))
      | .inet6 b => levLoop size es (resolved + 1) (m.put resolved (.v6 b))
      | .other => levLoop size es resolved m
    else (resolved, m)

/-- `dns_cb_deferred` (nm_libevent_dns.c:260-315): the answer of libevent is `none` for a result other
than 0. Not modelled: the name servers are read again after `EVUTIL_EAI_FAIL` (271-284). -/
def levDeferred (size : Nat) (answer : Option (List Entry)) (m : Mem) : Ec × Mem :=
  match answer with
  | none => (.unknown, { m with count := 0 })
  | some es =>
    let r := levLoop size es 0 m
    (if r.1 = 0 then .noData else .ok, { r.2 with count := r.1 })

/-- What `evutil_inet_pton` says about the host: an IPv4 address, an IPv6 address or neither. -/
inductive Host where
  | lit4 (b : List UInt8)
  | lit6 (b : List UInt8)
  | name
deriving DecidableEq, Repr

/-- What `async_resolve_v4` / `async_resolve_v6` come to (nm_libevent_dns.c:124-184 and 186-246): an
answer at once or a request handed to libevent. `ec` is the result of the allocation of the request and
its completion event (160-170, 222-232). -/
inductive Start where
  | answer (ec : Ec) (m : Mem)
  | asked
deriving DecidableEq, Repr

/-- `async_resolve_v4` (nm_libevent_dns.c:124-184) and `async_resolve_v6` (186-246). -/
def levAsk (f : Family) (size : Nat) (stopped : Bool) (h : Host) (alloc : Ec) (m : Mem) : Start :=
  if size = 0 then .answer .noData m
  else if stopped then .answer .stopped m
  else
    match f, h with
    | .v4, .lit6 _ => .answer .noData m
    | .v4, .lit4 b => .answer .ok { m.put 0 (.v4 b) with count := 1 }
    | .v6, .lit4 _ => .answer .noData m
    | .v6, .lit6 b => .answer .ok { m.put 0 (.v6 b) with count := 1 }
    | _, .name => if alloc = .ok then .asked else .answer alloc m

/-- A lookup with libevent from the call to its answer; `answer` is what libevent says. -/
def levResolve (f : Family) (size : Nat) (stopped : Bool) (h : Host) (alloc : Ec)
    (answer : Option (List Entry)) (m : Mem) : Ec × Mem :=
  match levAsk f size stopped h alloc m with
  | .answer ec m => (ec, m)
  | .asked => levDeferred size answer m

/-! ## The thread of the unix resolver -/

/-- Where the thread is in `resolve_thread` (nm_unix_dns.c:108-128). -/
inductive Thread where
  /-- before `pthread_mutex_lock` (112) -/
  | running
  /-- in `pthread_cond_wait` (118) -/
  | waiting
  /-- in `resolve_one` (125), with the mutex released -/
  | resolving (n : Nat)
  /-- returned (115) -/
  | exited
deriving DecidableEq, Repr

/-- `struct nm_unix_dns_resolver` (nm_unix_dns.h:14-20) with what surrounds it. Lookups are numbered in
the order of the calls.

* `inside`: calls of `async_resolve` which have passed the check of `stopped` (nm_unix_dns.c:191-194)
  and have not yet appended their request (207-209);
* `owed`: callers which have released the mutex and have not yet signalled the condition (210, 171);
* `released`: the memory of the callers (array, number and completion event) is gone;
* `gone`: `nm_unix_dns_resolver_deinit` (142-147) has returned;
* `ub`: memory of a caller has been used after it was released, or the mutex after it was destroyed. -/
structure St where
  stopped : Bool
  events : List Nat
  inside : List Nat
  owed : Nat
  thread : Thread
  asked : Nat
  told : List (Nat × Ec)
  released : Bool
  gone : Bool
  ub : Bool
deriving DecidableEq, Repr

/-- `nm_unix_dns_resolver_init` (nm_unix_dns.c:130-140) and `nm_unix_dns_resolver_run` (149-152). -/
def St.init : St :=
  { stopped := false, events := [], inside := [], owed := 0, thread := .running, asked := 0, told := [],
    released := false, gone := false, ub := false }

/-- What happens to the resolver. -/
inductive Op where
  /-- the first part of `async_resolve` (nm_unix_dns.c:191-199), which does not hold the mutex; `oom`:
  the allocation fails -/
  | ask (oom : Bool)
  /-- `async_resolve` appends request `n` (207-209) -/
  | append (n : Nat)
  /-- `pthread_cond_signal` (210, 171) -/
  | signal
  /-- `pthread_cond_wait` returns without a signal -/
  | wake
  /-- the thread takes the mutex and decides (112-124) -/
  | thread
  /-- the thread has the answer of `getaddrinfo` and resolves the completion event (101-106) -/
  | finish (ec : Ec)
  /-- `stop_resolver` up to the release of the mutex (154-170) -/
  | stop
  /-- `pthread_join` returns and `nm_unix_dns_resolver_deinit` destroys the mutex (172-174, 145) -/
  | join
  /-- the callers release their memory (`nc_device_deinit` in nabto_device.c:233) -/
  | release
deriving DecidableEq, Repr

/-- `np_completion_event_resolve`: undefined if the completion event is gone. -/
def St.tell (s : St) (n : Nat) (ec : Ec) : St :=
  { s with told := s.told ++ [(n, ec)], ub := s.ub || s.released }

/-- The loop of `stop_resolver` (nm_unix_dns.c:162-168). It reads the item through the iterator after the
element has been erased (164-165); the list is not part of this repository, the model assumes that the
iterator stays usable. -/
def St.tellAll (s : St) : List Nat → St
  | [] => s
  | n :: ns => (s.tell n .stopped).tellAll ns

/-- One event. An event which cannot happen in a state changes nothing. -/
def St.step (s : St) : Op → St
  | .ask oom =>
    if s.gone then { s with ub := true }
    else
      let n := s.asked
      let s := { s with asked := s.asked + 1 }
      if s.stopped then s.tell n .stopped
      else if oom then s.tell n .outOfMemory
      else { s with inside := s.inside ++ [n] }
  | .append n =>
    if n ∈ s.inside then
      if s.gone then { s with ub := true }
      else { s with inside := s.inside.erase n, events := s.events ++ [n], owed := s.owed + 1 }
    else s
  | .signal =>
    if 0 < s.owed then
      { s with
        owed := s.owed - 1
        thread := if s.thread = .waiting then .running else s.thread }
    else s
  | .wake => if s.thread = .waiting then { s with thread := .running } else s
  | .thread =>
    if s.thread = .running then
      if s.stopped then { s with thread := .exited }
      else
        match s.events with
        | [] => { s with thread := .waiting }
        | n :: ns => { s with events := ns, thread := .resolving n }
    else s
  | .finish ec =>
    match s.thread with
    | .resolving n => { s.tell n ec with thread := .running }
    | _ => s
  | .stop =>
    if s.stopped then s
    else { (s.tellAll s.events) with stopped := true, events := [], owed := s.owed + 1 }
  | .join => if s.stopped ∧ s.thread = .exited then { s with gone := true } else s
  | .release => { s with released := true }

/-- A history. -/
def run (s : St) (ops : List Op) : St := ops.foldl St.step s

end Verif.Net.Lookup
