/-!
# Looking up a host name (model)

Model of `src/core/nc_dns_multi_resolver.c`: one host name is looked up as IPv4 and as IPv6 address at
the same time, and the two answers are merged.

Simplifications: an address is an element of an arbitrary type; error codes other than "ok" and
"operation in progress" are numbers; the host name is not modelled (it is only passed on and logged);
`np_completion_event_resolve` is an output of the step. The platform's two lookups are inputs
(`v4Done`, `v6Done`): an answer is the error code together with the array the platform has written and
the number of addresses it has reported. A lookup answers at most once, an answer without a lookup is
ignored by the step (it cannot happen).
-/

namespace Verif.Core.Dns

/-- The error codes as far as this code tells them apart (`np_error_code.h`). -/
inductive Ec where
  | ok
  | inProgress
  | other (n : Nat)
deriving DecidableEq, Repr

/-- `NC_DNS_MULTI_RESOLVER_MAX_IPS` (nc_dns_multi_resolver.h:13). -/
def maxIps : Nat := 4

variable {Ip : Type}

/-- The answer of one lookup of the platform: the content of `v4Ips` / `v6Ips` and `v4IpsSize` /
`v6IpsSize` (nc_dns_multi_resolver.h:15-31). -/
structure Found (Ip : Type) where
  cells : List Ip
  size : Nat

/-- `struct nc_dns_multi_resolver_context` (nc_dns_multi_resolver.h:15-31). `p4` and `p6` say that the
platform still has the lookup outstanding. -/
structure Ctx (Ip : Type) where
  v4Ec : Ec
  v6Ec : Ec
  v4 : Found Ip
  v6 : Found Ip
  ipsSize : Nat
  req : Nat
  p4 : Bool
  p6 : Bool

/-- What `np_completion_event_resolve` tells a caller: the request, the error code and, if the code is
ok, the addresses written to the array of the caller. -/
structure Answer (Ip : Type) where
  req : Nat
  ec : Ec
  ips : List Ip
deriving DecidableEq, Repr

/-- Outcome of a step: the new state and the answers, or a read outside an array. -/
inductive Out (Ip : Type) where
  | done (c : Ctx Ip) (as : List (Answer Ip))
  | ub

/-- `nc_dns_multi_resolver_init` (nc_dns_multi_resolver.c:17-33). -/
def init : Ctx Ip :=
  { v4Ec := .ok, v6Ec := .ok, v4 := ⟨[], 0⟩, v6 := ⟨[], 0⟩, ipsSize := 0, req := 0, p4 := false, p6 := false }

/-- `nc_dns_multi_resolver_resolve` (nc_dns_multi_resolver.c:41-64). -/
def resolve (c : Ctx Ip) (req ipsSize : Nat) : Out Ip :=
  if c.v4Ec = .inProgress ∨ c.v6Ec = .inProgress then
    .done c [⟨req, .inProgress, []⟩]
  else
    .done { c with
      req := req
      ipsSize := ipsSize
      v4 := ⟨c.v4.cells, 0⟩
      v6 := ⟨c.v6.cells, 0⟩
      v4Ec := .inProgress
      v6Ec := .inProgress
      p4 := true
      p6 := true } []

/-- One of the two assignments of the merging loop (nc_dns_multi_resolver.c:91-96 and 97-102): `out` is
the part of the array of the caller which has been written, so `ipsResolved` is its length. -/
def place (f : Found Ip) (ipsSize i : Nat) (out : List Ip) : Option (List Ip) :=
  if out.length < ipsSize then
    if i < f.size then
      match f.cells[i]? with
      | some a => some (out ++ [a])
      | none => none
    else some out
  else some out

/-- The merging loop (nc_dns_multi_resolver.c:90-103), `n` rounds from round `i`. -/
def mergeFrom (v4 v6 : Found Ip) (ipsSize : Nat) : (n i : Nat) → List Ip → Option (List Ip)
  | 0, _, out => some out
  | n + 1, i, out => do
    let out ← place v4 ipsSize i out
    let out ← place v6 ipsSize i out
    mergeFrom v4 v6 ipsSize n (i + 1) out

/-- `dns_resolved_ec` (nc_dns_multi_resolver.c:80-106). -/
def resolvedEc (c : Ctx Ip) : Option (Ec × List Ip) :=
  if c.v4Ec ≠ .ok ∧ c.v6Ec ≠ .ok then some (c.v4Ec, [])
  else do
    let ips ← mergeFrom c.v4 c.v6 c.ipsSize (c.v4.size + c.v6.size) 0 []
    return (.ok, ips)

/-- `dns_resolved` (nc_dns_multi_resolver.c:108-121). -/
def resolved (c : Ctx Ip) : Out Ip :=
  if c.v4Ec = .inProgress ∨ c.v6Ec = .inProgress then .done c []
  else
    match resolvedEc c with
    | none => .ub
    | some (ec, ips) => .done c [⟨c.req, ec, ips⟩]

/-- What happens to the resolver. A lookup which fails may leave the array and the number of addresses
as they were (for example nm_libevent_dns.c:124-184): `f` is `none`. -/
inductive Op (Ip : Type) where
  | resolve (req ipsSize : Nat)
  | v4Done (ec : Ec) (f : Option (Found Ip))
  | v6Done (ec : Ec) (f : Option (Found Ip))

/-- One event; `dns_resolved_callback_v4` / `dns_resolved_callback_v6`
(nc_dns_multi_resolver.c:66-78) for the answers of the platform. -/
def step (c : Ctx Ip) : Op Ip → Out Ip
  | .resolve req ipsSize => resolve c req ipsSize
  | .v4Done ec f =>
    if c.p4 then resolved { c with v4Ec := ec, v4 := f.getD c.v4, p4 := false } else .done c []
  | .v6Done ec f =>
    if c.p6 then resolved { c with v6Ec := ec, v6 := f.getD c.v6, p6 := false } else .done c []

/-- A history. -/
def run (c : Ctx Ip) : List (Op Ip) → Out Ip
  | [] => .done c []
  | op :: ops =>
    match step c op with
    | .ub => .ub
    | .done c as =>
      match run c ops with
      | .ub => .ub
      | .done c as' => .done c (as ++ as')

/-- The answers given in a history, `none` after undefined behaviour. -/
def answers (ops : List (Op Ip)) : Option (List (Answer Ip)) :=
  match run init ops with
  | .ub => none
  | .done _ as => some as

end Verif.Core.Dns
