import Verif.Core.Dns

/-!
# Looking up a host name (specification, C51)

What a caller of the resolver relies on, as a machine with at most one outstanding request. It does
not use the functions of the model.
-/

namespace Verif.Core.Dns.Spec

variable {Ip : Type}

/-- Take from the two lists in turn, starting with the first, until both are used up. -/
def alternate : List Ip → List Ip → List Ip
  | [], ys => ys
  | x :: xs, ys => x :: alternate ys xs
termination_by xs ys => xs.length + ys.length

/-- The addresses a lookup has reported. -/
def found (f : Found Ip) : List Ip := f.cells.take f.size

/-- The addresses of a lookup; a lookup which has written nothing has found none. -/
def reported : Option (Found Ip) → List Ip
  | none => []
  | some f => found f

/-- The answer to a request: an error only if both lookups failed, otherwise as many of the addresses
as the caller has room for. -/
def answer (req room : Nat) (e4 : Ec) (l4 : List Ip) (e6 : Ec) (l6 : List Ip) : Answer Ip :=
  if e4 = .ok ∨ e6 = .ok then ⟨req, .ok, (alternate l4 l6).take room⟩ else ⟨req, e4, []⟩

/-- The outstanding request: its number, the room in the array of the caller and the answers the
platform has given so far. -/
structure Busy (Ip : Type) where
  req : Nat
  room : Nat
  r4 : Option (Ec × List Ip)
  r6 : Option (Ec × List Ip)

/-- When both answers are there, the caller gets his. -/
def finish (b : Busy Ip) : Option (Busy Ip) × List (Answer Ip) :=
  match b.r4, b.r6 with
  | some (e4, l4), some (e6, l6) => (none, [answer b.req b.room e4 l4 e6 l6])
  | _, _ => (some b, [])

/-- One event. -/
def step : Option (Busy Ip) → Op Ip → Option (Busy Ip) × List (Answer Ip)
  | none, .resolve req room => (some ⟨req, room, none, none⟩, [])
  | some b, .resolve req _ => (some b, [⟨req, .inProgress, []⟩])
  | some b, .v4Done ec f =>
    if b.r4.isNone then finish { b with r4 := some (ec, reported f) } else (some b, [])
  | some b, .v6Done ec f =>
    if b.r6.isNone then finish { b with r6 := some (ec, reported f) } else (some b, [])
  | none, _ => (none, [])

/-- A history. -/
def run (s : Option (Busy Ip)) : List (Op Ip) → List (Answer Ip)
  | [] => []
  | op :: ops => (step s op).2 ++ run (step s op).1 ops

/-- The requests of a history. -/
def requests : List (Op Ip) → List Nat
  | [] => []
  | .resolve r _ :: ops => r :: requests ops
  | _ :: ops => requests ops

/-- The contract of `np_dns`: the number of addresses reported is not larger than the array, and a
lookup does not end with "in progress". -/
def Honest : Op Ip → Prop
  | .resolve .. => True
  | .v4Done ec f => ec ≠ .inProgress ∧ ∀ g, f = some g → g.size ≤ g.cells.length
  | .v6Done ec f => ec ≠ .inProgress ∧ ∀ g, f = some g → g.size ≤ g.cells.length

end Verif.Core.Dns.Spec
