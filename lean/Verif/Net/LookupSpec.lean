import Verif.Net.Lookup

/-!
# Looking up a host name with the platform (specification)
-/

namespace Verif.Net.Lookup.Spec

/-- The addresses in an answer, in order. -/
def addresses (es : List Entry) : List Ip :=
  es.filterMap fun e =>
    match e with
    | .inet b => some (.v4 b)
    | .inet6 b => some (.v6 b)
    | .other => none

/-- A lookup has delivered the addresses `as` to an array of `size` cells: as many as fit, in order, the
number says how many, the rest of the array is untouched and nothing past its end is written. -/
structure Delivered (size : Nat) (as : List Ip) (m : Mem) : Prop where
  inside : m.over = false
  count : m.count = min size as.length
  cells : m.cells = (as.take size).map some ++ List.replicate (size - as.length) none

/-- The addresses of family `f` of a host, if the name service answers `answer`: an address in text form
stands for itself and has none of the other family. -/
def expected (f : Family) (h : Host) (answer : Option (List Entry)) : List Ip :=
  match h with
  | .lit4 b => if f = .v4 then [.v4 b] else []
  | .lit6 b => if f = .v6 then [.v6 b] else []
  | .name => addresses (answer.getD [])

/-- How often lookup `n` has been answered. -/
def answers (told : List (Nat × Ec)) (n : Nat) : Nat := (told.filter (·.1 = n)).length

/-- No call is between its check of `stopped` and its append when the resolver is stopped. -/
def NoRace (ops : List Op) : Prop :=
  ∀ before after, ops = before ++ Op.stop :: after → (run St.init before).inside = []

/-- The callers keep their memory until all their lookups have been answered, and start no lookup
afterwards. -/
def Kept (ops : List Op) : Prop :=
  (∀ before after, ops = before ++ Op.release :: after →
    ∀ n, n < (run St.init before).asked → answers (run St.init before).told n = 1) ∧
  (∀ before oom after, ops = before ++ Op.ask oom :: after → (run St.init before).released = false)

/-- Nobody uses the resolver when it is gone: no call is begun after it, and none is under way when the
join returns. -/
def NotAfter (ops : List Op) : Prop :=
  (∀ before after, ops = before ++ Op.join :: after → (run St.init before).inside = []) ∧
  (∀ before oom after, ops = before ++ Op.ask oom :: after → (run St.init before).gone = false)

end Verif.Net.Lookup.Spec
