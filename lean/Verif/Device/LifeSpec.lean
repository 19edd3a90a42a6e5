import Verif.Device.Life

/-!
# Starting, closing and stopping a device — specification
-/

namespace Verif.Device.Life.Spec

/-- The calls which come with a future. -/
def takesFuture : Op → Bool
  | .start .. | .close => true
  | _ => false

def isStart : Op → Bool
  | .start .. => true
  | _ => false

/-- The calls with a future, in the order they were made: future number `i` came with call number `i`. -/
def calls (ops : List Op) : List Op := ops.filter takesFuture

/-- Future number `i` was resolved with this code. -/
def Resolved (ops : List Op) (i : Nat) (e : Ec) : Prop := (i, e) ∈ (run ops).out

instance (ops : List Op) (i : Nat) (e : Ec) : Decidable (Resolved ops i e) :=
  inferInstanceAs (Decidable ((i, e) ∈ (run ops).out))

/-- How often future number `i` was resolved. -/
def resolutions (ops : List Op) (i : Nat) : Nat := (run ops).out.countP fun o => o.1 == i

/-- The application does not start the device while it is starting. -/
def Allowed (before : List Op) : Op → Prop
  | .start .. => ∀ i op, (calls before)[i]? = some op → isStart op = true → ∃ e, Resolved before i e
  | _ => True

def Polite (ops : List Op) : Prop := ∀ before op after, ops = before ++ op :: after → Allowed before op

/-- The first error of a list of results. -/
def firstError : List Ec → Ec
  | [] => .ok
  | e :: es => if e = .ok then firstError es else e

/-- Neither an event of the start nor a call which changes it. -/
def Aside : Op → Prop
  | .start .. | .close | .stop | .runBind .. => False
  | _ => True

/-- A key pair was set, by the last call which sets keys. -/
def keysSet (ops : List Op) : Bool :=
  ops.foldl (fun k op => match op with | .setKeys b => b | _ => k) false

def isRunBind : Op → Bool
  | .runBind .. => true
  | _ => false

end Verif.Device.Life.Spec
