import Verif.Device.Ask

/-!
# Requests of the application to the basestation — specification
-/

namespace Verif.Device.Ask.Spec

/-- How an object came to be: its kind, the session which the attacher had then, whether it was attached on it, and whether
there was memory for a CoAP request. -/
structure Start where
  kind : Kind
  session : Option Nat
  attached : Bool
  mem : Bool
  deriving DecidableEq, Repr

/-- The history of an object. -/
def after (i : Start) (ops : List Op) : St := run (St.new i.kind i.session (i.attached && i.session ≠ none) i.mem) ops

/-- The futures which were given to sends are numbered. -/
def Given (i : Start) (ops : List Op) (f : Nat) : Prop := f < (after i ops).asked

def Resolved (i : Start) (ops : List Op) (f : Nat) (e : Ec) : Prop := (f, e) ∈ (after i ops).results

instance (i : Start) (ops : List Op) (f : Nat) (e : Ec) : Decidable (Resolved i ops f e) :=
  inferInstanceAs (Decidable ((f, e) ∈ (after i ops).results))

def times (i : Start) (ops : List Op) (f : Nat) : Nat := (after i ops).results.countP fun r => r.1 == f

/-- The CoAP library has a request of the object and has not answered. -/
def Pending (i : Start) (ops : List Op) : Prop := ∃ c, (after i ops).req = .sent c

/-- The project id or service id which was set last, unless setting it failed. -/
def nameOf (ops : List Op) : Option Bytes :=
  ops.foldl (fun v op => match op with
    | .setName w mem => if mem then some w else none
    | _ => v) none

/-- The payload or message which was set last, unless setting it failed. -/
def contentOf (ops : List Op) : Option Bytes :=
  ops.foldl (fun v op => match op with
    | .setContent w mem => if mem then some w else none
    | _ => v) none

/-- The session of the attacher, and whether it is attached on it. -/
def linkOf (i : Start) (ops : List Op) : Option Nat × Bool :=
  ops.foldl (fun v op => match op with
    | .session c => (c, false)
    | .attached => if v.1 ≠ none then (v.1, true) else v
    | .detached => (none, false)
    | _ => v) (i.session, i.attached && i.session ≠ none)

def sessionOf (i : Start) (ops : List Op) : Option Nat := (linkOf i ops).1

def attachedOf (i : Start) (ops : List Op) : Bool := (linkOf i ops).2

/-- The application sends when the ids and contents are set and there is memory for the request, stops only before the future
of the send is resolved, and frees the object only when all futures are resolved. -/
def CarefulOp (i : Start) (before : List Op) : Op → Prop
  | .send _ m => i.kind ≠ .ice → nameOf before ≠ none ∧ contentOf before ≠ none ∧ m.request = true
  | .stop => times i before 0 = 0
  | .free => ∀ f, Given i before f → ∃ e, Resolved i before f e
  | _ => True

def Careful (i : Start) (ops : List Op) : Prop :=
  (i.kind = .ice → i.mem = true) ∧ ∀ before op rest, ops = before ++ op :: rest → CarefulOp i before op

end Verif.Device.Ask.Spec
