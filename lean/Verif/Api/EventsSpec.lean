import Verif.Api.Events

/-!
# Listeners for events — specification (C138)

What a single listener is to the application: a queue of its own, which does not depend on other listeners. The
specification knows neither contexts nor the lists of the core.
-/

namespace Verif.Api.Events.Spec

/-- A listener: what it was initialised for, whether it is at an end (`ec` other than `ok`), the events which were not
fetched, and the future which waits with the variables given with it. -/
structure L where
  kind : Option Kind := none
  ec : Ec := .ok
  backlog : List Val := []
  waiting : Option (Nat × Option Nat × Option Nat) := none
  deriving DecidableEq, Repr

def L.isOpen (a : L) : Bool := a.kind.isSome && a.ec = .ok

/-- An event reaches a waiting future: the variables get the numbers of the event. Without variables the future
says so. -/
def hand (l : Nat) (v : Val) : Nat × Option Nat × Option Nat → List Out
  | (f, ref, ev) =>
    match v, ref, ev with
    | .conn r e, some p, some q => [.hand l [(p, r), (q, e)], .resolve l f .ok]
    | .dev e, _, some q => [.hand l [(q, e)], .resolve l f .ok]
    | _, _, _ => [.resolve l f .unknown]

/-- The listener ends: events which were not fetched are dropped, the waiting future is told why. -/
def close (l : Nat) (a : L) (ec : Ec) : L × List Out :=
  ({ a with ec := ec, backlog := [], waiting := none },
    match a.waiting with | some (f, _) => [.resolve l f ec] | none => [])

/-- Something happened. -/
def offer (l : Nat) (a : L) (v : Val) (mem : Bool) : L × List Out :=
  if a.kind = some v.kind ∧ a.ec = .ok then
    if mem then
      match a.waiting with
      | some q => ({ a with waiting := none }, hand l v q)
      | none => ({ a with backlog := a.backlog ++ [v] }, [])
    else close l a .outOfMemory
  else (a, [])

/-- Events of the device have no reference of a connection. -/
def refFor (k : Kind) (ref : Option Nat) : Option Nat :=
  match k with
  | .conn => ref
  | .dev => none

/-- The application asks for an event. -/
def listen (l : Nat) (a : L) (k : Kind) (f : Nat) (ref ev : Option Nat) : L × List Out :=
  if a.kind ≠ some k then (a, [.resolve l f .invalidArgument])
  else if a.ec ≠ .ok then (a, [.resolve l f a.ec])
  else if a.waiting.isSome then (a, [.resolve l f .operationInProgress])
  else
    let q := (f, refFor k ref, ev)
    match a.backlog with
    | v :: vs => ({ a with backlog := vs }, hand l v q)
    | [] => ({ a with waiting := some q }, [])

/-- The application, or the device when it is stopped, stops the listener. -/
def stop (l : Nat) (a : L) : L × List Out := if a.isOpen then close l a .stopped else (a, [])

/-- The number of listeners made, and listener `l` while it is there. -/
structure S where
  n : Nat := 0
  me : Option L := none

def on (s : S) (f : L → L × List Out) : S × List Out :=
  match s.me with
  | some a => ({ s with me := some (f a).1 }, (f a).2)
  | none => (s, [])

/-- What a call means for listener `l`. -/
def step (l : Nat) (s : S) : Call → S × List Out
  | .new mem =>
    if mem then
      if s.n = l then ({ n := s.n + 1, me := some {} }, [.made (some l)]) else ({ s with n := s.n + 1 }, [])
    else (s, [])
  | .init k j mem =>
    if j = l then
      if mem then on s fun a => ({ a with kind := some k }, [.ret l .ok]) else (s, [.ret l .outOfMemory])
    else (s, [])
  | .listen k j f ref ev => if j = l then on s fun a => listen l a k f ref ev else (s, [])
  | .stop j =>
    if j = l then on s fun a => ((stop l a).1, (stop l a).2 ++ [.ret l (if a.kind = none then .invalidState else .ok)])
    else (s, [])
  | .free j => if j = l then ({ s with me := none }, []) else (s, [])
  | .stopAll => on s fun a => stop l a
  | .notify v mem => on s fun a => offer l a v (mem l)

def run (l : Nat) (s : S) : List Call → S × List Out
  | [] => (s, [])
  | c :: cs => ((run l (step l s c).1 cs).1, (step l s c).2 ++ (run l (step l s c).1 cs).2)

/-- What is asked of the application with regard to listener `l`: it is used while it is there, initialised once,
freed when it was never initialised or is at an end; a variable for the reference of a connection comes with one for
the event. -/
def fine (l : Nat) (s : S) : Call → Prop
  | .init _ j _ => j = l → ∃ a, s.me = some a ∧ a.kind = none
  | .listen k j _ ref ev => j = l → s.me ≠ none ∧ (k = .conn → ref.isSome → ev.isSome)
  | .stop j => j = l → s.me ≠ none
  | .free j => j = l → ∃ a, s.me = some a ∧ a.isOpen = false
  | _ => True

def Fine (l : Nat) (s : S) : List Call → Prop
  | [] => True
  | c :: cs => fine l s c ∧ Fine l (step l s c).1 cs

/-- The application keeps to the rules. -/
def Contract (cs : List Call) : Prop := ∀ l, Fine l {} cs

/-- The listener an observation belongs to. -/
def of (l : Nat) : Out → Bool
  | .made i => i = some l
  | .ret i _ => i = l
  | .hand i _ => i = l
  | .resolve i _ _ => i = l

/-! ### What happened and what was seen -/

/-- The numbers of an event. -/
def nums : Val → List Nat
  | .conn r e => [r, e]
  | .dev e => [e]

/-- What happened while listener `l` was open, of its kind. -/
def offered (l : Nat) (s : S) : List Call → List Val
  | [] => []
  | .notify v mem :: cs =>
    (match s.me with
      | some a => if a.kind = some v.kind ∧ a.ec = .ok ∧ mem l then [v] else []
      | none => []) ++ offered l (step l s (.notify v mem)).1 cs
  | c :: cs => offered l (step l s c).1 cs

/-- The numbers handed to the application, in order. -/
def handed (outs : List Out) : List (List Nat) :=
  outs.filterMap fun | .hand _ ws => some (ws.map (·.2)) | _ => none

/-- The futures resolved, in order. -/
def resolved (outs : List Out) : List Nat :=
  outs.filterMap fun | .resolve _ f _ => some f | _ => none

/-- The futures given to listener `l`, in order. -/
def asked (l : Nat) (cs : List Call) : List Nat :=
  cs.filterMap fun | .listen _ j f _ _ => if j = l then some f else none | _ => none

/-- Every request for an event comes with variables for it. -/
def Given (l : Nat) (cs : List Call) : Prop :=
  ∀ k f ref ev, Call.listen k l f ref ev ∈ cs → ev.isSome ∧ (k = .conn → ref.isSome)

/-- The calls without those of the application for listener `m`. -/
def without (m : Nat) (cs : List Call) : List Call :=
  cs.filter fun
    | .init _ j _ | .listen _ j _ _ _ | .stop j | .free j => j ≠ m
    | _ => true

/-- What is in the queue of a listener. -/
def queue (s : S) : List Val :=
  match s.me with
  | some a => a.backlog
  | none => []

/-- The future which waits. -/
def waits (s : S) : List Nat :=
  match s.me with
  | some a => a.waiting.toList.map (·.1)
  | none => []

/-- Listener `l` is there, initialised and not at an end. -/
def open' (l : Nat) (cs : List Call) : Prop := ∃ a, (run l {} cs).1.me = some a ∧ a.isOpen

end Verif.Api.Events.Spec
