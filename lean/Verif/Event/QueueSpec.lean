import Verif.Event.Queue

/-!
# What the event queue should do

In terms of the events posted and not yet taken or cancelled, in the order they were posted.
-/

namespace Verif.Event.Spec

/-- When an event is to run: as soon as possible, or from an instant on. -/
inductive When
  | soon
  | at (t : Nat)
  deriving DecidableEq, Repr

/-- A posted event. -/
structure Pending where
  event : Nat
  when : When
  deriving DecidableEq, Repr

/-- Which event is run next, if `p` are pending at the instant `now`: the one posted first among those to run as
soon as possible; if there are none, one whose time has come and is earliest (of several with the same time, the one
posted last); if there are none, none. -/
inductive Next (p : List Pending) (now : Nat) : Option Nat → Prop
  | soon {a b e} : p = a ++ ⟨e, .soon⟩ :: b → (∀ x ∈ a, x.when ≠ .soon) → Next p now (some e)
  | timed {a b e t} : p = a ++ ⟨e, .at t⟩ :: b → (∀ x ∈ p, x.when ≠ .soon) → t ≤ now →
      (∀ x ∈ a, ∀ t', x.when = .at t' → t ≤ t') → (∀ x ∈ b, ∀ t', x.when = .at t' → t < t') → Next p now (some e)
  | none : (∀ x ∈ p, ∃ t, x.when = .at t ∧ now < t) → Next p now none

/-- What a use of the queue may return. -/
def Allowed (p : List Pending) (now : Nat) : Op → Out → Prop
  | .post _, o => o = .unit
  | .postMaybeDouble e, o => ∃ b, o = .bool b ∧ (b = true ↔ ∀ x ∈ p, x.event ≠ e)
  | .cancel _, o => o = .unit
  | .postTimed _ _, o => o = .unit
  | .take, o => ∃ r, o = .took r ∧ Next p now r

/-- The posted events without one. -/
def without (e : Nat) (p : List Pending) : List Pending := p.filter (fun x => x.event != e)

/-- What is pending after a use of the queue. Posting a pending event does nothing, but a timed post replaces it. -/
def after (p : List Pending) (now : Nat) : Op → Out → List Pending
  | .post e, _ | .postMaybeDouble e, _ => if ∃ x ∈ p, x.event = e then p else p ++ [⟨e, .soon⟩]
  | .cancel e, _ => without e p
  | .postTimed e ms, _ => without e p ++ [⟨e, .at (now + ms)⟩]
  | .take, .took (some e) => without e p
  | .take, _ => p

/-- All uses of the queue return what they may. -/
inductive Conforms : List Pending → List (Nat × Op) → List Out → Prop
  | nil {p} : Conforms p [] []
  | cons {p now op o h os} : Allowed p now op o → Conforms (after p now op o) h os →
      Conforms p ((now, op) :: h) (o :: os)

/-- The clock does not go back, timers are shorter than `2^30` ms (12 days), and no pending event is overdue by that
much. -/
inductive Legal : List Pending → Nat → List (Nat × Op) → List Out → Prop
  | nil {p last} : Legal p last [] []
  | cons {p last now op o h os} : last ≤ now → (∀ e ms, op = .postTimed e ms → ms < 2 ^ 30) →
      (∀ x ∈ p, ∀ t, x.when = .at t → now < t + 2 ^ 30) → Legal (after p now op o) now h os →
      Legal p last ((now, op) :: h) (o :: os)

end Verif.Event.Spec
