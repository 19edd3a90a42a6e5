import Verif.Core.Spake2

/-!
# Password authentication — specification

Statements about a history of events (from the start of the device) in terms of what peers sent, what the
application answered and which responses were sent.
-/

namespace Verif.Core.Spake2.Spec

open Verif.Core.Spake2

/-- The state after a history. -/
def after (evs : List Ev) : St := (run init evs).1

/-- A peer asked on connection `c` to be authenticated as `n`. -/
def Asked (evs : List Ev) (c : Nat) (n : String) : Prop :=
  ∃ f p w, Ev.step1 c f p w n ∈ evs

/-- The application stated, answering a request made on `c`, that `w` is the password of `n`. -/
def Stated (evs : List Ev) (c : Nat) (n w : String) : Prop :=
  ∃ pre id post, evs = pre ++ .answer id (some w) true true :: post ∧ ⟨id, c, n⟩ ∈ (after pre).pending

/-- The peer on `c` proved the password of `n`: it completed key confirmation with a password that the
application had stated to be that of `n`. -/
def Proved (evs : List Ev) (c : Nat) (n : String) : Prop :=
  ∃ pre l w post, evs = pre ++ .step2 c l w true :: post ∧
    (step (after pre) (.step2 c l w true)).2 = some 201 ∧ Stated pre c n w

/-- No allocation of a username failed. -/
def MemoryOk (evs : List Ev) : Prop := ∀ id w k, Ev.answer id w k false ∉ evs

/-- Milliseconds that pass during a history. -/
def elapsed : List Ev → Nat
  | [] => 0
  | .tick ms :: es => ms + elapsed es
  | _ :: es => elapsed es

/-- Number of wrong guesses the device evaluated. -/
def wrongGuesses (responses : List (Ev × Nat)) : Nat := (responses.filter (fun r => r.2 = 401)).length

end Verif.Core.Spake2.Spec
