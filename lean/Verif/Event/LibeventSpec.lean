import Verif.Event.Libevent

/-! # The event queue on libevent: specification, on what can be seen of the queue -/

namespace Verif.Event.Libevent.Spec

/-- The times from which on the callback was asked to run, since the last cancellation. -/
def due : List Out → List Nat
  | [] => []
  | .post now :: l => now :: due l
  | .timed now ms :: l => (now + ms) :: due l
  | .cancelled :: _ => []
  | .refused :: l => due l
  | .ran :: l => due l

/-- How often the callback was asked to run. -/
def requests : List Out → Nat
  | [] => 0
  | .post _ :: l => requests l + 1
  | .timed _ _ :: l => requests l + 1
  | .cancelled :: l => requests l
  | .refused :: l => requests l
  | .ran :: l => requests l

/-- How often the callback ran. -/
def runs (l : List Out) : Nat := l.countP (· == .ran)

/-- The event was posted, and since then it neither ran nor was it cancelled. -/
def owed : List Out → Bool
  | [] => false
  | .post _ :: _ => true
  | .timed _ _ :: l => owed l
  | .refused :: l => owed l
  | .cancelled :: _ => false
  | .ran :: _ => false

/-- The caller of `post_maybe_double` was told that the event is posted already or posted it, and since then it neither ran nor was it
cancelled. -/
def owedMaybe : List Out → Bool
  | [] => false
  | .post _ :: _ => true
  | .refused :: _ => true
  | .timed _ _ :: l => owedMaybe l
  | .cancelled :: _ => false
  | .ran :: _ => false

/-- The event was posted, and since then it neither ran nor was it cancelled or delayed. -/
def owedNow : List Out → Bool
  | [] => false
  | .post _ :: _ => true
  | .refused :: l => owedNow l
  | .timed _ _ :: _ => false
  | .cancelled :: _ => false
  | .ran :: _ => false

/-- Steps which are not calls of the queue. -/
def env : Act → Bool
  | .unlock | .tick _ | .expire | .take | .enter | .leave => true
  | _ => false

/-- The callback is going to run if the threads go on: without another call it starts. -/
def WillRun (s : St) : Prop := ∃ as t, (∀ a ∈ as, env a = true) ∧ run s as = some t ∧ runs t.log = runs s.log + 1

/-- The clock. -/
def clock : Act → Bool
  | .tick _ => true
  | _ => false

/-- As `WillRun`, and no time has to pass. -/
def WillRunNow (s : St) : Prop :=
  ∃ as t, (∀ a ∈ as, env a = true ∧ clock a = false) ∧ run s as = some t ∧ runs t.log = runs s.log + 1

end Verif.Event.Libevent.Spec
