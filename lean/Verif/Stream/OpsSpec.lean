import Verif.Stream.Ops

/-!
# Operations on a stream (specification, C45, C80)

Everything is computed from the history and from what happens outside the stream.
-/

namespace Verif.Stream.Spec

variable {E : Type}

/-- The four kinds of operations. -/
inductive Kind where
  | accept | read | write | close
deriving DecidableEq, Repr

/-- The operation an application starts with a step. -/
def start : Op E → Option (Kind × E)
  | .accept e => some (.accept, e)
  | .readAll e _ _ => some (.read, e)
  | .readSome e _ _ => some (.read, e)
  | .write e _ _ => some (.write, e)
  | .close e _ => some (.close, e)
  | _ => none

/-- The operations of a history. -/
def started (ops : List (Op E)) : List E := ops.filterMap fun op => (start op).map (·.2)

/-- The operation an output completes. -/
def completes : Out E → Option E
  | .done e _ _ => some e
  | _ => none

/-- The completed operations. -/
def completed (os : List (Out E)) : List E := os.filterMap completes

/-- The step ends the stream: it is aborted or freed by the application, or its connection ends. -/
def Ends : Op E → Prop
  | .stop _ => True
  | .connClosed => True
  | _ => False

/-- The event of the stream module which must complete the operations of a kind: the stream is open, data or
an error for a read, room for the whole rest of a write or an error, the end of the stream is
acknowledged, or the stream is closed and the module says so to everything it is asked. -/
def Settles : Op E → Kind → Prop
  | .opened, k => k = .accept
  | .dataReady r, k => k = .read ∧ r.status ≠ .ok
  | .readClosed r, k => k = .read ∧ r.status ≠ .ok
  | .dataWrite w, k => k = .write ∧ w.status ≠ .ok
  | .writeClosed, k => k = .close
  | .streamClosed w r st, k =>
    k = .accept ∨ k = .read ∧ r.status ≠ .ok ∨ k = .write ∧ w.status ≠ .ok ∨ k = .close ∧ st ≠ .ok
  | _, _ => False

/-- The bytes taken from the module for a read. -/
def takenFor [DecidableEq E] (e : E) : List (Out E) → List UInt8
  | [] => []
  | .take e' b :: os => if e' = e then b ++ takenFor e os else takenFor e os
  | _ :: os => takenFor e os

/-- All bytes taken from the module. -/
def taken : List (Out E) → List UInt8
  | [] => []
  | .take _ b :: os => b ++ taken os
  | _ :: os => taken os

/-- All bytes the completed reads have delivered, in the order of their completion. -/
def delivered : List (Out E) → List UInt8
  | [] => []
  | .done _ _ b :: os => b ++ delivered os
  | _ :: os => delivered os

/-- The bytes given to the module for a write. -/
def putFor [DecidableEq E] (e : E) : List (Out E) → List UInt8
  | [] => []
  | .put e' b :: os => if e' = e then b ++ putFor e os else putFor e os
  | _ :: os => putFor e os

end Verif.Stream.Spec
