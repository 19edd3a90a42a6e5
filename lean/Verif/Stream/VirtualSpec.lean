import Verif.Stream.Virtual

/-!
# Virtual streams (specification, C46)

Only operations and completions are used here, nothing of the state of the model.
-/

namespace Verif.Stream.Virtual.Spec

open Verif.Stream (Ec)
open Verif.Stream.Virtual

variable {E : Type}

/-- The end which starts an operation and the name of it. Aborting has no completion. -/
def who : Op E → Option (Side × E)
  | .accept e | .readAll e _ | .readSome e _ | .write e _ | .close e => some (.server, e)
  | .cReadAll e _ | .cReadSome e _ | .cWrite e _ | .cClose e => some (.client, e)
  | .stop | .cStop => none

/-- The operations an end starts; opening is an operation of the client which is started by making the
stream. -/
def started (e₀ : E) (ops : List (Op E)) : List (Side × E) := (.client, e₀) :: ops.filterMap who

/-- What is completed. -/
def completed (os : List (Out E)) : List (Side × E) := os.map fun | .done side e _ _ => (side, e)

/-- The operation was refused: it has no effect. -/
def isRefusal : Ec → Bool
  | .stopped | .closed | .inProgress => true
  | _ => false

/-- The operations which are refused. -/
def refused (os : List (Out E)) : List (Side × E) :=
  os.filterMap fun | .done side e ec _ => if isRefusal ec then some (side, e) else none

/-- A write: end, name, bytes. -/
def writeOf : Op E → Option (Side × E × List UInt8)
  | .write e d => some (.server, e, d)
  | .cWrite e d => some (.client, e, d)
  | _ => none

/-- A read: end, name, whether it is for all the bytes, size of the buffer. -/
def readOf : Op E → Option (Side × E × Bool × Nat)
  | .readAll e n => some (.server, e, true, n)
  | .readSome e n => some (.server, e, false, n)
  | .cReadAll e n => some (.client, e, true, n)
  | .cReadSome e n => some (.client, e, false, n)
  | _ => none

/-- A close: end and name. -/
def closeOf : Op E → Option (Side × E)
  | .close e => some (.server, e)
  | .cClose e => some (.client, e)
  | _ => none

/-- The bytes an end has written: of its writes which were not refused, in the order of the writes. -/
def accepted [DecidableEq E] (side : Side) (ops : List (Op E)) (os : List (Out E)) : List UInt8 :=
  (ops.filterMap fun op =>
    match writeOf op with
    | some (sd, e, d) => if sd = side ∧ (sd, e) ∉ refused os then some d else none
    | none => none).flatten

/-- The bytes an end has got from its reads. -/
def delivered (side : Side) (os : List (Out E)) : List UInt8 :=
  (os.filterMap fun | .done sd _ _ got => if sd = side then some got else none).flatten

/-- The other end. -/
def Side.other : Side → Side
  | .server => .client
  | .client => .server

/-- Every operation has a name of its own. -/
def Distinct (e₀ : E) (ops : List (Op E)) : Prop := (started e₀ ops).Nodup

/-- The operation is not completed. -/
def Waits (os : List (Out E)) (x : Side × E) : Prop := x ∉ completed os

/-- How an end aborts the stream. For the client it is the only way, for the device's application it is also
what freeing the stream and the end of the connection do. -/
def abortOf : Side → Op E
  | .server => .stop
  | .client => .cStop

/-- The client starts no close while an earlier one of it waits (the API refuses such a close,
nabto_device_virtual_connection.c:513-532). -/
def ClosesInTurn (e₀ : E) (ops : List (Op E)) : Prop :=
  ∀ pre e post, ops = pre ++ Op.cClose e :: post →
    ∀ e', Op.cClose e' ∈ pre → (Side.client, e') ∈ completed (run (St.init e₀) pre).2

end Verif.Stream.Virtual.Spec
