import Verif.Core.Stun

/-!
# STUN analysis and the endpoints resource (specification, C50, C78, C79)

Everything is computed from the history and from what the outside sees.
-/

namespace Verif.Core.Stun.Spec

/-- The CoAP requests of a history. -/
def requests : List Op → List Nat
  | [] => []
  | .request r _ :: ops => r :: requests ops
  | _ :: ops => requests ops

/-- The requests which have been answered. -/
def answered : List Out → List Nat
  | [] => []
  | .response r _ :: os => r :: answered os
  | _ :: os => answered os

/-- The answer of the STUN library an event brings along. -/
def libEvent : Op → Option LibEvent
  | .packet ev => some ev
  | .sendDone ev => some ev
  | .timeout ev => some ev
  | .dnsDone _ ev => some ev
  | _ => none

/-- The library says what to do next. -/
def Decisive (op : Op) : Prop := libEvent op ≠ some .noEvent ∧ libEvent op ≠ some .invalid

/-- What the response to a request may be when `op` happens: without memory an error; otherwise the local
endpoints, at most two; and the external one if the analysis has just been completed with it. -/
def Content (env : Env) (op : Op) (r : Nat) (eps : Option (List Nat)) : Prop :=
  eps = none ∨ env.mem r = true ∧
    (eps = some ((env.locals r).take 2) ∨
     ∃ g, libEvent op = some (.completed g) ∧ eps = some ((env.locals r).take 2 ++ [g]))

/-- The number of packets sent. -/
def sent : List Out → Nat
  | [] => 0
  | .send .. :: os => sent os + 1
  | _ :: os => sent os

/-- The number of sends the platform has completed. -/
def completedSends : List Op → Nat
  | [] => 0
  | .sendDone _ :: ops => completedSends ops + 1
  | _ :: ops => completedSends ops

end Verif.Core.Stun.Spec
