import Verif.Iam.Coap

/-!
# IAM module as a state machine

All operations on the module interleaved in any order: API calls by the application, CoAP requests by
clients, connection close events, and the state-changed callbacks run by whichever thread is due.
Every operation holds the module's mutex for its whole body.
-/

namespace Verif.Iam

/-- One operation. -/
inductive Ev
  | api (d : Dev) (op : ApiOp)
  | coap (ref : Nat) (d : Dev) (r : Req)
  | closed (ref : Nat)
  | callbacks
  deriving Repr

/-- One step; `none` is undefined behaviour. After a CoAP request the thread will run the callbacks
(`nm_iam_coap_handler.c:84-88`). A state the application loads is one it has (`persisted`). -/
def step (E : Env) (iam : Iam) : Ev → Option Iam
  | .api d op =>
    match api iam d op with
    | .ub => none
    | .ok (iam', e) =>
      match op with
      | .loadState _ _ => if e = .ok then some { iam' with persisted := iam'.state } else some iam'
      | _ => some iam'
  | .coap ref d r =>
    match handle E iam d ref r with
    | .ub => none
    | .done iam' _ => some { iam' with due := iam'.due + 1 }
  | .closed ref => some (connectionClosed iam ref)
  | .callbacks => some (doCallbacks iam)

/-- A history. -/
def run (E : Env) (iam : Iam) : List Ev → Option Iam
  | [] => some iam
  | e :: es =>
    match step E iam e with
    | none => none
    | some iam' => run E iam' es

/-- The operation registers a client key for a user without checking that nobody else has it: the API
functions for fingerprints and local initial pairing. -/
def Ev.uncheckedKey : Ev → Bool
  | .api _ (.setUserFingerprint _ _) => true
  | .api _ (.addUserFingerprint _ _ _) => true
  | .coap _ _ (.pairLocalInitial _) => true
  | _ => false

/-- The operation is one of the CoAP requests that store a key taken from the path. -/
def Ev.pathKey : Ev → Bool
  | .coap _ _ (.addFingerprint _ _ _) => true
  | _ => false

/-- The operation is an open pairing request. -/
def Ev.openPairing : Ev → Bool
  | .coap _ _ (.pairLocalOpen _) => true
  | .coap _ _ (.pairPasswordOpen _) => true
  | _ => false

/-- The operation sets the password of the user named so. -/
def Ev.setsPassword (n : String) : Ev → Bool
  | .api _ (.setUserPassword u _) => u == n
  | .coap _ _ (.setPassword u _) => u == n
  | _ => false

end Verif.Iam
