import Verif.Stream.Api

/-!
# Streams in the API (specification, C45)
-/

namespace Verif.Stream.Api.Spec

open Verif.Stream Verif.Stream.Spec Verif.Stream.Api

variable {F : Type}

/-- The operation an application starts with a step. -/
def start : Op F → Option (Kind × F)
  | .accept f _ => some (.accept, f)
  | .readAll f _ _ _ => some (.read, f)
  | .readSome f _ _ _ => some (.read, f)
  | .write f _ _ _ => some (.write, f)
  | .close f _ _ => some (.close, f)
  | _ => none

/-- The futures given to a stream. -/
def started (ops : List (Op F)) : List F := ops.filterMap fun op => (start op).map (·.2)

/-- The futures given to a stream for one kind of operations. -/
def startedOf (k : Kind) (ops : List (Op F)) : List F :=
  ops.filterMap fun op => (start op).bind fun p => if p.1 = k then some p.2 else none

/-- The future an output resolves. -/
def resolves : Out F → Option F
  | .refused _ f => some f
  | .resolved _ f _ => some f
  | .core _ => none

/-- The futures which have been resolved, one entry for each time. -/
def resolved (os : List (Out F)) : List F := os.filterMap resolves

/-- The error codes with which callbacks have resolved futures of a kind. -/
def codes (k : Kind) (os : List (Out F)) : List Ec :=
  os.filterMap fun
    | .resolved k' _ ec => if k' = k then some ec else none
    | _ => none

/-- The error codes with which the core has completed operations of a kind. -/
def coreCodes (k : Kind) (os : List (Out F)) : List Ec :=
  os.filterMap fun
    | .core (.done k' ec _) => if k' = k then some ec else none
    | _ => none

/-- There was memory for the event object. -/
def Memory : Op F → Prop
  | .accept _ oom => oom = false
  | .readAll _ _ _ oom => oom = false
  | .readSome _ _ _ oom => oom = false
  | .write _ _ _ oom => oom = false
  | .close _ _ oom => oom = false
  | _ => True

/-- The application uses the stream: it must not when the stream has been freed. -/
def Uses : Op F → Prop
  | .abort _ => True
  | .free _ => True
  | op => (start op).isSome

/-- The step ends the stream. -/
def Ends : Op F → Prop
  | .abort _ => True
  | .free _ => True
  | .connClosed => True
  | _ => False

/-- What is asked of an application: it does not use a stream it has freed, it frees a stream only when all
its futures have been resolved (as the documentation of `nabto_device_stream_free` says), and it does not
close a stream while an earlier close is not resolved. There is memory. -/
structure Careful (ops : List (Op F)) : Prop where
  memory : ∀ op ∈ ops, Memory op
  freed : ∀ pre op post, ops = pre ++ op :: post → Uses op → ∀ b, .free b ∉ pre
  free : ∀ pre b post, ops = pre ++ .free b :: post →
    ∀ f ∈ started pre, f ∈ resolved (run St.init pre).2
  close : ∀ pre f st m post, ops = pre ++ .close f st m :: post →
    ∀ f' ∈ startedOf .close pre, f' ∈ resolved (run St.init pre).2

end Verif.Stream.Api.Spec
