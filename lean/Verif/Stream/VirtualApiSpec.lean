import Verif.Stream.VirtualApi

/-!
# Virtual streams in the API (specification, C143)
-/

namespace Verif.Stream.VirtualApi.Spec

open Verif.Stream (Ec)
open Verif.Stream.VirtualApi

variable {F : Type}

/-- The operation an application starts with a step. -/
def begins : Op F → Option (Kind × F)
  | .opn f _ _ => some (.opn, f)
  | .readAll f _ _ => some (.read, f)
  | .readSome f _ _ => some (.read, f)
  | .write f _ _ => some (.write, f)
  | .close f _ => some (.close, f)
  | _ => none

/-- The futures given to a handle. -/
def started (ops : List (Op F)) : List F := ops.filterMap fun op => (begins op).map (·.2)

/-- The future an output resolves. -/
def resolves : Out F → Option F
  | .refused _ f => some f
  | .failed f => some f
  | .resolved _ f _ => some f
  | .core _ => none

/-- The futures which have been resolved, one entry for each time. -/
def resolved (os : List (Out F)) : List F := os.filterMap resolves

/-- The error codes with which callbacks have resolved futures of a kind. -/
def codes (k : Kind) (os : List (Out F)) : List Ec :=
  os.filterMap fun
    | .resolved k' _ ec => if k' = k then some ec else none
    | _ => none

/-- The error codes with which the core has completed operations of a kind. -/
def coreCodes (k : Kind) (os : List (Out F)) : List Ec :=
  os.filterMap fun
    | .core (.done .client k' ec _) => if k' = k then some ec else none
    | _ => none

/-- There was memory. -/
def Memory : Op F → Prop
  | .opn _ oom mem => oom = false ∧ mem = true
  | .readAll _ _ oom => oom = false
  | .readSome _ _ oom => oom = false
  | .write _ _ oom => oom = false
  | .close _ oom => oom = false
  | _ => True

/-- The application opens the stream. -/
def Opens : Op F → Prop
  | .opn _ _ _ => True
  | _ => False

/-- The application uses the handle. -/
def Uses : Op F → Prop
  | .server _ _ => False
  | .deliver => False
  | _ => True

/-- The application starts a read. -/
def Reads : Op F → Prop
  | .readAll _ _ _ => True
  | .readSome _ _ _ => True
  | _ => False

/-- The futures given to a handle for one kind of operations. -/
def startedOf (k : Kind) (ops : List (Op F)) : List F :=
  ops.filterMap fun op => (begins op).bind fun p => if p.1 = k then some p.2 else none

/-- What is asked of an application. The documentation asks the last two. The other ones are what the code needs
besides: the handle is opened once and before everything else, there is memory, and no read of exactly `n` bytes
is started while a read is not resolved. -/
structure Careful (ops : List (Op F)) : Prop where
  memory : ∀ op ∈ ops, Memory op
  opened : ∀ pre op post, ops = pre ++ op :: post → Uses op → ¬ Opens op → ∃ o ∈ pre, Opens o
  once : ∀ pre op post, ops = pre ++ op :: post → Opens op → ∀ o ∈ pre, ¬ Opens o
  readAll : ∀ pre f n oom post, ops = pre ++ .readAll f n oom :: post →
    ∀ g ∈ startedOf .read pre, g ∈ resolved (run St.init pre).2
  freed : ∀ pre op post, ops = pre ++ op :: post → Uses op → .free ∉ pre
  free : ∀ pre post, ops = pre ++ .free :: post → ∀ f ∈ started pre, f ∈ resolved (run St.init pre).2

/-- No read is started after the stream was aborted. -/
def NoReadAfterAbort (ops : List (Op F)) : Prop :=
  ∀ pre op post, ops = pre ++ op :: post → Reads op → .abort ∉ pre

end Verif.Stream.VirtualApi.Spec
