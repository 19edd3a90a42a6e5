import Verif.Net.Probe

/- What is said about the TCP probe. -/
namespace Verif.Net.Probe.Spec

open Verif.Net.Probe

/-- How often a check was told a result. -/
def told (k : Nat) (s : St) : Nat := s.answers.countP (fun a => decide (a.1 = k))

def isCheck : Op → Bool
  | .check _ _ => true
  | _ => false

/-- The checks of a history. -/
def checks (ops : List Op) : List Op := ops.filter isCheck

/-- All checks of a history were told their result. -/
def AllTold (p : Platform) (ops : List Op) : Prop := ∀ k, k < (checks ops).length → told k (run p ops) = 1

/-- Neither the end of a connect nor a stop nor a free is in the history. -/
def Undecided (ops : List Op) : Prop := ∀ op ∈ ops, (∀ ok, op ≠ .connected ok) ∧ op ≠ .stop ∧ op ≠ .free

/-- A probe is freed once at most, it is freed only when all checks have been told their result, and
it is not used afterwards. -/
def Careful (p : Platform) (ops : List Op) : Prop :=
  ∀ before op after, ops = before ++ op :: after →
    (op = .free → AllTold p before) ∧ (Op.free ∈ before → isCheck op = false ∧ op ≠ .stop ∧ op ≠ .free)

end Verif.Net.Probe.Spec
