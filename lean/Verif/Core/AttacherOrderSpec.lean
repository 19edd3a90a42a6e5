import Verif.Core.Attacher

/-! # The order of attaching: specification -/

namespace Verif.Core.Attacher.Order.Spec
open Verif.Core.Attacher

/-- The connections on which the server accepts an attach start request in this step. -/
def accepts (s : St) : Act → List (Option Nat)
  | .startResponse .attached _ => s.startReq.toList
  | _ => []

/-- The connections on which the server accepted an attach start request. -/
def accepted (s : St) : List Act → List (Option Nat)
  | [] => []
  | a :: as => accepts s a ++ ((step s a).map fun t => accepted t as).getD []

/-- How often the application was told that the device is attached. -/
def attached (l : List Obs) : Nat := l.count (.event .attached)

end Verif.Core.Attacher.Order.Spec
