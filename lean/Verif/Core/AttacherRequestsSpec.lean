import Verif.Core.Attacher

/-! # The requests of an attacher: specification -/

namespace Verif.Core.Attacher.Requests.Spec
open Verif.Core.Attacher

/-- The requests a device sends to attach. -/
inductive Kind | start | upload | done
  deriving DecidableEq, Repr

/-- The request which is seen. -/
def seen : Obs → Option Kind
  | .startRequest _ => some .start
  | .upload _ _ => some .upload
  | .endRequest _ => some .done
  | _ => none

/-- The request which is answered, or given up. -/
def ends : Act → Option Kind
  | .startResponse _ _ => some .start
  | .sctResponse _ _ => some .upload
  | .endResponse _ _ => some .done
  | _ => none

/-- How many requests of a kind were sent. -/
def sent (k : Kind) (l : List Obs) : Nat := l.countP fun o => seen o == some k

/-- How many were answered or given up. -/
def ended (k : Kind) (as : List Act) : Nat := as.countP fun a => ends a == some k

end Verif.Core.Attacher.Requests.Spec
