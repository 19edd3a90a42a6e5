import Verif.Iam.Lifecycle

/-!
# Starting and ending the IAM module: what is expected
-/

namespace Verif.Iam.Lifecycle.Spec

/-- A service which takes requests. -/
structure Listens (s : Sub) : Prop where
  listener : s.lLive = true
  future : s.fLive = true
  inited : s.inited = true
  notStopped : s.stopped = false
  armed : s.fut = .armed

/-- A service which takes no requests any more, or never did. -/
def Ended (s : Sub) : Prop := s.inited = true → s.stopped = true ∧ s.fut ≠ .armed

/-- Nothing of the module itself is there any more. -/
structure Gone (w : W) : Prop where
  mutex : w.mutex.live = false
  state : w.state.live = false
  conf : w.conf.live = false
  futures : ∀ x, (w.subs x).fLive = false

/-- The memory answers of a start in which the future of the `n`th CoAP handler is refused. -/
def noFuture (n : Nat) : List Bool := List.replicate (12 + 3 * n) true ++ [false]

end Verif.Iam.Lifecycle.Spec
