import Verif.Net.Udp

/- What is said about UDP sockets. -/
namespace Verif.Net.Udp.Spec

open Verif.Net.Udp

/-- How often the wait with this number was told a result. -/
def told (k : Nat) (answers : List (Nat × Ec)) : Nat :=
  answers.countP (fun a => decide (a.1 = k))

def isBind : Op → Bool
  | .bindPort _ => true
  | .bindMdns _ _ => true
  | _ => false

/-- The application binds a socket at most once. -/
def BindOnce (ops : List Op) : Prop := ops.countP isBind ≤ 1

/-- The socket is bound as an ordinary socket only. -/
def NoMdns (ops : List Op) : Prop := ∀ f y, Op.bindMdns f y ∉ ops

end Verif.Net.Udp.Spec
