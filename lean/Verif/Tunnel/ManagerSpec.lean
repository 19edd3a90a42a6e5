import Verif.Tunnel.Manager

/-!
# Services of TCP tunnels — specification
-/

namespace Verif.Tunnel.Manager.Spec

/-- What an operation tells after a history. -/
def told (ops : List Op) (op : Op) : List Out := (run (ops ++ [op])).out.drop (run ops).out.length

/-- The service exists after a history. -/
def Has (ops : List Op) (x : Svc) : Prop := x ∈ (run ops).services

/-- The number of connections of the services of a type. -/
def count (s : St) (t : String) : Nat := ((s.services.filter fun x => x.type = t).map fun x => x.conns.length).sum

/-- Two descriptions of the same service: what does not change while it exists. -/
def Same (x y : Svc) : Prop :=
  x.serial = y.serial ∧ x.id = y.id ∧ x.type = y.type ∧ x.target = y.target ∧ x.streamPort = y.streamPort

/-- The check `r` was made when a stream with the number `n` arrived at the service `x`, for the id and the type of the
service. -/
def AskedFor (ops : List Op) (r n : Nat) (x : Svc) : Prop :=
  ∃ before after port y, ops = before ++ Op.incoming port true :: after ∧ Has before y ∧ Same x y ∧
    y.streamPort = port ∧ n = (run before).streams ∧
    told before (.incoming port true) = [.check r .connect (some (x.id, x.type))]

/-- What happened to a stream in the end. -/
def fates (s : St) (n : Nat) : Nat :=
  s.out.countP fun o => match o with
    | .opened _ m _ => m == n
    | .destroyed m => m == n
    | _ => false

/-- How many checks wait for a stream. -/
def waiting (s : St) (n : Nat) : Nat :=
  s.pending.countP fun p => match p.2.what with
    | .tunnel _ m => m == n
    | _ => false

/-- The connection has ended by itself after it was opened. -/
def Ended (ops : List Op) (c : Nat) : Prop :=
  ∃ before after, ops = before ++ Op.connEnds c :: after ∧ c < (run before).opened

end Verif.Tunnel.Manager.Spec
