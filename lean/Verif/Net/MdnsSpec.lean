import Verif.Net.Mdns

/-
What is said about the mDNS server, in terms of the calls and events it has seen.
-/
namespace Verif.Net.Mdns.Spec

open Verif.Net.Mdns

/-- What has been published: whether anything was, whether publishing has ended, and the port
and the number of the last publication before the end. -/
structure Pub where
  on : Bool := false
  over : Bool := false
  port : Nat := 0
  info : Nat := 0
  deriving DecidableEq, Repr

/-- The history of publications.  It ends when the server, once something was published, is
closed, or when it is stopped; after the deinit nothing counts. -/
def pubStep (p : Pub × Bool) : Op → Pub × Bool
  | .publish n _ _ =>
    if p.2 ∨ p.1.over then p else ({ p.1 with on := true, port := n, info := p.1.info + 1 }, p.2)
  | .close _ => if p.2 then p else ({ p.1 with over := p.1.over || p.1.on }, p.2)
  | .stop => if p.2 then p else ({ p.1 with over := true }, p.2)
  | .deinit => (p.1, true)
  | _ => p

def published (ops : List Op) : Pub := (ops.foldl pubStep ({}, false)).1

/-- The sockets of the family were opened. -/
def Bound (f : Fam) (ops : List Op) : Prop :=
  ∀ p b4 b6, Op.publish p b4 b6 ∈ ops → (match f with | .v4 => b4 | .v6 => b6) = .ok

/-- The socket of the family has not failed. -/
def Healthy (f : Fam) (ops : List Op) : Prop :=
  (∀ ec, Op.ready f ec ∈ ops → ec = .ok) ∧
  (∀ g l, Op.runRecv f g l ∈ ops → g.ec = .ok ∨ g.ec = .again)

/-- The server is stopped before it is deinitialised, as `nabto_device_free` does. -/
def StoppedFirst (ops : List Op) : Prop :=
  ∀ before after, ops = before ++ Op.deinit :: after → Op.stop ∈ before

/-- Memory is there, the packet can be built and it is sent. -/
def Luck.good (l : Luck) : Prop := l.mem = true ∧ l.build = true ∧ l.send = .ok

/-- Goodbye packets of the family among the packets. -/
def goodbyes (f : Fam) (net : List Packet) : Nat :=
  net.countP (fun p => p.goodbye && decide (p.fam = f))

/-- How often the call of close with this number was told a result. -/
def told (k : Nat) (answers : List (Nat × Ec)) : Nat :=
  answers.countP (fun a => decide (a.1 = k))

/-- The packet is what the step calls for: the announcement on opening, the answer to a query
on receiving – to the asker unless the query came from the mDNS port – and the goodbyes. -/
def CalledFor (p : Packet) : Op → Prop
  | .runOpened f _ => p.fam = f ∧ p.goodbye = false ∧ p.dest = .group ∧ p.id = 0
  | .runRecv f g _ => p.fam = f ∧ p.goodbye = false ∧ g.ec = .ok ∧ g.query = true ∧ p.id = g.id ∧
      (p.dest = .group ↔ g.srcPort = 5353)
  | .close _ => p.fam = .v4 ∧ p.goodbye = true ∧ p.dest = .group ∧ p.id = 0
  | .runClosed _ => p.fam = .v6 ∧ p.goodbye = true ∧ p.dest = .group ∧ p.id = 0
  | _ => False

end Verif.Net.Mdns.Spec
