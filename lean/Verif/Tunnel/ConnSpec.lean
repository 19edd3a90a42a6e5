import Verif.Tunnel.Conn

/-!
# One connection of a TCP tunnel — specification
-/

namespace Verif.Tunnel.Conn.Spec

/-- An event of the connection is in the event queue. -/
def Waits (s : St) : Prop :=
  s.eConn ≠ none ∨ s.eTRead ≠ none ∨ s.eTWrite ≠ none ∨ s.eSRead ≠ none ∨ s.eSWrite ≠ none ∨ s.eSClose ≠ none

/-- The operation is the event queue running an event which waits. -/
def runs (s : St) : Op → Bool
  | .runConn => s.eConn.isSome
  | .runTRead => s.eTRead.isSome
  | .runTWrite => s.eTWrite.isSome
  | .runSRead => s.eSRead.isSome
  | .runSWrite => s.eSWrite.isSome
  | .runSClose => s.eSClose.isSome
  | _ => false

/-- How many events of the connection run. -/
def ran (checks : Bool) : St → List Op → Nat
  | _, [] => 0
  | s, op :: ops => (if runs s op then 1 else 0) + ran checks (step checks s op) ops

/-- Nothing has an operation of the connection: neither socket, nor stream, nor event queue can reach it. -/
def Quiet (s : St) : Prop :=
  s.tConn = false ∧ s.tRead = false ∧ s.tWrite = none ∧ s.sRead = false ∧ s.sWrite = none ∧ s.sClose = false ∧ ¬ Waits s

/-- Exactly one of them. -/
def one (bs : List Bool) : Prop := bs.count true = 1

/-- The TCP server sends data, closes or loses its connection. -/
def ServerActs : Op → Prop
  | .tcpData _ => True
  | .tcpEnd _ => True
  | _ => False

end Verif.Tunnel.Conn.Spec
