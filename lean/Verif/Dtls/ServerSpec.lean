import Verif.Dtls.Server

/-!
# The secure session of a client connection — specification
-/

namespace Verif.Dtls.Server.Spec

/-- The messages which were accepted: they are numbered in this order. -/
def accepted (ops : List Op) : List Nat := List.range (run ops).next

/-- Message number `m` was reported with this code. -/
def Reported (ops : List Op) (m : Nat) (e : Ec) : Prop := (m, e) ∈ (run ops).answers

instance (ops : List Op) (m : Nat) (e : Ec) : Decidable (Reported ops m e) :=
  inferInstanceAs (Decidable ((m, e) ∈ (run ops).answers))

/-- How often message number `m` was reported. -/
def reports (ops : List Op) (m : Nat) : Nat := (run ops).answers.countP fun o => o.1 == m

/-- A packet is on its way: the socket has not completed it, or the session was not told yet. -/
def OnItsWay (ops : List Op) : Prop := (run ops).buf = true

instance (ops : List Op) : Decidable (OnItsWay ops) := inferInstanceAs (Decidable ((run ops).buf = true))

/-- The session is over for the peer or for TLS, or the connection closes it while it handles data. -/
def Ends (r : Tls) : Prop := r.ret = .ended

def Closes (r : Tls) : Prop := ∃ acts l, r.ret = .ok acts ∧ .close l ∈ acts

/-- The session does not end, other than by a close of the connection, while a packet is on its way, nor by what happens
right after one was sent. -/
def CalmOp (before : List Op) : Op → Prop
  | .kill => ¬ OnItsWay before
  | .packet r | .timer r => Ends r → ¬ OnItsWay before ∧ .sent ∉ r.snd
  | .sent r => ¬ Ends r ∧ ¬ Closes r
  | _ => True

def Calm (ops : List Op) : Prop := ∀ before op after, ops = before ++ op :: after → CalmOp before op

/-- Every message which is written makes a packet which is given to the socket. -/
def Lossless (ops : List Op) : Prop := ∀ w, .runSend w ∈ ops → .sent ∈ w.snd

/-- One round of the socket and the events: the packet is sent, the session is told, the next message is written. -/
def round (w : Write) : List Op := [.udpDone, .sent ⟨[], .want⟩, .runSend w]

end Verif.Dtls.Server.Spec
