import Verif.Dtls.WolfServer
import Verif.Dtls.ServerSpec

/-!
# The secure session of a client connection, with wolfSSL — specification

The words of `Dtls/ServerSpec` for this session.
-/

namespace Verif.Dtls.WolfServer.Spec

open Verif.Dtls.Server (Snd Ec)

/-- The messages which were accepted: they are numbered in this order. -/
def accepted (ops : List Op) : List Nat := List.range (run ops).s.next

/-- Message number `m` was reported with this code. -/
def Reported (ops : List Op) (m : Nat) (e : Ec) : Prop := (m, e) ∈ (run ops).s.answers

instance (ops : List Op) (m : Nat) (e : Ec) : Decidable (Reported ops m e) :=
  inferInstanceAs (Decidable ((m, e) ∈ (run ops).s.answers))

/-- How often message number `m` was reported. -/
def reports (ops : List Op) (m : Nat) : Nat := (run ops).s.answers.countP fun o => o.1 == m

/-- A packet is on its way. -/
def OnItsWay (ops : List Op) : Prop := (run ops).s.buf = true

instance (ops : List Op) : Decidable (OnItsWay ops) := inferInstanceAs (Decidable ((run ops).s.buf = true))

/-- The session does not end, other than by a close of the connection, while a packet is on its way, nor by what happens
right after one was sent. -/
def CalmOp (before : List Op) : Op → Prop
  | .kill => ¬ OnItsWay before
  | .packet r => r.ret = .ended → ¬ OnItsWay before ∧ .sent ∉ r.snd
  | .timer snd t => t = .failed → ¬ OnItsWay before ∧ .sent ∉ snd
  | .sent r => r.ret ≠ .ended ∧ ∀ acts l, r.ret = .ok acts → .close l ∉ acts
  | _ => True

def Calm (ops : List Op) : Prop := ∀ before op after, ops = before ++ op :: after → CalmOp before op

/-- Every message which is written makes a packet which is given to the socket. -/
def Lossless (ops : List Op) : Prop := ∀ snd ok, .runSend snd ok ∈ ops → .sent ∈ snd

/-- One round of the socket and the events: the packet is sent, the session is told, the next message is written. -/
def round (snd : List Snd) (ok : Bool) : List Op := [.udpDone, .sent ⟨[], .wantRead false⟩, .runSend snd ok]

end Verif.Dtls.WolfServer.Spec
