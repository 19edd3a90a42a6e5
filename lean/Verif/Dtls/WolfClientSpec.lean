import Verif.Dtls.WolfClient

/-!
# The secure session with the basestation, with wolfSSL — specification

The words of `Dtls/ClientSpec` for this session.
-/

namespace Verif.Dtls.WolfClient.Spec

/-- The messages which were accepted: they are numbered in this order. -/
def accepted (ops : List Op) : List Nat := List.range (run ops).s.next

/-- Message number `m` was reported with this code. -/
def Reported (ops : List Op) (m : Nat) (e : Client.Ec) : Prop := (m, e) ∈ (run ops).s.answers

instance (ops : List Op) (m : Nat) (e : Client.Ec) : Decidable (Reported ops m e) :=
  inferInstanceAs (Decidable ((m, e) ∈ (run ops).s.answers))

/-- How often message number `m` was reported. -/
def reports (ops : List Op) (m : Nat) : Nat := (run ops).s.answers.countP fun o => o.1 == m

/-- A packet is on its way: the socket has not completed it, or the session was not told yet. -/
def OnItsWay (ops : List Op) : Prop := (run ops).s.net ≠ .idle

instance (ops : List Op) : Decidable (OnItsWay ops) := inferInstanceAs (Decidable ((run ops).s.net ≠ .idle))

/-- The attacher has the session. -/
def Held (ops : List Op) : Prop := (run ops).s.held = true

instance (ops : List Op) : Decidable (Held ops) := inferInstanceAs (Decidable ((run ops).s.held = true))

/-- One round of the socket and the events: the packet is sent, the session is told, the next message is written. -/
def round (snd : List Bool) (ret : WriteRet) : List Op := [.udpDone, .sent ⟨[], .wantRead false⟩, .runSend snd ret]

end Verif.Dtls.WolfClient.Spec
