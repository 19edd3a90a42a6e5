import Verif.Dtls.Client

/-!
# The secure session with the basestation — specification
-/

namespace Verif.Dtls.Client.Spec

/-- The messages which were accepted: they are numbered in this order. -/
def accepted (ops : List Op) : List Nat := List.range (run ops).next

/-- Message number `m` was reported with this code. -/
def Reported (ops : List Op) (m : Nat) (e : Ec) : Prop := (m, e) ∈ (run ops).answers

instance (ops : List Op) (m : Nat) (e : Ec) : Decidable (Reported ops m e) :=
  inferInstanceAs (Decidable ((m, e) ∈ (run ops).answers))

/-- How often message number `m` was reported. -/
def reports (ops : List Op) (m : Nat) : Nat := (run ops).answers.countP fun o => o.1 == m

/-- A packet is on its way: the socket has not completed it, or the session was not told yet. -/
def OnItsWay (ops : List Op) : Prop := (run ops).net ≠ .idle

instance (ops : List Op) : Decidable (OnItsWay ops) := inferInstanceAs (Decidable ((run ops).net ≠ .idle))

/-- The attacher has the session. -/
def Held (ops : List Op) : Prop := (run ops).held = true

instance (ops : List Op) : Decidable (Held ops) := inferInstanceAs (Decidable ((run ops).held = true))

/-- One round of the socket and the events: the packet is sent, the session is told, the next message is written. -/
def round (w : Write) : List Op := [.udpDone, .sent ⟨[], .want⟩, .runSend w]

end Verif.Dtls.Client.Spec
