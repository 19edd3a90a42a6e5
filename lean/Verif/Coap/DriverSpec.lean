import Verif.Coap.Driver

/- What is said about the drivers of the CoAP library. -/
namespace Verif.Coap.Driver.Spec

open Verif.Coap.Driver

variable {L I : Type}

/-- Someone will look after what the library wants: the event is in the queue, a packet is with a
DTLS connection, or the library waits and the timer is set no later than it wants. -/
def Attended (E : Lib L I) (s : St L) : Prop :=
  E.next s.lib = .nothing ∨ s.posted = true ∨ s.inflight = true ∨
  (E.next s.lib = .wait ∧ ∃ t, s.timer = some t ∧ t ≤ max s.now (E.due s.lib))

/-- The library is silent at first, it tells when a call makes it want something else, and a CoAP
server never wants a callback. -/
structure Tells (k : Kind) (E : Lib L I) (l : L) : Prop where
  init : E.next l = .nothing
  call : ∀ l now i, (E.call l now i).2 = false →
    E.next (E.call l now i).1 = E.next l ∧ E.due (E.call l now i).1 = E.due l
  server : k = .server → ∀ l, E.next l ≠ .callback

/-- 2^29 ms are 6 days 5 hours. -/
def sixDays : Nat := 2 ^ 29

/-- The event thread is never late by more than six days, and the library never waits for more than
that. -/
def Prompt (E : Lib L I) (s : St L) : Prop :=
  (E.next s.lib = .wait → E.due s.lib ≤ s.now + sixDays ∧ s.now ≤ E.due s.lib + sixDays) ∧
  (∀ t, s.timer = some t → s.now ≤ t + sixDays)

/-- When the library waits and no timer is set, then it waits for something less than six days after
the driver was started or the last timeout was. -/
def Busy (E : Lib L I) (s : St L) : Prop :=
  E.next s.lib = .wait → s.timer = none → E.due s.lib < s.reset + sixDays

/-- No packet is refused by a DTLS connection. -/
def Takes : Op I → Prop
  | .tick _ => True
  | .fire env => env.taken = true
  | .event env => env.taken = true
  | .sent env => env.taken = true
  | .packet _ env => env.taken = true
  | .call _ => True

/-- Nothing comes from outside: no packet and no call. -/
def Inside : Op I → Prop
  | .packet _ _ => False
  | .call _ => False
  | _ => True

end Verif.Coap.Driver.Spec
