import Verif.Dtls.Timer

/-!
# The timer of an mbed TLS session: what is expected

The contract of `mbedtls_ssl_set_timer_t` and `mbedtls_ssl_get_timer_t` (mbedtls/ssl.h), on what can be seen: setting
the timer starts both delays and replaces what was set before, a final delay of 0 switches it off, and asking it gives
-1 if it is off, 0 if none of the delays has passed, 1 if only the intermediate one has, 2 if the final one has.
-/

namespace Verif.Dtls.Timer.Spec

/-- The delays in force and the instant they were set. -/
structure Shot where
  at_ : Nat
  inter : Nat
  final : Nat
  deriving DecidableEq, Repr

/-- What a trace comes to: the delays in force, whether a callback is owed for them, and whether it was given. -/
structure View where
  shot : Option Shot := none
  owed : Bool := false
  given : Bool := false
  deriving DecidableEq, Repr

def View.next (v : View) : Ev → View
  | .set t i f => if f = 0 then {} else ⟨some ⟨t, i, f⟩, true, false⟩
  | .cancel => { v with owed := false }
  | .ran _ => { v with owed := false, given := true }

def view (tr : List Ev) : View := tr.foldl View.next {}

/-- The answer mbed TLS expects. -/
def delay (s : Option Shot) (now : Nat) : Int :=
  match s with
  | none => -1
  | some s => if s.at_ + s.final ≤ now then 2 else if s.at_ + s.inter ≤ now then 1 else 0

/-- All delays are below 2^31 ms (25 days). -/
def Short (ops : List Op) : Prop := ∀ a i f, Op.set a i f ∈ ops → i.toNat < 2 ^ 31 ∧ f.toNat < 2 ^ 31

/-- The timer is used on the event thread only. -/
def OnEventThread (ops : List Op) : Prop :=
  (∀ a i f, Op.set a i f ∈ ops → a = .loop) ∧ (∀ a, Op.cancel a ∈ ops → a = .loop)

/-- The callback of the timer is on its way: the event is among the timed events with the stamp of the instant `d`, or
the event thread has it and wants the core's lock. -/
def OnItsWay (s : Event.Sys) (d : Nat) : Prop :=
  (tEv, Util.Timestamp.stamp d) ∈ s.q.timed ∨ s.phase = .taken tEv

end Verif.Dtls.Timer.Spec
