import Verif.Net.Multicast

/-! # On which networks the mDNS server hears queries: specification -/

namespace Verif.Net.Multicast.Spec
open Verif.Net.Multicast

/-- The device is on this network when the socket is bound: the interface is listed with an address. -/
def On (k : Sys) (i : Nat) : Prop := i ≠ 0 ∧ ∃ l, k.entries = some l ∧ ∃ e ∈ l, e.addr = true ∧ k.index e.name = i

/-- A socket may join on all interfaces of the device. -/
def Room (k : Sys) : Prop := ∀ l, k.entries = some l → l.length < k.max

/-- The interface is there all the time. -/
def Stays (i : Nat) (es : List Event) : Prop := .gone i ∉ es

end Verif.Net.Multicast.Spec
