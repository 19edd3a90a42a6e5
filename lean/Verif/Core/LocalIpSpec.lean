import Verif.Core.LocalIp

/-!
# The local addresses of a device: specification
-/

namespace Verif.Core.LocalIp.Spec
open Verif.Net.Addr (Ip Family)
open Verif.Core.LocalIp (Sys)

/-- A system which works: routes are used with an address of an interface and of the family of the destination, no interface has the
wildcard address, and system calls do not fail without a reason. -/
structure Works (s : Sys) : Prop where
  own : ∀ r ∈ s.routes, r.source ∈ s.addrs
  family : ∀ r ∈ s.routes, ∀ d, r.covers d = true → d.family = r.source.family
  real : ∀ a ∈ s.addrs, Verif.Core.LocalIp.Ip.isAny a = false

/-- No failing system calls. -/
def NoFailures (s : Sys) : Prop := ∀ f, s.socketOk f = true ∧ s.connectOk f = true ∧ s.nameOk f = true

/-- The device has a way into the internet for a family. -/
def Routed (s : Sys) (d : Ip) : Prop := ∃ r ∈ s.routes, r.covers d = true

/-- A network the device is connected to: an interface with an address, and a route to the hosts on it. -/
def OnNetwork (s : Sys) (a peer : Ip) : Prop := a ∈ s.addrs ∧ s.route peer = some a

end Verif.Core.LocalIp.Spec
