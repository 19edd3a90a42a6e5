import Verif.Net.Loop

/- What is said about the loop of the select platform. -/
namespace Verif.Net.Loop.Spec

open Verif.Net.Loop

/-- The network thread is asleep and does not watch a socket that has something pending. -/
def Missed (s : St) (x : Sock) : Prop :=
  s.pc = .asleep ∧ x ∈ s.socks ∧ x.id ∈ s.pend ∧ (x.kind = .udp → x.fd ≠ -1) ∧ (x.id, x.fd) ∉ s.set

/-- A socket gets its descriptor when nothing is pending, or on the way to a notification (as when
a TCP socket connects). -/
def BoundFirst (ops : List Op) : Prop :=
  ∀ before k fd after, ops = before ++ .openFd k fd :: after →
    k ∉ (run before).pend ∨ 0 < (run before).notes

/-- `select` never fails. -/
def NoError (ops : List Op) : Prop := ∀ r, Op.thread true r ∉ ops

/-- Every socket has a descriptor that fits into the sets. -/
def Fits (s : St) : Prop := ∀ x ∈ s.socks, 0 ≤ x.fd ∧ x.fd < 1024

end Verif.Net.Loop.Spec
