import Verif.Dtls.Accept

/-!
# What a user relies on when clients connect (C142)
-/

namespace Verif.Dtls.Accept.Spec

/-- Things a connection consists of: two blocks, the event of the keep alive, two completion events, and the
session with its block, three events and the object of the TLS library. -/
def whole : Nat := 2 + 3 + 5

/-- Nothing is allocated but what the open connections consist of. -/
def balanced (s : St) : Prop := s.made = s.freed + whole * s.conns.length

/-- A session is made completely or its block cannot be allocated. -/
def sessionWorks (w : Works) : Prop :=
  w.alloc = true → w.start = true ∧ w.timer = true ∧ w.sender = true ∧ w.ssl = true ∧ w.rest = true

/-- Once the two blocks of a connection are allocated everything else works as well. -/
def allWorks (w : Works) : Prop :=
  w.keepAlive = true ∧ w.send = true ∧ w.kaSend = true ∧ w.alloc = true ∧ w.start = true ∧ w.timer = true ∧
    w.sender = true ∧ w.ssl = true ∧ w.rest = true

/-- The packet reaches the creation of a session and a step after the allocation of its block fails. -/
def halfway (w : Works) : Prop :=
  w.block = true ∧ w.block2 = true ∧ w.ref = true ∧ w.keepAlive = true ∧ w.send = true ∧ w.kaSend = true ∧
    w.alloc = true ∧ ¬ (w.start = true ∧ w.timer = true ∧ w.sender = true ∧ w.ssl = true ∧ w.rest = true)

/-- How often the listener was told something. -/
def times (e : Event) (s : St) : Nat := s.told.count e

end Verif.Dtls.Accept.Spec
