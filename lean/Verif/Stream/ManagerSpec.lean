import Verif.Stream.Manager

/-!
# The stream manager — specification
-/

namespace Verif.Stream.Manager.Spec

open Verif.Core.Packet

variable {C L : Type}

/-- Some listener listens on the port and keeps the streams it gets. -/
def Taken (s : St C L) (port : UInt32) (keep : Bool) : Prop := keep = true ∧ ∃ l, (l, port) ∈ s.listeners

/-- What the unchanged code needs so that no freed stream is used:

* a packet has a flags byte (see C43);
* virtual streams are only opened on ports with a listener which keeps them;
* a stream which is offered while its timer runs is kept by a listener;
* a virtual connection is freed after its streams were stopped. -/
def Careful (s : St C L) : Op C L → Prop
  | .packet _ bytes _ _ _ => parseHeader bytes ≠ .ub
  | .openVirtual _ port _ keep => Taken s port keep
  | .timer _ evs => ∀ port keep r, Ev.accept port keep r ∈ evs → Taken s port keep
  | .freeVirtual c => ∀ n x, s.mem n = some x → x.conn ≠ some c
  | _ => True

/-- Every operation of the history was done with care. -/
def CarefulRun [DecidableEq C] [DecidableEq L] (f : Flags) (ops : List (Op C L)) : Prop :=
  ∀ pre op post, ops = pre ++ op :: post → Careful (run f pre) op

/-- Somebody may still use the stream: it is known to the manager, the application or the client of a virtual
stream have not freed it, a packet of it is being sent or its event will run. -/
def Held (s : St C L) (n : Nat) : Prop :=
  n ∈ s.streams ∨ n ∈ s.apps ∨ n ∈ s.clis ∨ n ∈ s.sends ∨ n ∈ s.posted

/-- The listener has this port. -/
def Listens (s : St C L) (l : L) (port : UInt32) : Prop := (l, port) ∈ s.listeners

/-- A client stream with this id exists on the connection. -/
def Exists (s : St C L) (c : C) (sid : UInt64) : Prop :=
  ∃ n x, n ∈ s.streams ∧ s.mem n = some x ∧ x.conn = some c ∧ x.sid = sid

/-- Number of streams whose memory is allocated. -/
def allocated (s : St C L) : Nat := ((List.range s.next).filter fun n => (s.mem n).isSome).length

/-- How often the stream was given to a listener. -/
def deliveries (s : St C L) (n : Nat) : Nat :=
  (s.out.filter fun o => match o with | .delivered m _ _ => m == n | _ => false).length

/-- How often the memory of the stream was given back. -/
def frees (s : St C L) (n : Nat) : Nat :=
  (s.out.filter fun o => match o with | .freed m => m == n | _ => false).length

/-- The nonces of the streams created for clients, oldest first. -/
def nonces (s : St C L) : List UInt64 :=
  s.out.filterMap fun o => match o with | .created _ _ _ k => some k | _ => none

/-- The operation brings a stream which asks for the port. -/
def Offers (op : Op C L) (port : UInt32) : Prop :=
  match op with
  | .openVirtual _ p _ _ => p = port
  | .packet _ _ _ _ evs => ∃ keep r, Ev.accept port keep r ∈ evs
  | .timer _ evs => ∃ keep r, Ev.accept port keep r ∈ evs
  | .sendDone _ evs => ∃ keep r, Ev.accept port keep r ∈ evs
  | .run _ evs => ∃ keep r, Ev.accept port keep r ∈ evs
  | _ => False

/-- The RST buffer is taken and no connection will give it back. -/
def Wedged (s : St C L) : Prop := s.rstBuf = true ∧ s.rstOut = false

/-- What an operation tells after a history. -/
def told [DecidableEq C] [DecidableEq L] (f : Flags) (ops : List (Op C L)) (op : Op C L) : List (Out C L) :=
  (run f (ops ++ [op])).out.drop (run f ops).out.length

/-- Segments which were given out. -/
def granted (s : St C L) : Nat := (s.out.filter fun o => match o with | .segment => true | _ => false).length

/-- Segments which were given back. -/
def returned (ops : List (Op C L)) : Nat := (ops.filter fun o => match o with | .freeSeg => true | _ => false).length

/-- Streams only give back segments which they have. -/
def SegsOwned [DecidableEq C] [DecidableEq L] (f : Flags) (ops : List (Op C L)) : Prop :=
  ∀ pre post, ops = pre ++ .freeSeg :: post → returned pre < granted (run f pre)

end Verif.Stream.Manager.Spec
