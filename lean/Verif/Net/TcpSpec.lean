import Verif.Net.Tcp

/- What is said about TCP sockets. -/
namespace Verif.Net.Tcp.Spec

open Verif.Net.Tcp

/-- How often the operation with this number was told a result. -/
def told (k : Nat) (answers : List Ans) : Nat := answers.countP (fun a => decide (a.op = k))

/-- All bytes that reads have been given, in order. -/
def delivered (answers : List Ans) : List UInt8 := answers.flatMap (·.data)

/-- The bytes of one write among those handed to the system. -/
def sentOf (k : Nat) (out : List (Nat × UInt8)) : List UInt8 :=
  (out.filter (fun p => decide (p.1 = k))).map (·.2)

namespace Sel
open Verif.Net.Tcp.Sel

def isAsk : Op → Bool
  | .connect _ => true
  | .write _ => true
  | .read _ => true
  | _ => false

/-- The operations asked for, in order. -/
def asks (ops : List Op) : List Op := ops.filter isAsk

/-- Reads are given a buffer. -/
def Buffers (ops : List Op) : Prop := Op.read 0 ∉ ops

end Sel

namespace Lev
open Verif.Net.Tcp.Lev

def isAsk : Op → Bool
  | .connect _ => true
  | .write _ _ => true
  | .read _ => true
  | _ => false

def asks (ops : List Op) : List Op := ops.filter isAsk

def Buffers (ops : List Op) : Prop := Op.read 0 ∉ ops

/-- No connect is asked for while one is pending, and no read while one is pending. -/
def Polite (ops : List Op) : Prop :=
  ∀ before op after, ops = before ++ op :: after →
    (∀ ok, op = .connect ok → (run before).sl.slot .connect = none) ∧
    (∀ n, op = .read n → (run before).sl.slot .read = none)

/-- Nothing is asked for after the socket was aborted. -/
def Quiet (ops : List Op) : Prop :=
  ∀ before op after, ops = before ++ op :: after → isAsk op = true → (run before).aborted = false

end Lev

end Verif.Net.Tcp.Spec
