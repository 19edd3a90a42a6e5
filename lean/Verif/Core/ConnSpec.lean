import Verif.Core.Conn

/-!
# Client connections (specification, C44, C73–C76)

Everything here is computed from what the environment sees (`Out`) and from what it does (`Op`), not
from the state of the model.
-/

namespace Verif.Core.Conn.Spec

/-- The 14 bytes of a header which identify a connection: the first byte is the protocol, the last one
the channel. -/
def id14 (hdr : Bytes) : Bytes := (hdr.take 15).drop 1

/-- Keep track of the open connections, each with its reference and, if it is not virtual, its
header. -/
def note (open_ : List (Nat × Option Bytes)) : Out → List (Nat × Option Bytes)
  | .created ref hdr => open_ ++ [(ref, hdr)]
  | .event ref .closed => open_.filter (fun k => k.1 ≠ ref)
  | _ => open_

/-- The open connections. -/
def live (outs : List Out) : List (Nat × Option Bytes) := outs.foldl note []

/-- The references of all connections which were ever created, in order. -/
def made : List Out → List Nat
  | [] => []
  | .created ref _ :: os => ref :: made os
  | _ :: os => made os

/-- The limit after an event. -/
def newLimit (n : Nat) : Op → Nat
  | .setMax m => m
  | _ => n

/-- The limit in force: the last one set. -/
def limit (ops : List Op) : Nat := ops.foldl newLimit (2 ^ 64 - 1)

/-- No limit is set in this part of a history. -/
def KeepsLimit (ops : List Op) : Prop := ∀ op ∈ ops, ∀ n, op ≠ .setMax n

/-- Sockets and endpoints from which a datagram with this id was received. -/
def senders (id : Bytes) : List Op → List (Nat × Nat)
  | [] => []
  | .packet sock ep data _ _ :: ops =>
    if 17 ≤ data.length ∧ id14 data = id then (sock, ep) :: senders id ops else senders id ops
  | _ :: ops => senders id ops

/-- The socket and endpoint of the last datagram with this id and channel. -/
def lastSender (id : Bytes) (ch : UInt8) (ops : List Op) : Option (Nat × Nat) :=
  ops.foldl (fun r op =>
    match op with
    | .packet sock ep data _ _ =>
      if 17 ≤ data.length ∧ id14 data = id ∧ data[15]? = some ch then some (sock, ep) else r
    | _ => r) none

/-- The connection an output is about. -/
def about : Out → Option Nat
  | .created ref _ => some ref
  | .event ref _ => some ref
  | .toDtls ref _ _ => some ref
  | .dtlsConnect ref => some ref
  | .app ref _ _ _ => some ref
  | .sent ref => some ref
  | .refused ref => some ref
  | .dtlsClose ref => some ref
  | .udp .. => none
  | .closeDone => none
  | .closeNothing => none

/-- The DTLS session reports data with a channel it was told together with a packet. -/
def Faithful (m : Bool) (ops : List Op) : Prop :=
  ∀ pre ref ch seq d post c outs, ops = pre ++ .data ref ch seq d :: post →
    run (init m) pre = some (c, outs) → ∃ p, .toDtls ref ch p ∈ outs

/-- Whether the DTLS session of a connection waits for the completion of a packet it has sent. -/
def waits (ref : Nat) (ops : List Op) : Bool :=
  ops.foldl (fun b op =>
    match op with
    | .dtlsSend r _ _ => if r = ref then true else b
    | .udpSent r => if r = ref then false else b
    | _ => b) false

/-- The device is asked to close its connections. -/
def isClose : Op → Bool
  | .close .. => true
  | _ => false

end Verif.Core.Conn.Spec
