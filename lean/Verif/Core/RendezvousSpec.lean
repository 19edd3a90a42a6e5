import Verif.Core.Rendezvous
import Verif.Core.ConnSpec

/-!
# Rendezvous packets (specification, C49)

What the device is asked to send, computed from the history alone.
-/

namespace Verif.Core.Rendezvous.Spec
open Verif.Core.Conn (Bytes)

/-- The headers of the open client connections. -/
def headers (conns : Conn.Ctx) : List Bytes := conns.conns.filterMap fun k => k.client.map (·.hdr)

/-- The id in the datagram is the id of an open connection. -/
def Known (conns : Conn.Ctx) (buf : Bytes) : Prop := ∃ h ∈ headers conns, Conn.Spec.id14 h = Conn.Spec.id14 buf

/-- What the code tests instead: the bytes of the datagram are taken one place too far to the right. -/
def KnownShifted (conns : Conn.Ctx) (buf : Bytes) : Prop :=
  ∃ h ∈ headers conns, Conn.Spec.id14 h = Conn.Spec.id14 (buf.drop 1)

instance (conns buf) : Decidable (KnownShifted conns buf) := by unfold KnownShifted; infer_instance

/-- An answer repeats the id and the channel of the datagram. -/
def answer (buf : Bytes) (type : UInt8) : Bytes := 241 :: (buf.drop 1).take 15 ++ [type]

/-- What an event asks the device to send, if `dflt` is its default socket. -/
def asked (dflt : Option Nat) : Op → List Send
  | .datagram conns sock ep buf _ =>
    if buf.length < 17 then []
    else if buf[16]? = some 1 ∧ KnownShifted conns buf then [⟨sock, ep, answer buf 2⟩]
    else if buf[16]? = some 4 then [⟨sock, ep, answer buf 5⟩]
    else []
  | .request id eps =>
    match dflt with
    | none => []
    | some s => eps.map fun e => ⟨s, e.1, 241 :: id ++ [0, 3]⟩
  | .sent _ => []
  | .dflt _ => []

/-- The default socket after an event. -/
def newDflt (d : Option Nat) : Op → Option Nat
  | .dflt s => s
  | _ => d

/-- Everything the device is asked to send. -/
def askedAll (d : Option Nat) : List Op → List Send
  | [] => []
  | op :: ops => asked d op ++ askedAll (newDflt d op) ops

/-- The buffers for sending are available. -/
def Alloc : Op → Prop
  | .datagram _ _ _ _ alloc => alloc = true
  | .request _ eps => ∀ e ∈ eps, e.2 = true
  | .sent alloc => alloc = true
  | .dflt _ => True

/-- The number of packets which have been asked for and not been completed, after an event. -/
def newLoad (d : Option Nat) (n : Nat) (op : Op) : Nat :=
  match op with
  | .sent _ => n - 1
  | op => n + (asked d op).length

/-- The load after a history. -/
def load (d : Option Nat) (n : Nat) : List Op → Nat
  | [] => n
  | op :: ops => load (newDflt d op) (newLoad d n op) ops

/-- The load is never more than eleven. -/
def Light (d : Option Nat) (n : Nat) : List Op → Prop
  | [] => True
  | op :: ops => newLoad d n op ≤ 11 ∧ Light (newDflt d op) (newLoad d n op) ops

/-- The number of sends the platform has completed. -/
def completedSends : List Op → Nat
  | [] => 0
  | .sent _ :: ops => completedSends ops + 1
  | _ :: ops => completedSends ops

end Verif.Core.Rendezvous.Spec
