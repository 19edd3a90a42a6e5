import Verif.Core.CborUse
import Verif.Cbor.Skip

/-!
# Decoding of CBOR payloads — specification

What the payloads mean, in terms of CBOR data items.
-/

namespace Verif.Core.CborUse.Spec
open Verif.Cbor

/-- The content of a text string. -/
def text : Item → Option Bytes
  | .text b => some b
  | .chunks true l => some l.flatten
  | _ => none

/-- The content of a byte string. -/
def bytes : Item → Option Bytes
  | .bytes b => some b
  | .chunks false l => some l.flatten
  | _ => none

/-- An unsigned integer. -/
def uint : Item → Option Nat
  | .uint n => some n
  | _ => none

/-- An integer. -/
def int : Item → Option Int
  | .uint n => some n
  | .nint n => some (-1 - n)
  | _ => none

/-- A field of a map. -/
def field (s : String) : Item → Option Item
  | .map _ p => lookup (key s) p
  | _ => none

/-- A text field of bounded length. -/
def textField (s : String) (max : Nat) (i : Item) : Option Bytes := ((field s i).bind text).filter (·.length ≤ max)

/-- A field with a byte string of bounded length. -/
def bytesField (s : String) (max : Nat) (i : Item) : Option Bytes := ((field s i).bind bytes).filter (·.length ≤ max)

/-- A field with an unsigned integer. -/
def uintField (s : String) (i : Item) : Option Nat := (field s i).bind uint

/-- A password authentication request. -/
def credentials (i : Item) : Option (Bytes × Bytes) :=
  match textField "Username" 4096 i, bytesField "T" 256 i with
  | some u, some t => some (u, t)
  | _, _ => none

/-- A field with a status code. -/
def statusField (s : String) (i : Item) : Option Nat :=
  (((field s i).bind int).filter fun z => 0 ≤ z ∧ z ≤ 65535).map Int.toNat

/-- Every integer in the field is in the range of `int`. -/
def Small (s : String) (i : Item) : Prop := ∀ z, (field s i).bind int = some z → -2 ^ 31 ≤ z ∧ z < 2 ^ 31

/-- An answer to a push notification. -/
def fcm (i : Item) : Option (Nat × Bytes) :=
  match statusField "StatusCode" i, textField "Body" 4096 i with
  | some s, some b => some (s, b)
  | _, _ => none

/-- An answer to a service invocation: status, format and message. Format 1 has no message; without a format the message is
binary, which is format 0. -/
def serviceInvoke (i : Item) : Option (Nat × Nat × Option Bytes) :=
  match statusField "StatusCode" i with
  | none => none
  | some s =>
    match (field "MessageFormat" i).bind int with
    | some f =>
      if f = 1 then some (s, 1, none)
      else if f = 0 ∨ f = 2 then (bytesField "Message" 65536 i).map fun m => (s, f.toNat, some m)
      else none
    | none => (bytesField "Message" 65536 i).map fun m => (s, 0, some m)

/-- An endpoint of a rendezvous request: `none` if it is invalid, `some none` if the address family is unknown. -/
def endpoint (i : Item) : Option (Option (Bytes × Nat)) :=
  match field "Ip" i, field "Port" i with
  | some (.bytes b), some (.uint p) => some (if b.length = 4 ∨ b.length = 16 then some (b, p % 65536) else none)
  | _, _ => none

/-- The endpoints of a rendezvous request up to the first invalid one, and whether all are valid. -/
def endpoints : List Item → List (Bytes × Nat) × Bool
  | [] => ([], true)
  | i :: l =>
    match endpoint i with
    | none => ([], false)
    | some o => (o.toList ++ (endpoints l).1, (endpoints l).2)

/-- A rendezvous request. -/
def rendezvous : Item → List (Bytes × Nat) × Bool
  | .arr _ l => endpoints l
  | _ => ([], false)

/-- The keep alive settings of an attach response. -/
def keepAlive (i : Item) : Option (Nat × Nat × Nat) :=
  match field "KeepAlive" i with
  | none => none
  | some k =>
    match uintField "Interval" k, uintField "RetryInterval" k, uintField "MaxRetries" k with
    | some a, some b, some c => some (a % 2 ^ 32, b % 2 ^ 32, c % 2 ^ 32)
    | _, _, _ => none

/-- The STUN server of an attach response. -/
def stun (i : Item) : Option (Bytes × Nat) :=
  match field "Stun" i with
  | none => none
  | some s =>
    match textField "Host" 255 s, uintField "Port" s with
    | some h, some p => some (h, p % 65536)
    | _, _ => none

/-- The new host of a redirect: a text of definite length. -/
def redirect (i : Item) : Option (Bytes × Nat) :=
  match field "Host" i, uintField "Port" i, (field "Fingerprint" i).bind bytes with
  | some (.text h), some p, some _ => if 1 ≤ h.length ∧ h.length ≤ 256 then some (h, p % 65536) else none
  | _, _, _ => none

/-- An attach response. -/
def attach (i : Item) : AttachResponse :=
  match uintField "Status" i with
  | some 0 => .attached (keepAlive i) (stun i)
  | some 1 =>
    match redirect i with
    | some (h, p) => .redirect h p
    | none => .error
  | _ => .error

/-- A string in a request of the IAM module: `none` is not accepted, `some none` is `null`. -/
def iamString : Option Item → Option (Option Bytes)
  | some .null => some none
  | some i => ((text i).filter (·.length < 1024)).map some
  | none => none

/-- A boolean in a request of the IAM module. -/
def boolean : Item → Option Bool
  | .bool b => some b
  | _ => none

/-- A set of strings in a request of the IAM module: `none` is not accepted, `some none` undefined. -/
def iamItems : List Item → Option (Option (List Bytes))
  | [] => some (some [])
  | i :: l =>
    match iamString (some i) with
    | none => none
    | some none => some none
    | some (some s) =>
      match iamItems l with
      | some (some r) => some (some (s :: r))
      | r => r

/-- The URLs of an ICE server. -/
def urls : List Item → Option (List Bytes)
  | [] => some []
  | i :: l =>
    match (text i).filter (·.length ≤ 4096), urls l with
    | some s, some r => some (s :: r)
    | _, _ => none

/-- An ICE server. -/
def iceServer (i : Item) : Option IceServer :=
  match field "Urls" i with
  | some (.arr _ l) => (urls l).map fun u =>
    { username := textField "Username" 4096 i
      credential := (textField "Username" 4096 i).bind fun _ => textField "Credential" 4096 i
      urls := u }
  | _ => none

/-- The ICE servers. -/
def iceServers : List Item → Option (List IceServer)
  | [] => some []
  | i :: l =>
    match iceServer i, iceServers l with
    | some s, some r => some (s :: r)
    | _, _ => none

end Verif.Core.CborUse.Spec
