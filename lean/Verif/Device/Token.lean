/-!
# Making a server connect token

Model of `nabto_device_create_server_connect_token`, src/api/nabto_device.c:710-748. The source of random bytes is told by
the environment: each call gives a byte or fails.
-/

namespace Verif.Device.Token

/-- nabto_device.c:713, with the letters s and t in this order. -/
def alphabet : List Char := "ABCDEFGHIJKLMNOPQRSTUVWXYZabcdefghijklmnopqrtsuvwxyz0123456789".toList

inductive Res
  /-- success, with the string -/
  | token (t : List Char)
  /-- the source of random bytes failed -/
  | failed
  | outOfMemory
  /-- the loop asks for another byte -/
  | more
  deriving DecidableEq, Repr

/-- The loop, nabto_device.c:726-738: `out` is what `output` holds, of length `generated`. -/
def loop (out : List Char) : List (Option UInt8) → Res
  | [] => if out.length < 12 then .more else .token out
  | r :: rs =>
    if out.length < 12 then
      match r with
      | none => .failed
      | some b =>
        match alphabet[b.toNat]? with
        | some c => loop (out ++ [c]) rs
        | none => loop out rs
    else .token out

/-- The function, with what the source of random bytes gives, one call after the other. `mem`: the string can be copied. -/
def create (rs : List (Option UInt8)) (mem : Bool) : Res :=
  match loop [] rs with
  | .token t => if mem then .token t else .outOfMemory
  | r => r

end Verif.Device.Token
