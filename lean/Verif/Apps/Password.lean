/-!
# Generated passwords — model

`random_password`, `/repo/apps/common/random_string.c:24-58`. The random generator of mbedTLS is a list of answers, one for
each call of `mbedtls_ctr_drbg_random`.
-/

namespace Verif.Apps

/-- What the random generator answers when asked for a byte, `random_string.c:44`. -/
inductive Draw | byte (b : Fin 256) | fail
  deriving DecidableEq, Repr

/-- `alphabet`, `random_string.c:14`. -/
def alphabet : List Char := "abcdefghijkmnopqrstuvwxyzACEFHJKLMNPRTUVWXY3479".toList

/-- The memory of the string literal: the characters and the terminator. -/
def alphabetCell (i : Nat) : Option Char := (alphabet ++ ['\x00'])[i]?

/-- How far `random_password` has come: it still asks for bytes, it returned `NULL`, it read or wrote outside of an array, or
it returned its buffer. -/
inductive Generated
  | asking | null | ub
  | done (buffer : List Char)
  deriving DecidableEq, Repr

/-- The loop, `random_string.c:41-55`. -/
def fill (outputSize : Nat) (out : List Char) (generated : Nat) : List Draw → Generated
  | [] => if generated < outputSize then .asking else .done out
  | d :: ds =>
    if generated < outputSize then
      match d with
      | .fail => .null
      | .byte b =>
        if b.val < alphabet.length then
          match alphabetCell b.val with
          | none => .ub
          | some c => if generated < out.length then fill outputSize (out.set generated c) (generated + 1) ds else .ub
        else fill outputSize out generated ds
    else .done out

/-- `random_password`, `random_string.c:24-58`; `seeded` is the result of `init_random`, `allocated` whether `calloc` gives
memory. -/
def randomPassword (seeded allocated : Bool) (outputSize : Nat) (draws : List Draw) : Generated :=
  if !seeded then .null
  else if !allocated then .null
  else fill outputSize (List.replicate (outputSize + 1) '\x00') 0 draws

/-- The string in a buffer of C. -/
def bufferString (buffer : List Char) : List Char := buffer.takeWhile (fun c => c ≠ '\x00')

end Verif.Apps
