/-!
# Questions to the user — model

`/repo/apps/common/prompt_stdin.c`, with which the example applications are set up. Standard input is a list of answers of
`getchar`. What is printed is left out.
-/

namespace Verif.Apps

/-- What `getchar` returns: a byte, or `EOF`. -/
inductive In | byte (b : Fin 256) | eof
  deriving DecidableEq, Repr

/-- `(char)getchar()`, `prompt_stdin.c:42`: the value of the `char`, which has a sign on some platforms (x86) and none on
others (ARM). `EOF` is -1. -/
def In.toChar (signed : Bool) : In → Int
  | .byte b => if signed ∧ 128 ≤ b.val then (b.val : Int) - 256 else b.val
  | .eof => if signed then -1 else 255

/-- The memory of a buffer: `none` is a byte nobody has written. -/
abbrev Cells := List (Option Nat)

/-- How far `prompt` has come: it waits for input, it did something undefined, or it returned and left the rest of the
input. -/
inductive Prompted
  | waiting | ub
  | done (ok : Bool) (buffer : Cells) (rest : List In)
  deriving DecidableEq, Repr

/-- `is_printable`, `prompt_stdin.c:24-27`. -/
def isPrintable (c : Int) : Bool := 0x20 ≤ c && c ≤ 0x7e

/-- The loop of `prompt`, `prompt_stdin.c:42-53`; `i` is an `int`, `n` is `(int)bufferSize - 1`. -/
def promptLoop (signed : Bool) (n : Int) (buffer : Cells) (i : Nat) : List In → Prompted
  | [] => .waiting
  | x :: xs =>
    let c := x.toChar signed
    if c = 0 then .done false buffer xs
    else if c = 10 ∨ c = -1 then
      let pos : Int := if (i : Int) < n then i else n
      if 0 ≤ pos ∧ pos < buffer.length then .done (decide ((i : Int) ≤ n)) (buffer.set pos.toNat (some 0)) xs
      else .ub
    else if (i : Int) < n ∧ isPrintable c = true ∧ ¬ i < buffer.length then .ub
    else if i + 1 = 2 ^ 31 then .ub
    else
      promptLoop signed n (if (i : Int) < n ∧ isPrintable c = true then buffer.set i (some c.toNat) else buffer) (i + 1) xs

/-- `prompt`, `prompt_stdin.c:29-55`, with a buffer whose size is passed. -/
def prompt (signed : Bool) (buffer : Cells) (input : List In) : Prompted :=
  promptLoop signed ((buffer.length : Int) - 1) buffer 0 input

/-- The string in a buffer; `none` if it is read up to a byte nobody has written, or past its end. -/
def readString : Cells → Option (List Nat)
  | [] => none
  | none :: _ => none
  | some 0 :: _ => some []
  | some c :: cs => (readString cs).map (c :: ·)

/-- `tolower` on ASCII, `to_lowercase`, `prompt_stdin.c:6-11`. -/
def lower (c : Nat) : Nat := if 65 ≤ c ∧ c ≤ 90 then c + 32 else c

/-- What a question is answered with. -/
inductive Answer (α : Type)
  | waiting | ub
  | answer (a : α) (rest : List In)
  deriving DecidableEq, Repr

/-- `y` and `yes`, `n` and `no`, `prompt_stdin.c:86-92`. -/
def yesOrNo (s : List Nat) : Option Bool :=
  if s = [121] ∨ s = [121, 101, 115] then some true
  else if s = [110] ∨ s = [110, 111] then some false
  else none

/-- `prompt_yes_no`, `prompt_stdin.c:68-94`, and with `def_` `prompt_yes_no_default`, 97-128; the number bounds the
iterations, each of which takes a character. -/
def yesNoLoop (signed : Bool) (def_ : Option Bool) : Nat → List In → Answer Bool
  | 0, _ => .waiting
  | k + 1, input =>
    match prompt signed (List.replicate 4 none) input with
    | .waiting => .waiting
    | .ub => .ub
    | .done false _ rest => yesNoLoop signed def_ k rest
    | .done true buffer rest =>
      match readString buffer with
      | none => .ub
      | some s =>
        match s, def_ with
        | [], some d => .answer d rest
        | _, _ =>
          match yesOrNo (s.map lower) with
          | some a => .answer a rest
          | none => yesNoLoop signed def_ k rest

/-- `prompt_yes_no`, `prompt_stdin.c:68-94`. -/
def promptYesNo (signed : Bool) (input : List In) : Answer Bool := yesNoLoop signed none (input.length + 1) input

/-- `prompt_yes_no_default`, `prompt_stdin.c:97-128`. -/
def promptYesNoDefault (signed : Bool) (d : Bool) (input : List In) : Answer Bool :=
  yesNoLoop signed (some d) (input.length + 1) input

/-- `str_is_numerical`, `prompt_stdin.c:13-22`. -/
def isNumerical (s : List Nat) : Bool := s.all (fun c => 48 ≤ c && c ≤ 57)

/-- The number of a string of digits; `strtol` stops at `LONG_MAX`. -/
def strtol (longMax : Nat) (s : List Nat) : Nat := min longMax (s.foldl (fun a c => 10 * a + (c - 48)) 0)

/-- `prompt_uint16`, `prompt_stdin.c:131-161`, and with `def_` `prompt_uint16_default`, 164-194. -/
def uint16Loop (signed : Bool) (longMax max : Nat) (def_ : Option Nat) : Nat → List In → Answer Nat
  | 0, _ => .waiting
  | k + 1, input =>
    match prompt signed (List.replicate 16 (some 0)) input with
    | .waiting => .waiting
    | .ub => .ub
    | .done false _ rest => uint16Loop signed longMax max def_ k rest
    | .done true buffer rest =>
      match readString buffer with
      | none => .ub
      | some s =>
        match s, def_ with
        | [], some d => .answer d rest
        | [], none => uint16Loop signed longMax max def_ k rest
        | _ :: _, _ =>
          if isNumerical s = true ∧ strtol longMax s ≤ max then .answer (strtol longMax s) rest
          else uint16Loop signed longMax max def_ k rest

/-- `prompt_uint16`, `prompt_stdin.c:131-161`. -/
def promptUint16 (signed : Bool) (longMax max : Nat) (input : List In) : Answer Nat :=
  uint16Loop signed longMax max none (input.length + 1) input

/-- `prompt_uint16_default`, `prompt_stdin.c:164-194`. -/
def promptUint16Default (signed : Bool) (longMax max d : Nat) (input : List In) : Answer Nat :=
  uint16Loop signed longMax max (some d) (input.length + 1) input

/-- `prompt_repeating`, `prompt_stdin.c:57-65`: the buffer is used again in the next iteration. -/
def repeatingLoop (signed : Bool) (buffer : Cells) : Nat → List In → Prompted
  | 0, _ => .waiting
  | k + 1, input =>
    match prompt signed buffer input with
    | .waiting => .waiting
    | .ub => .ub
    | .done ok buffer rest =>
      match buffer with
      | [] => .ub
      | none :: _ => .ub
      | some 0 :: _ => repeatingLoop signed buffer k rest
      | some (_ + 1) :: _ => .done ok buffer rest

/-- `prompt_repeating`, `prompt_stdin.c:57-65`. -/
def promptRepeating (signed : Bool) (buffer : Cells) (input : List In) : Prompted :=
  repeatingLoop signed buffer (input.length + 1) input

/-- The name of a service as `createService` asks for it, `tcp_tunnel_init.c:217-228`: at most 20 characters in a buffer of 20
bytes, the result of `prompt_repeating` is not looked at. -/
def askServiceId (signed : Bool) (input : List In) : Answer (List Nat) :=
  match promptRepeating signed (List.replicate 20 (some 0)) input with
  | .waiting => .waiting
  | .ub => .ub
  | .done _ buffer rest =>
    match readString buffer with
    | none => .ub
    | some s => .answer s rest

end Verif.Apps
