import Verif.Api.ConnFp

/-!
# Fingerprints of connections — specification

What the application may expect, in terms of strings: who is at the two ends of each connection is the text it set itself,
in lower case, or the digits of the certificate of the client.
-/

namespace Verif.Api.ConnFp.Spec

/-- The digits. -/
def digits : Bytes := "0123456789abcdef".toUTF8.toList

/-- Digit number `n`. -/
def digitAt (n : Nat) : Bytes := (digits.drop n).take 1

/-- Two digits for each byte. -/
def spell (fp : Bytes) : Bytes := fp.flatMap fun b => digitAt (b.toNat / 16) ++ digitAt (b.toNat % 16)

/-- A hexadecimal digit, in upper or lower case. -/
def isHex (c : UInt8) : Bool := (48 ≤ c ∧ c ≤ 57) ∨ (65 ≤ c ∧ c ≤ 70) ∨ (97 ≤ c ∧ c ≤ 102)

def lowerCase (c : UInt8) : UInt8 := if 65 ≤ c ∧ c ≤ 70 then c + 32 else c

/-- What is stored of a text: lower case, and a leading zero if there is an odd number of digits. -/
def canon (text : Bytes) : Bytes := (if text.length = 63 then [48] else []) ++ text.map lowerCase

/-- The texts which are accepted. -/
def accepted (s : Side) (text : Bytes) : Bool :=
  (text.length = 64 ∨ (s = .client ∧ text.length = 63)) ∧ text.all isHex

/-- The C string in a block of memory; `none` if it does not end in the block. -/
def cstring : Bytes → Option Bytes
  | [] => none
  | b :: bs => if b = 0 then some [] else (cstring bs).map (b :: ·)

/-- A connection. -/
structure Rec where
  virt : Bool
  cli : Option Bytes := none
  dev : Option Bytes := none
  loc : Bool := false
  deriving DecidableEq, Repr

def Rec.set (r : Rec) : Side → Option Bytes → Rec
  | .client, t => { r with cli := t }
  | .device, t => { r with dev := t }

structure S where
  /-- the last reference -/
  last : Nat := 0
  who : Nat → Option Rec := fun _ => none
  /-- the fingerprint of the device -/
  key : Option Bytes := none

def S.set (s : S) (ref : Nat) (r : Option Rec) : S := { s with who := fun i => if i = ref then r else s.who i }

/-- What can be seen. -/
inductive Obs
  | made (ref : Option Nat)
  | ret (ec : Ec)
  | text (ec : Ec) (t : Option Bytes)
  | bool (b : Bool)
  | event (ref : Nat) (closed : Bool)
  | resolve (fut : Nat) (ec : Ec)
  deriving DecidableEq, Repr

def see : Out → Obs
  | .made r => .made r
  | .ret e => .ret e
  | .str e b => .text e (b.bind cstring)
  | .bool b => .bool b
  | .event r c => .event r c
  | .resolve f e => .resolve f e

/-- A text is asked for: the first `n` bytes of the fingerprint. Without memory there is none. -/
def tell (t : Option Bytes) (none' : Ec) (short mem : Bool) : Obs :=
  match t with
  | some t => .text .ok (if mem then some (t.take (2 * shown short)) else none)
  | none => .text none' none

def isVirt (s : S) (ref : Nat) : Bool :=
  match s.who ref with
  | some r => r.virt
  | none => false

def step (s : S) : Call → S × List Obs
  | .vnew m1 m2 m3 =>
    if m1 && m2 then
      let s' := { s with last := s.last + 1 }
      if m3 then (s'.set s'.last (some { virt := true }), [.event s'.last false, .made (some s'.last)])
      else (s', [.event s'.last false, .event s'.last true, .made none])
    else (s, [.made none])
  | .vfree ref => (s.set ref none, [.event ref true])
  | .vclose _ _ => (s, [])
  | .vset ref side text _ m2 =>
    match s.who ref with
    | none => (s, [])
    | some r =>
      if accepted side text then
        if m2 then (s.set ref (some (r.set side (some (canon text)))), [.ret .ok])
        else (s.set ref (some (r.set side none)), [.ret .outOfMemory])
      else (s, [.ret .invalidArgument])
  | .isVirtual ref => (s, [.bool (isVirt s ref)])
  | .isLocal ref => (s, [.bool (match s.who ref with | some r => r.loc | none => false)])
  | .cliFp ref short mem => (s, [tell ((s.who ref).bind (·.cli)) .invalidConnection short mem])
  | .devFp short mem => (s, [tell s.key .invalidState short mem])
  | .connDev ref mem =>
    match s.who ref with
    | some r => if r.virt then (s, [tell r.dev .invalidConnection false mem]) else (s, [tell s.key .invalidState false mem])
    | none => (s, [tell s.key .invalidState false mem])
  | .strFree => (s, [])
  | .key fp => ({ s with key := some (spell fp) }, [])
  | .client fp l =>
    let s' := { s with last := s.last + 1 }
    (s'.set s'.last (some { virt := false, cli := fp.map spell, loc := l }), [.event s'.last false])
  | .channel ref l =>
    match s.who ref with
    | some r => (s.set ref (some { r with loc := if r.virt then r.loc else l }), [])
    | none => (s, [])
  | .gone ref => (s.set ref none, [.event ref true])

def run (s : S) : List Call → S × List Obs
  | [] => (s, [])
  | c :: cs =>
    let r := step s c
    let r' := run r.1 cs
    (r'.1, r.2 ++ r'.2)

/-- What the application and the core do: handles are used while they are alive, fingerprints have 32 bytes. -/
def fine (s : S) : Call → Prop
  | .vfree ref => isVirt s ref
  | .vset ref _ text _ _ => isVirt s ref ∧ text.length < 2 ^ 64 - 1
  | .key fp => fp.length = 32
  | .client fp _ => ∀ x, fp = some x → x.length = 32
  | .gone ref => ∃ r, s.who ref = some r ∧ r.virt = false
  | _ => True

def Fine (s : S) : List Call → Prop
  | [] => True
  | c :: cs => fine s c ∧ Fine (step s c).1 cs

/-- The calls for which the library keeps its word: there is memory for the buffer of a text, and the fingerprint which was
set for the device at the end of a virtual connection is not asked for. -/
def good (s : S) : Call → Prop
  | .vset _ _ _ m1 _ => m1 = true
  | .connDev ref _ => ∀ r, s.who ref = some r → r.virt = true → r.dev = none
  | _ => True

def Good (s : S) : List Call → Prop
  | [] => True
  | c :: cs => good s c ∧ Good (step s c).1 cs

/-- Strings handed out. -/
def handed (outs : List Out) : Nat := outs.countP fun | .str _ (some _) => true | _ => false

/-- Strings given back. -/
def returned (cs : List Call) : Nat := cs.countP fun | .strFree => true | _ => false

/-- Calls which leave the fingerprint of this side of a connection alone. -/
def keeps (ref : Nat) (side : Side) : Call → Prop
  | .vfree r => r ≠ ref
  | .gone r => r ≠ ref
  | .vset r s _ _ _ => ¬ (r = ref ∧ s = side)
  | _ => True

/-- What a side of a connection shows. -/
def side (s : S) (ref : Nat) : Side → Option Bytes
  | .client => (s.who ref).bind (·.cli)
  | .device => (s.who ref).bind (·.dev)

end Verif.Api.ConnFp.Spec
