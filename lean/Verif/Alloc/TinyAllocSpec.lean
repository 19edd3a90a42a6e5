import Verif.Alloc.TinyAlloc

/-!
# What a memory allocator promises

Independent of the model: the promises are about the memory a program has been given.
-/

namespace Verif.TinyAlloc.Spec

/-- A piece of memory a program has been given and not yet returned: its address and the bytes in it. -/
structure Obj where
  ptr : Nat
  data : List Nat
deriving DecidableEq, Repr

/-- What a program does with the allocator and with its memory. -/
inductive Op where
  /-- `p = ta_alloc(n)` -/
  | alloc (n : Nat)
  /-- `p = ta_calloc(n, m)` -/
  | calloc (n m : Nat)
  /-- `ta_free(p)` -/
  | free (p : Nat)
  /-- `p[i] = v` -/
  | write (p i v : Nat)
  /-- `p[i]` -/
  | read (p i : Nat)
deriving DecidableEq, Repr

/-- What the program observes. -/
inductive Res where
  | ptr (p : Option Nat)
  | bool (b : Bool)
  | byte (v : Nat)
  | none
deriving DecidableEq, Repr

/-- The byte at index `i` of the object is changed, all other bytes and objects stay. -/
def store (p i v : Nat) (l : List Obj) : List Obj :=
  l.map fun o => if o.ptr = p then { o with data := o.data.set i v } else o

/-- The ideal memory: objects do not share bytes and keep what is written to them. -/
inductive Step : List Obj → Op → Res → List Obj → Prop
  | allocFail l n : Step l (.alloc n) (.ptr none) l
  | alloc l n p data : (∀ o ∈ l, o.ptr ≠ p) → data.length = n → Step l (.alloc n) (.ptr (some p)) (⟨p, data⟩ :: l)
  | callocFail l n m : Step l (.calloc n m) (.ptr none) l
  | calloc l n m p : (∀ o ∈ l, o.ptr ≠ p) →
      Step l (.calloc n m) (.ptr (some p)) (⟨p, List.replicate (n * m) 0⟩ :: l)
  | free l p : (∃ o ∈ l, o.ptr = p) → Step l (.free p) (.bool true) (l.filter (fun o => o.ptr ≠ p))
  | freeUnknown l p : (∀ o ∈ l, o.ptr ≠ p) → Step l (.free p) (.bool false) l
  | write l p i v : Step l (.write p i v) .none (store p i v l)
  | read l p i v : (∃ o ∈ l, o.ptr = p ∧ o.data[i]? = some v) → Step l (.read p i) (.byte v) l

/-- Steps of the ideal memory. -/
inductive Steps : List Obj → List Op → List Res → List Obj → Prop
  | nil l : Steps l [] [] l
  | cons {l op r l' ops rs l''} : Step l op r l' → Steps l' ops rs l'' → Steps l (op :: ops) (r :: rs) l''

/-- What a program may do when it owns these objects: ask for at least one byte and not for so much that sizes leave the
range of `size_t`, access only the bytes it asked for. Returning an unknown pointer is allowed. -/
def Allowed (limit align : Nat) (l : List Obj) : Op → Prop
  | .alloc n => 0 < n ∧ limit + n + align ≤ 2 ^ 64
  | .calloc n m => 0 < n * m ∧ limit + n * m + align ≤ 2 ^ 64
  | .free _ => True
  | .write p i _ => ∃ o ∈ l, o.ptr = p ∧ i < o.data.length
  | .read p i => ∃ o ∈ l, o.ptr = p ∧ i < o.data.length

/-- Two objects share a byte. -/
def Overlap (a b : Obj) : Prop :=
  ∃ x, (a.ptr ≤ x ∧ x < a.ptr + a.data.length) ∧ (b.ptr ≤ x ∧ x < b.ptr + b.data.length)

end Verif.TinyAlloc.Spec
