/-!
# The fixed memory allocator of the custom allocator example

Model of `3rdparty/tinyalloc/tinyalloc/tinyalloc.c`, compiled with compaction and
splitting (the defaults; `TA_DISABLE_COMPACT` and `TA_DISABLE_SPLIT` are not defined
anywhere in the repository).

Simplifications: the three linked lists of block descriptors are lists, hence a
descriptor is the pair it holds and the list of blank descriptors is its length. The
descriptors lie below the first address handed out (`ta_init` puts them between the
heap structure and `top`) and the model assumes nobody writes there. `size_t` has 64
bits and all arithmetic wraps as in C. Memory is a function from addresses to bytes.
-/

namespace Verif.TinyAlloc

/-- Number of values of `size_t`. -/
def W : Nat := 2 ^ 64

/-- Addition of `size_t` values. -/
def add (a b : Nat) : Nat := (a + b) % W

/-- Subtraction of `size_t` values. -/
def sub (a b : Nat) : Nat := (a + (W - b)) % W

/-- `struct Block` without `next`: tinyalloc.c 14-18. -/
structure Block where
  addr : Nat
  size : Nat
deriving DecidableEq, Repr

/-- The static variables set by `ta_init`: tinyalloc.c 28-31, 114-119; `first` is the
address after the block table, the initial `top` (124). -/
structure Cfg where
  first : Nat
  limit : Nat
  blocks : Nat
  thresh : Nat
  align : Nat
deriving DecidableEq, Repr

/-- `Heap`: tinyalloc.c 20-25. -/
structure Heap where
  free : List Block
  used : List Block
  fresh : Nat
  top : Nat
deriving DecidableEq, Repr

/-- `insert_block`: tinyalloc.c 39-66. -/
def insertBlock (b : Block) : List Block → List Block
  | [] => [b]
  | p :: l => if b.addr ≤ p.addr then b :: p :: l else p :: insertBlock b l

/-- The inner loop of `compact`: tinyalloc.c 90-96. The last block of the contiguous run,
the rest of the list and the number of blocks passed. -/
def run (prev : Block) : List Block → Block × List Block × Nat
  | [] => (prev, [], 0)
  | s :: l =>
    if add prev.addr prev.size = s.addr then ((run s l).1, (run s l).2.1, (run s l).2.2 + 1)
    else (prev, s :: l, 0)

/-- The outer loop of `compact`: tinyalloc.c 87-110. The number is the number of
descriptors released by `release_blocks` (69-81); the first argument bounds the number of
iterations, one iteration consumes at least one block. -/
def compactN : Nat → List Block → List Block × Nat
  | 0, l => (l, 0)
  | _ + 1, [] => ([], 0)
  | n + 1, ptr :: l =>
    let r := run ptr l
    let head := if r.2.2 = 0 then ptr
      else ⟨ptr.addr, add (sub r.1.addr ptr.addr) r.1.size⟩
    let t := compactN n r.2.1
    (head :: t.1, r.2.2 + t.2)

/-- `compact`: tinyalloc.c 83-111. -/
def compact (l : List Block) : List Block × Nat := compactN l.length l

/-- `insert_block(block); compact();` -/
def giveBack (h : Heap) (b : Block) : Heap :=
  let r := compact (insertBlock b h.free)
  { h with free := r.1, fresh := h.fresh + r.2 }

/-- `ta_init`: tinyalloc.c 114-134. -/
def init (c : Cfg) : Heap := ⟨[], [], c.blocks, c.first⟩

/-- The search of `ta_free`: tinyalloc.c 137-145, 152-154. -/
def unlink (p : Nat) : List Block → Option (Block × List Block)
  | [] => none
  | b :: l =>
    if p = b.addr then some (b, l)
    else match unlink p l with
      | none => none
      | some (x, r) => some (x, b :: r)

/-- `ta_free`: tinyalloc.c 136-156. -/
def taFree (h : Heap) (p : Nat) : Heap × Bool :=
  match unlink p h.used with
  | none => (h, false)
  | some (b, used) => (giveBack { h with used := used } b, true)

/-- The rounding of `alloc_block`: tinyalloc.c 162. -/
def roundUp (c : Cfg) (num : Nat) : Nat :=
  sub (add num c.align) 1 &&& sub 0 c.align

/-- `is_top`: tinyalloc.c 164. -/
def isTop (c : Cfg) (top num : Nat) (p : Block) : Bool :=
  decide (top ≤ add p.addr p.size) && decide (add p.addr num ≤ c.limit)

/-- The search of `alloc_block`: tinyalloc.c 163-170, 197-199. -/
def pick (c : Cfg) (top num : Nat) : List Block → Option (Block × List Block)
  | [] => none
  | p :: l =>
    if isTop c top num p || decide (num ≤ p.size) then some (p, l)
    else match pick c top num l with
      | none => none
      | some (x, r) => some (x, p :: r)

/-- A block of the free list is used: tinyalloc.c 171-195. -/
def takeFree (c : Cfg) (h : Heap) (num : Nat) (p : Block) (free : List Block) : Heap × Nat :=
  if isTop c h.top num p then
    ({ h with free := free, used := ⟨p.addr, num⟩ :: h.used, top := add p.addr num }, p.addr)
  else if h.fresh ≠ 0 ∧ c.thresh ≤ sub p.size num then
    (giveBack
      { h with
        free := free
        used := ⟨p.addr, num⟩ :: h.used
        fresh := h.fresh - 1 }
      ⟨add p.addr num, sub p.size num⟩, p.addr)
  else ({ h with free := free, used := p :: h.used }, p.addr)

/-- A block above all others is made: tinyalloc.c 202-213. -/
def takeTop (c : Cfg) (h : Heap) (num : Nat) : Option (Heap × Nat) :=
  if h.fresh ≠ 0 ∧ add h.top num ≤ c.limit then
    some ({ h with
      fresh := h.fresh - 1
      used := ⟨h.top, num⟩ :: h.used
      top := add h.top num }, h.top)
  else none

/-- `alloc_block`, `ta_alloc`: tinyalloc.c 158-222. -/
def taAlloc (c : Cfg) (h : Heap) (n : Nat) : Option (Heap × Nat) :=
  let num := roundUp c n
  match pick c h.top num h.free with
  | some (p, free) => some (takeFree c h num p free)
  | none => takeTop c h num

/-- Memory. -/
abbrev Mem := Nat → Nat

/-- A byte is written. -/
def put (m : Mem) (a v : Nat) : Mem := fun x => if x = a then v else m x

/-- The byte loop of `memclear`: tinyalloc.c 230-234. -/
def clearBytes (m : Mem) (p : Nat) : Nat → Mem
  | 0 => m
  | n + 1 => clearBytes (put m p 0) (add p 1) n

/-- The word loop of `memclear`: tinyalloc.c 225-229. -/
def clearWords (m : Mem) (p : Nat) : Nat → Mem × Nat
  | 0 => (m, p)
  | n + 1 => clearWords (clearBytes m p 8) (add p 8) n

/-- `memclear`: tinyalloc.c 224-235. -/
def memclear (m : Mem) (p num : Nat) : Mem :=
  let r := clearWords m p ((num &&& sub 0 8) / 8)
  clearBytes r.1 r.2 (num &&& 7)

/-- `ta_calloc`: tinyalloc.c 237-245. -/
def taCalloc (c : Cfg) (h : Heap) (m : Mem) (num size : Nat) : Option (Heap × Mem × Nat) :=
  let n := num * size % W
  match taAlloc c h n with
  | none => none
  | some (h', p) => some (h', memclear m p n, p)

/-- `ta_num_free`, `ta_num_used`, `ta_num_fresh`, `ta_check`: tinyalloc.c 247-270. -/
def taCheck (c : Cfg) (h : Heap) : Bool := c.blocks = h.free.length + h.used.length + h.fresh

end Verif.TinyAlloc
