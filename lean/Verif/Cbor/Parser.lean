import Verif.Cbor.Item

/-!
# tinycbor parser — model

Transcription of `/repo/3rdparty/tinycbor/tinycbor_src/src/cborparser.c`, of the byte access functions in
`cborinternal_p.h` and of the inline functions in `include/tinycbor/cbor.h`, for a buffer in memory (no
`CborParserFlag_ExternalSource`) and a 64 bit `size_t`.

Undefined behaviour is the result `R.ub`: a read or a pointer outside of the buffer, and a failed `assert` or
`cbor_assert` (which aborts, or is `__builtin_unreachable` in a release build, `compilersupport_p.h:61-65`). Loops take
fuel; running out of fuel is `R.ub` too. A function which reports an error leaves its `CborValue` in an unspecified
state, so the state is not a part of the result `R.err`.
-/

namespace Verif.Cbor

inductive Err
  | eof | unknownType | illegalNumber | unexpectedBreak | illegalSimple | illegalType | pastEOF | tooDeep | tooLarge
  | noMoreChunks | oom | unknownLength
  deriving DecidableEq, Repr

inductive R (α : Type)
  | ok (a : α)
  | err (e : Err)
  | ub
  deriving DecidableEq, Repr

@[simp] def R.bind {α β} (x : R α) (f : α → R β) : R β :=
  match x with
  | .ok a => f a
  | .err e => .err e
  | .ub => .ub

instance : Monad R where
  pure := R.ok
  bind := R.bind

/-- `CborType`. -/
inductive Ty
  | int | bytes | text | arr | map | tag | simple | bool | null | undef | half | float | double | invalid
  deriving DecidableEq, Repr

/-- `struct CborValue`. The pointer is the list of bytes from it to the end of the buffer. `bit4` is the flag 0x04, which is
`CborIteratorFlag_NegativeInteger` and `CborIteratorFlag_BeforeFirstStringChunk`. -/
structure Value where
  rest : Bytes
  remaining : Nat
  extra : Nat
  type : Ty
  is64 : Bool
  large : Bool
  bit4 : Bool
  unknown : Bool
  isMap : Bool
  nextIsKey : Bool
  deriving DecidableEq, Repr

/-- `UINT32_MAX`. -/
def u32max : Nat := 4294967295

/-- `advance_bytes`, `cborinternal_p.h:192-206`: the pointer must stay inside of the buffer. -/
def Value.skip (it : Value) (n : Nat) : R Value :=
  if n ≤ it.rest.length then .ok { it with rest := it.rest.drop n } else .ub

/-- `can_read_bytes`, `cborinternal_p.h:174-190`. -/
def Value.canRead (it : Value) (n : Nat) : Bool := n ≤ it.rest.length

/-- `read_bytes_unchecked`, `cborinternal_p.h:229-242`. -/
def Value.read (it : Value) (offset n : Nat) : R Bytes :=
  if offset + n ≤ it.rest.length then .ok ((it.rest.drop offset).take n) else .ub

/-- The number of bytes after the descriptor, for example `cborparser.c:155` and `196`. -/
def numBytes (d : Nat) : Nat := if d < 24 then 0 else 2 ^ (d - 24)

/-- `descriptor & MajorTypeMask` as a type. -/
def tyOf (b : UInt8) : Ty :=
  if b < 0x40 then .int else if b < 0x60 then .bytes else if b < 0x80 then .text else if b < 0xa0 then .arr
  else if b < 0xc0 then .map else if b < 0xe0 then .tag else .simple

/-- `descriptor & SmallValueMask`. -/
def small (b : UInt8) : Nat := b.toNat % 32

/-- `is_fixed_type`, `cborparser.c:161-165`. -/
def isFixed (t : Ty) : Bool := t ≠ .text ∧ t ≠ .bytes ∧ t ≠ .arr ∧ t ≠ .map

/-- `cbor_value_is_container`, `cbor.h:363-364`. -/
def isContainer (t : Ty) : Bool := t = .arr ∨ t = .map

/-- The simple types, `cborparser.c:225-259`, of a value which has been read up to there. -/
def preparseSimple (it : Value) (d : Nat) : R Value :=
  if d = 20 then .ok { it with extra := 0, type := .bool }
  else if d = 21 then .ok { it with type := .bool }
  else if d = 22 then .ok { it with type := .null }
  else if d = 23 then .ok { it with type := .undef }
  else if d = 24 then if it.extra < 32 then .err .illegalSimple else .ok it
  else if d = 25 then .ok { it with type := .half }
  else if d = 26 then .ok { it with large := true, type := .float }
  else if d = 27 then .ok { it with large := true, type := .double }
  else .ok it

/-- The bytes after the descriptor, `cborparser.c:198-219`. -/
def readExtra (it : Value) (d : Nat) : R Value :=
  if numBytes d = 0 then .ok it
  else if numBytes d = 1 ∨ numBytes d = 2 then do
    let x ← it.read 1 (numBytes d)
    pure { it with extra := beNat x }
  else .ok { it with extra := 0, is64 := d = 27, large := true }

/-- The type, `cborparser.c:221-259`. -/
def classify (it : Value) (b : UInt8) : R Value :=
  if 0x20 ≤ b ∧ b < 0x40 then .ok { it with bit4 := true }
  else if tyOf b = .simple then preparseSimple it (small b)
  else .ok it

/-- The value before its descriptor is looked at, `cborparser.c:175-184`. -/
def fresh (it : Value) (b : UInt8) : Value :=
  { it with type := tyOf b, extra := small b, is64 := false, large := false, bit4 := false, unknown := false }

/-- `preparse_value`, `cborparser.c:167-262`. -/
def preparse (it : Value) : R Value :=
  match it.rest with
  | [] => .err .eof
  | b :: _ =>
    if small b > 27 then
      if small b ≠ 31 then .err (if tyOf b = .simple then .unknownType else .illegalNumber)
      else if isFixed (tyOf b) then .err (if tyOf b = .simple then .unexpectedBreak else .illegalNumber)
      else .ok { fresh it b with unknown := true }
    else if numBytes (small b) ≠ 0 ∧ !it.canRead (numBytes (small b) + 1) then .err .eof
    else do classify (← readExtra (fresh it b) (small b)) b

/-- `preparse_next_value_nodecrement`, `cborparser.c:264-281`. -/
def nextNoDec (it : Value) : R Value :=
  if it.remaining = u32max ∧ it.rest.head? = some 0xff then
    if (it.isMap ∧ it.nextIsKey) ∨ it.type = .tag then .err .unexpectedBreak
    else .ok { it with type := .invalid, remaining := 0, unknown := true }
  else preparse it

/-- `preparse_next_value`, `cborparser.c:283-301`. -/
def next (it : Value) : R Value :=
  if it.type = .tag then nextNoDec it
  else if it.remaining ≠ u32max then
    if (it.remaining + u32max) % (u32max + 1) = 0 then .ok { it with remaining := 0, type := .invalid, unknown := false }
    else nextNoDec { it with remaining := (it.remaining + u32max) % (u32max + 1), nextIsKey := !it.nextIsKey }
  else nextNoDec { it with nextIsKey := !it.nextIsKey }

/-- `_cbor_value_extract_int64_helper`, `cbor.h:369-373`, with `_cbor_value_decode_int64_internal`,
`cborparser.c:326-334`. -/
def Value.num (it : Value) : R Nat :=
  if it.large then do pure (beNat (← it.read 1 (if it.is64 then 8 else 4))) else .ok it.extra

/-- `extract_number_and_advance`, `cborparser.c:145-159`. -/
def numAdvance (it : Value) : R (Nat × Value) := do
  let v ← it.num
  match it.rest with
  | [] => .ub
  | b :: _ =>
    let it ← it.skip (numBytes (small b) + 1)
    pure (v, it)

/-- `advance_internal`, `cborparser.c:303-314`. -/
def advanceInternal (it : Value) : R Value := do
  let (len, it) ← numAdvance it
  if it.type = .bytes ∨ it.type = .text then
    if it.unknown then .ub
    else do next (← it.skip len)
  else next it

/-- `cbor_value_advance_fixed`, `cborparser.c:466-473`. -/
def advanceFixed (it : Value) : R Value :=
  if it.type = .invalid ∨ !isFixed it.type then .ub
  else if it.remaining = 0 then .err .pastEOF
  else advanceInternal it

/-- `get_string_chunk_size`, `cborparser.c:993-1043`: the offset of the chunk's data and its length. -/
def chunkSize (it : Value) : R (Nat × Nat) :=
  if !it.unknown ∧ !it.bit4 then .err .noMoreChunks
  else match it.rest with
    | [] => .err .eof
    | b :: _ =>
      if b = 0xff then .err .noMoreChunks
      else if tyOf b ≠ it.type then .err .illegalType
      else if small b < 24 then .ok (1, small b)
      else if small b > 27 then .err .illegalNumber
      else if !it.canRead (1 + numBytes (small b)) then .err .eof
      else do pure (1 + numBytes (small b), beNat (← it.read 1 (numBytes (small b))))

/-- `get_string_chunk`, `cborparser.c:1051-1066`, with `transfer_string`, `cborinternal_p.h:208-227`. -/
def chunk (it : Value) : R (Bytes × Value) := do
  let (offset, len) ← chunkSize it
  let it ← it.skip offset
  if it.canRead len then do
    let c ← it.read 0 len
    let it ← it.skip len
    pure (c, { it with bit4 := false })
  else .err .eof

/-- `_cbor_value_begin_string_iteration`, `cborparser.c:972-983`. -/
def beginString (it : Value) : R Value :=
  let it := { it with bit4 := true }
  if it.unknown then it.skip 1 else .ok it

/-- `_cbor_value_finish_string_iteration`, `cborparser.c:985-991`. -/
def finishString (it : Value) : R Value := do
  let it ← if it.unknown then it.skip 1 else pure it
  next it

/-- The loop of `iterate_string_chunks`, `cborparser.c:1202-1219`: the chunks, and the result of `func`, which is called
with the offset and the chunk. -/
def chunkLoop (func : Nat → Bytes → R Bool) (buflen : Nat) : Nat → Value → Bool → Bytes → R (Bool × Bytes × Value)
  | 0, _, _, _ => .ub
  | n + 1, it, res, acc =>
    match chunk it with
    | .err .noMoreChunks => .ok (res, acc, it)
    | .err e => .err e
    | .ub => .ub
    | .ok (c, it) => do
      let res ← if res ∧ acc.length + c.length ≤ buflen then func acc.length c else pure false
      chunkLoop func buflen n it res (acc ++ c)

/-- `iterate_string_chunks`, `cborparser.c:1183-1228`: the result of `func`, the string and the next value. -/
def iterate (func : Nat → Bytes → R Bool) (buflen : Nat) (it : Value) : R (Bool × Bytes × Value) :=
  if it.type ≠ .bytes ∧ it.type ≠ .text then .ub
  else do
    let it ← beginString it
    let (res, s, it) ← chunkLoop func buflen (it.rest.length + 2) it true []
    let res ← if res ∧ buflen > s.length then func s.length [0] else pure res
    let it ← finishString it
    pure (res, s, it)

/-- `iterate_memcpy`, `cborparser.c:1178-1181`, to a buffer of some size. -/
def memcpyTo (size : Nat) (offset : Nat) (c : Bytes) : R Bool := if offset + c.length ≤ size then .ok true else .ub

/-- `iterate_memcmp`, `cborparser.c:1173-1176`, with a C string. -/
def memcmpTo (s : Bytes) (offset : Nat) (c : Bytes) : R Bool :=
  if offset + c.length ≤ s.length + 1 then .ok (((s ++ [0]).drop offset).take c.length = c) else .ub

/-- `_cbor_value_copy_string`, `cborparser.c:1298-1306`, with a buffer of the size `size`, of which the function is told
that it has `buflen` bytes: the string and the next value. -/
def copyString (size buflen : Nat) (it : Value) : R (Bytes × Value) := do
  let (res, s, it) ← iterate (memcpyTo size) buflen it
  if res then pure (s, it) else .err .oom

/-- `_cbor_value_copy_string` without a buffer (`iterate_noop`) and with `buflen = SIZE_MAX`. -/
def skipString (it : Value) : R (Bytes × Value) := do
  let (_, s, it) ← iterate (fun _ _ => .ok true) (2 ^ 64) it
  pure (s, it)

/-- `cbor_value_calculate_string_length`, `cborparser.c:966-970`. -/
def calcLength (it : Value) : R Nat := do pure (← skipString it).1.length

/-- `cbor_value_get_string_length`, `cbor.h:469-480`. -/
def stringLength (it : Value) : R Nat :=
  if it.type ≠ .bytes ∧ it.type ≠ .text then .ub
  else if it.unknown then .err .unknownLength
  else it.num

/-- `cbor_value_copy_text_string`, `cbor.h:489-494`. -/
def copyText (size buflen : Nat) (it : Value) : R Bytes :=
  if it.type ≠ .text then .ub else do pure (← copyString size buflen it).1

/-- `cbor_value_copy_byte_string`, `cbor.h:495-500`. -/
def copyBytes (size buflen : Nat) (it : Value) : R Bytes :=
  if it.type ≠ .bytes then .ub else do pure (← copyString size buflen it).1

/-- The length of a container, `cborparser.c:591-612`. -/
def enterKnown (it : Value) : R Value := do
  let (len, rec) ← numAdvance it
  if len ≥ u32max then .err .tooLarge
  else if rec.type = .map ∧ len > u32max / 2 then .err .tooLarge
  else pure { rec with remaining := if rec.type = .map then 2 * len else len }

/-- `cbor_value_enter_container`, `cborparser.c:581-616`. -/
def enter (it : Value) : R Value :=
  if !isContainer it.type then .ub
  else do
    let rec ← if it.unknown then (Value.skip { it with remaining := u32max } 1) else enterKnown it
    if rec.remaining = 0 then pure { rec with type := .invalid }
    else nextNoDec { rec with isMap := rec.type = .map, nextIsKey := false, unknown := false, large := false, is64 := false
                              bit4 := false }

/-- `cbor_value_leave_container`, `cborparser.c:630-639`. -/
def leave (it rec : Value) : R Value :=
  if !isContainer it.type ∨ rec.type ≠ .invalid then .ub
  else do
    let it := { it with rest := rec.rest }
    let it ← if rec.unknown then it.skip 1 else pure it
    next it

/-- The loop of `advance_recursive`, `cborparser.c:495-499`. -/
def elemLoop (step : Value → R Value) : Nat → Value → R Value
  | 0, _ => .ub
  | n + 1, it => if it.remaining = 0 then .ok it else do elemLoop step n (← step it)

/-- `advance_recursive`, `cborparser.c:475-501`. -/
def advRec : Nat → Value → R Value
  | 0, it =>
    if isFixed it.type then advanceInternal it
    else if !isContainer it.type then do pure (← skipString it).2
    else .err .tooDeep
  | n + 1, it =>
    if isFixed it.type then advanceInternal it
    else if !isContainer it.type then do pure (← skipString it).2
    else do
      let rec ← enter it
      let rec ← elemLoop (advRec n) (rec.rest.length + 1) rec
      leave it rec

/-- `CBOR_PARSER_MAX_RECURSIONS`, `cborinternal_p.h:105-107`. -/
def maxRecursions : Nat := 1024

/-- `cbor_value_advance`, `cborparser.c:518-524`. -/
def advance (it : Value) : R Value :=
  if it.type = .invalid then .ub
  else if it.remaining = 0 then .err .pastEOF
  else advRec maxRecursions it

/-- `cbor_value_skip_tag`, `cborparser.c:554-562`. -/
def skipTags : Nat → Value → R Value
  | 0, _ => .ub
  | n + 1, it => if it.type = .tag then do skipTags n (← advanceFixed it) else .ok it

/-- `cbor_value_skip_tag`. -/
def skipTag (it : Value) : R Value := skipTags (it.rest.length + 1) it

/-- The rest of an iteration in `cbor_value_map_find_value`: skip the value, `cborparser.c:1444-1450`. -/
def findSkip (it : Value) : R Value := do advance (← skipTag it)

/-- The value of a key, `cborparser.c:1436`. An error is returned without making the element invalid, so callers which ignore
errors would use a broken element: this is counted as undefined. -/
def findHit (it : Value) : R (Option Value) :=
  match preparse it with
  | .ok v => .ok (some v)
  | _ => .ub

/-- The loop of `cbor_value_map_find_value`, `cborparser.c:1423-1451`. The value is `none` when the key is not there. -/
def findLoop (s : Bytes) : Nat → Value → R (Option Value)
  | 0, _ => .ub
  | n + 1, it =>
    if it.remaining = 0 then .ok none
    else do
      let it ← skipTag it
      if it.type = .text then
        let (equals, _, it) ← iterate (memcmpTo s) s.length it
        if equals then findHit it
        else findLoop s n (← findSkip it)
      else findLoop s n (← findSkip (← advance it))

/-- The value of a key which is not in the map, or after an error: only the type is specified. -/
def Value.none : Value :=
  { rest := [], remaining := 0, extra := 0, type := .invalid, is64 := false, large := false, bit4 := false
    unknown := false, isMap := false, nextIsKey := false }

/-- `cbor_value_map_find_value`, `cborparser.c:1414-1460`. -/
def find (map : Value) (s : Bytes) : R Value :=
  if map.type ≠ .map then .ub
  else do
    let it ← enter map
    match ← findLoop s (it.rest.length + 1) it with
    | some v => pure v
    | none => pure Value.none

/-- A caller which ignores the error of `cbor_value_map_find_value`. -/
def findIgnore (map : Value) (s : Bytes) : R Value :=
  match find map s with
  | .err _ => .ok Value.none
  | r => r

/-- `cbor_parser_init`, `cborparser.c:346-356`. -/
def parserInit (buffer : Bytes) : R Value :=
  preparse { Value.none with rest := buffer, remaining := 1 }

/-- `cbor_value_get_boolean`, `cbor.h:389-394`. -/
def getBool (it : Value) : R Bool := if it.type ≠ .bool then .ub else .ok (it.extra ≠ 0)

/-- `cbor_value_is_unsigned_integer`, `cbor.h:409-410`. -/
def isUint (it : Value) : Bool := it.type = .int ∧ !it.bit4

/-- `cbor_value_get_uint64`, `cbor.h:421-426`. -/
def getUint64 (it : Value) : R Nat := if !isUint it then .ub else it.num

/-- The value of an unsigned number converted to a 32 bit `int`. -/
def toInt (n : Nat) : Int := if n % 2 ^ 32 < 2 ^ 31 then (n % 2 ^ 32 : Nat) else (n % 2 ^ 32 : Nat) - 2 ^ 32

/-- `cbor_value_get_int`, `cbor.h:437-444`: negating `INT_MIN` is undefined. -/
def getInt (it : Value) : R Int :=
  if it.type ≠ .int then .ub
  else do
    let v ← it.num
    if it.bit4 then if toInt v = -2 ^ 31 then .ub else pure (-(toInt v) - 1)
    else pure (toInt v)

end Verif.Cbor
