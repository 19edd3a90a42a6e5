/-!
# cJSON

Model of the parts of `3rdparty/cjson/cjson/cJSON.c` (version 1.7.15) which the IAM module uses: printing without
formatting and parsing of text, and the lookup functions.

A text is a list of bytes without its terminating zero. Reading past the terminating zero and writing past the end of
an allocated string are the outcome `ub`.

Simplifications:

* A number is its `valueint`. `strtod` is a parameter; `%d` is modelled for the numbers which the IAM module prints.
  Numbers with a fraction are never printed.
* Allocations in the parser and the printer succeed. The growing output buffer of the printer is not modelled.
* `type` flags for references and constant keys, raw items and the formatted output are left out.
-/

namespace Verif.Json

/-- A `cJSON` item, `cJSON.h:101-122`, with the list of its children. The strings have the type `σ`: bytes for texts. -/
inductive Json (σ : Type)
  | null
  | bool (b : Bool)
  | num (i : Int)
  | str (s : σ)
  | arr (l : List (Json σ))
  | obj (l : List (σ × Json σ))

/-- Result of a function which can fail or run into undefined behaviour. -/
inductive R (α : Type) | ok (a : α) | fail | ub
  deriving DecidableEq, Repr

/-- What follows a success. -/
def R.bind {α β} (r : R α) (f : α → R β) : R β :=
  match r with
  | .ok a => f a
  | .fail => .fail
  | .ub => .ub

abbrev Bytes := List UInt8

/-! ## Printing -/

/-- The lower case hexadecimal digit of a number below 16. -/
def hexDigit (n : UInt8) : UInt8 := if n < 10 then 48 + n else 87 + n

/-- One byte of a string, `print_string_ptr`, `cJSON.c:977-1015`; `u%04x` of a byte. -/
def escape (c : UInt8) : Bytes :=
  if c > 31 ∧ c ≠ 34 ∧ c ≠ 92 then [c]
  else if c = 92 then [92, 92]
  else if c = 34 then [92, 34]
  else if c = 8 then [92, 98]
  else if c = 12 then [92, 102]
  else if c = 10 then [92, 110]
  else if c = 13 then [92, 114]
  else if c = 9 then [92, 116]
  else [92, 117, 48, 48, hexDigit (c / 16), hexDigit (c % 16)]

/-- `print_string_ptr`, `cJSON.c:902-1021`. The case without escapes is the same. -/
def printString (s : Bytes) : Bytes := 34 :: s.flatMap escape ++ [34]

/-- The decimal digits of a number. -/
def digits (n : Nat) : Bytes :=
  if n < 10 then [48 + UInt8.ofNat n] else digits (n / 10) ++ [48 + UInt8.ofNat (n % 10)]
termination_by n

/-- `%d` in `print_number`, `cJSON.c:565-568`. -/
def printInt (i : Int) : Bytes := if i < 0 then 45 :: digits i.natAbs else digits i.natAbs

mutual

/-- `print_value`, `cJSON.c:1367-1438`. -/
def print : Json Bytes → Bytes
  | .null => [110, 117, 108, 108]
  | .bool false => [102, 97, 108, 115, 101]
  | .bool true => [116, 114, 117, 101]
  | .num i => printInt i
  | .str s => printString s
  | .arr l => 91 :: printElems l ++ [93]
  | .obj l => 123 :: printMembers l ++ [125]

/-- The loop of `print_array`, `cJSON.c:1562-1586`. -/
def printElems : List (Json Bytes) → Bytes
  | [] => []
  | [x] => print x
  | x :: y :: l => print x ++ 44 :: printElems (y :: l)

/-- The loop of `print_object`, `cJSON.c:1741-1805`. -/
def printMembers : List (Bytes × Json Bytes) → Bytes
  | [] => []
  | [(k, x)] => printString k ++ 58 :: print x
  | (k, x) :: y :: l => printString k ++ 58 :: print x ++ 44 :: printMembers (y :: l)

end

/-! ## Parsing -/

/-- `strtod` with the conversion of the result to `int` in `parse_number`: the number of bytes read and the value. -/
structure Strtod where
  run : Bytes → Nat × Int
  /-- it reads no more than there is -/
  le : ∀ cs, (run cs).1 ≤ cs.length
  /-- it reads what `%d` prints -/
  dec : ∀ i : Int, -2147483648 ≤ i → i ≤ 2147483647 → run (printInt i) = ((printInt i).length, i)

/-- The bytes of a number, `parse_number`, `cJSON.c:323-352`. -/
def isNumber (c : UInt8) : Bool := (48 ≤ c && c ≤ 57) || c == 43 || c == 45 || c == 101 || c == 69 || c == 46

/-- `parse_number`, `cJSON.c:305-379`. -/
def parseNumber (S : Strtod) (l : Bytes) : R (Int × Bytes) :=
  let r := S.run ((l.take 63).takeWhile isNumber)
  if r.1 = 0 then .fail else .ok (r.2, l.drop r.1)

/-- One digit in `parse_hex4`, `cJSON.c:623-638`. -/
def hexValue (c : UInt8) : Option Nat :=
  if 48 ≤ c ∧ c ≤ 57 then some (c.toNat - 48)
  else if 65 ≤ c ∧ c ≤ 70 then some (c.toNat - 55)
  else if 97 ≤ c ∧ c ≤ 102 then some (c.toNat - 87)
  else none

/-- `parse_hex4`, `cJSON.c:615-648`: 0 if a digit is invalid. -/
def hex4 (a b c d : UInt8) : Nat :=
  match hexValue a, hexValue b, hexValue c, hexValue d with
  | some a, some b, some c, some d => a * 4096 + b * 256 + c * 16 + d
  | _, _, _, _ => 0

/-- The encoding of a code point, `utf16_literal_to_utf8`, `cJSON.c:718-764`. -/
def utf8 (n : Nat) : Bytes :=
  if n < 0x80 then [UInt8.ofNat n]
  else if n < 0x800 then [UInt8.ofNat (0xC0 + n / 0x40), UInt8.ofNat (0x80 + n % 0x40)]
  else if n < 0x10000 then
    [UInt8.ofNat (0xE0 + n / 0x1000), UInt8.ofNat (0x80 + n / 0x40 % 0x40), UInt8.ofNat (0x80 + n % 0x40)]
  else
    [UInt8.ofNat (0xF0 + n / 0x40000), UInt8.ofNat (0x80 + n / 0x1000 % 0x40), UInt8.ofNat (0x80 + n / 0x40 % 0x40),
      UInt8.ofNat (0x80 + n % 0x40)]

/-- `utf16_literal_to_utf8`, `cJSON.c:652-770`, for the input after `\u`: the bytes of the code point and the remaining
input. -/
def utf16 : Bytes → Option (Bytes × Bytes)
  | a :: b :: c :: d :: l =>
    if 0xDC00 ≤ hex4 a b c d ∧ hex4 a b c d ≤ 0xDFFF then none
    else if 0xD800 ≤ hex4 a b c d ∧ hex4 a b c d ≤ 0xDBFF then
      match l with
      | s :: u :: e :: f :: g :: h :: l =>
        if s ≠ 92 ∨ u ≠ 117 then none
        else if hex4 e f g h < 0xDC00 ∨ 0xDFFF < hex4 e f g h then none
        else some (utf8 (0x10000 + (hex4 a b c d % 0x400) * 0x400 + hex4 e f g h % 0x400), l)
      | _ => none
    else some (utf8 (hex4 a b c d), l)
  | _ => none

theorem utf16_length {l b r} (h : utf16 l = some (b, r)) : r.length < l.length := by
  unfold utf16 at h
  split at h
  · split at h
    · cases h
    · split at h
      · split at h
        · split at h
          · cases h
          · split at h
            · cases h
            · cases h; simp only [List.length_cons]; omega
        · cases h
      · cases h; simp only [List.length_cons]; omega
  · cases h

/-- The escape sequences of two bytes, `parse_string`, `cJSON.c:836-857`. -/
def unescape (c : UInt8) : Option UInt8 :=
  if c = 98 then some 8
  else if c = 102 then some 12
  else if c = 110 then some 10
  else if c = 114 then some 13
  else if c = 116 then some 9
  else if c = 34 ∨ c = 92 ∨ c = 47 then some c
  else none

/-- The second loop of `parse_string`, `cJSON.c:821-874`, on the bytes between the quotes. A backslash can be the last
of them after a `\u` which swallowed the backslash before it; then the code reads the closing quote. -/
def decode (l : Bytes) : Option Bytes :=
  match l with
  | [] => some []
  | c :: l =>
    if c ≠ 92 then (decode l).map (c :: ·)
    else match l with
      | [] => some [34]
      | e :: l =>
        if e = 117 then
          match h : utf16 l with
          | none => none
          | some (b, r) => (decode r).map (b ++ ·)
        else match unescape e with
          | none => none
          | some x => (decode l).map (x :: ·)
termination_by l.length
decreasing_by
  · simp
  · have := utf16_length h; simp only [List.length_cons]; omega
  · simp only [List.length_cons]; omega

/-- The first loop of `parse_string`, `cJSON.c:790-808`: the bytes up to the closing quote, the number of skipped
bytes, and the input after the quote. -/
def scan : Bytes → Option (Bytes × Nat × Bytes)
  | [] => none
  | c :: l =>
    if c = 34 then some ([], 0, l)
    else if c = 92 then
      match l with
      | [] => none
      | e :: l => (scan l).map (fun r => (92 :: e :: r.1, r.2.1 + 1, r.2.2))
    else (scan l).map (fun r => (c :: r.1, r.2.1, r.2.2))

/-- `parse_string`, `cJSON.c:773-899`: the C string and the remaining input. `allocation_length + 1` bytes are
allocated. -/
def parseString : Bytes → R (Bytes × Bytes)
  | [] => .ub
  | c :: l =>
    if c ≠ 34 then .fail
    else match scan l with
      | none => .fail
      | some (content, skipped, rest) =>
        match decode content with
        | none => .fail
        | some out =>
          if content.length + 1 - skipped + 1 < out.length + 1 then .ub
          else .ok (out.takeWhile (· ≠ 0), rest)

/-- `buffer_skip_whitespace`, `cJSON.c:1038-1061`: the last byte is not skipped. -/
def skipWs (l : Bytes) : Bytes :=
  match l with
  | [] => []
  | [c] => [c]
  | c :: l => if c ≤ 32 then skipWs l else c :: l

/-- `strncmp` with a constant at the current position, `cJSON.c:1321`. -/
def starts (p l : Bytes) : Bool := l.take p.length == p

mutual

/-- `parse_value`, `cJSON.c:1312-1364`. The first argument bounds the recursion (`C70_parse_total` shows that it does not
matter), `d` is the depth. -/
def parseValue (S : Strtod) : Nat → Nat → Bytes → R (Json Bytes × Bytes)
  | 0, _, _ => .fail
  | n + 1, d, l =>
    if starts [110, 117, 108, 108] l then .ok (.null, l.drop 4)
    else if starts [102, 97, 108, 115, 101] l then .ok (.bool false, l.drop 5)
    else if starts [116, 114, 117, 101] l then .ok (.bool true, l.drop 4)
    else match l with
      | [] => .fail
      | c :: r =>
        if c = 34 then (parseString (c :: r)).bind (fun x => .ok (.str x.1, x.2))
        else if c = 45 ∨ (48 ≤ c ∧ c ≤ 57) then (parseNumber S (c :: r)).bind (fun x => .ok (.num x.1, x.2))
        else if c = 91 then parseArray S n d r
        else if c = 123 then parseObject S n d r
        else .fail

/-- `parse_array`, `cJSON.c:1441-1536`, after the opening bracket. -/
def parseArray (S : Strtod) : Nat → Nat → Bytes → R (Json Bytes × Bytes)
  | 0, _, _ => .fail
  | n + 1, d, l =>
    if d ≥ 1000 then .fail
    else match skipWs l with
      | [] => .fail
      | c :: r =>
        if c = 93 then .ok (.arr [], r)
        else (parseElems S n (d + 1) (c :: r)).bind (fun x => .ok (.arr x.1, x.2))

/-- The loop of `parse_array`, `cJSON.c:1476-1513`. -/
def parseElems (S : Strtod) : Nat → Nat → Bytes → R (List (Json Bytes) × Bytes)
  | 0, _, _ => .fail
  | n + 1, d, l =>
    (parseValue S n d (skipWs l)).bind (fun x =>
      match skipWs x.2 with
      | [] => .fail
      | c :: r =>
        if c = 44 then (parseElems S n d r).bind (fun y => .ok (x.1 :: y.1, y.2))
        else if c = 93 then .ok ([x.1], r)
        else .fail)

/-- `parse_object`, `cJSON.c:1601-1711`, after the opening brace. -/
def parseObject (S : Strtod) : Nat → Nat → Bytes → R (Json Bytes × Bytes)
  | 0, _, _ => .fail
  | n + 1, d, l =>
    if d ≥ 1000 then .fail
    else match skipWs l with
      | [] => .fail
      | c :: r =>
        if c = 125 then .ok (.obj [], r)
        else (parseMembers S n (d + 1) (c :: r)).bind (fun x => .ok (.obj x.1, x.2))

/-- The loop of `parse_object`, `cJSON.c:1634-1689`. -/
def parseMembers (S : Strtod) : Nat → Nat → Bytes → R (List (Bytes × Json Bytes) × Bytes)
  | 0, _, _ => .fail
  | n + 1, d, l =>
    (parseString (skipWs l)).bind (fun k =>
      match skipWs k.2 with
      | [] => .fail
      | c :: r =>
        if c ≠ 58 then .fail
        else (parseValue S n d (skipWs r)).bind (fun x =>
          match skipWs x.2 with
          | [] => .fail
          | c :: r =>
            if c = 44 then (parseMembers S n d r).bind (fun y => .ok ((k.1, x.1) :: y.1, y.2))
            else if c = 125 then .ok ([(k.1, x.1)], r)
            else .fail))

end

/-- `skip_utf8_bom`, `cJSON.c:1064-1077`. -/
def skipBom (l : Bytes) : Bytes := if 4 < l.length ∧ starts [0xEF, 0xBB, 0xBF] l then l.drop 3 else l

/-- `cJSON_Parse`, `cJSON.c:1175-1178`, `cJSON_ParseWithLengthOpts`, 1095-1172, of a text: what follows the value is
ignored. -/
def parse (S : Strtod) (text : Bytes) : R (Json Bytes) :=
  (parseValue S (3 * text.length + 6) 0 (skipWs (skipBom (text ++ [0])))).bind (fun x => .ok x.1)

/-! ## Lookup -/

/-- `case_insensitive_strcmp`, `cJSON.c:133-153`, compares these; `tolower` in the C locale. -/
def lower (s : String) : List Char := s.toList.map Char.toLower

/-- The loop of `get_object_item`, `cJSON.c:1899-1902`. -/
def find (l : List (String × Json String)) (name : String) : Option (Json String) :=
  match l with
  | [] => none
  | m :: l => if lower m.1 = lower name then some m.2 else find l name

/-- `cJSON_GetObjectItem`, `cJSON.c:1912-1915`, `get_object_item`, 1880-1910: the first member whose name is the same up to the case of ASCII
letters. (The elements of an array have no names, so none of them is found.) -/
def getItem (j : Json String) (name : String) : Option (Json String) :=
  match j with
  | .obj l => find l name
  | _ => none

/-- `cJSON_IsString` and the string. -/
def asStr : Option (Json String) → Option String
  | some (.str s) => some s
  | _ => none

/-- `cJSON_IsArray` and the elements. -/
def asArr : Option (Json String) → Option (List (Json String))
  | some (.arr l) => some l
  | _ => none

/-- `cJSON_IsBool` and `cJSON_IsTrue`. -/
def asBool : Option (Json String) → Option Bool
  | some (.bool b) => some b
  | _ => none

/-- `cJSON_IsNumber` and `valueint`. -/
def asNum : Option (Json String) → Option Int
  | some (.num i) => some i
  | _ => none

/-- `cJSON_IsObject`. -/
def isObj : Option (Json String) → Bool
  | some (.obj _) => true
  | _ => false

/-! ## Building documents

An allocation can fail: the oracle tells which of the next allocations do; after its end they all succeed. A pointer
which can be `NULL` is an `Option`. -/

/-- A computation with allocations. -/
def M (α : Type) := List Bool → α × List Bool

instance : Monad M where
  pure a := fun o => (a, o)
  bind m f := fun o => f (m o).1 (m o).2

/-- `hooks->allocate`. -/
def alloc : M Bool := fun o =>
  match o with
  | [] => (true, [])
  | b :: o => (b, o)

/-- `cJSON_CreateObject`, `cJSON.c:2533-2542`, `cJSON_CreateArray`, 2522-2531, `cJSON_CreateNumber`, 2429-2453, and
`cJSON_CreateBool`, 2418-2427: one allocation, `cJSON_New_Item`, 241-250. -/
def create (j : Json String) : M (Option (Json String)) := do
  if ← alloc then pure (some j) else pure none

/-- `cJSON_CreateString`, `cJSON.c:2455-2470`. -/
def createString (s : String) : M (Option (Json String)) := do
  if ← alloc then
    if ← alloc then pure (some (.str s)) else pure none
  else pure none

/-- `cJSON_AddItemToObject`, `cJSON.c:2048-2051`, `add_item_to_object`, 2011-2046: the object afterwards. The result
code is ignored by all callers modelled here. -/
def addItem (o : Option (Json String)) (name : String) (item : Option (Json String)) : M (Option (Json String)) :=
  match o, item with
  | some (.obj l), some x => do
    if ← alloc then pure (some (.obj (l ++ [(name, x)]))) else pure o
  | _, _ => pure o

/-- `cJSON_AddItemToArray`, `cJSON.c:1990-1993`, `add_item_to_array`, 1956-1987: the array afterwards. -/
def addElem (a : Option (Json String)) (item : Option (Json String)) : Option (Json String) :=
  match a, item with
  | some (.arr l), some x => some (.arr (l ++ [x]))
  | _, _ => a

/-- `cJSON_AddStringToObject`, `cJSON.c:2139-2149`; a `NULL` string is not added. -/
def addString (o : Option (Json String)) (name : String) (s : Option String) : M (Option (Json String)) := do
  match s with
  | none => do
    -- the item is allocated and freed
    let _ ← alloc
    pure o
  | some s => addItem o name (← createString s)

/-- `if (s != NULL) { cJSON_AddItemToObject(o, name, cJSON_CreateString(s)); }`. -/
def addOpt (o : Option (Json String)) (name : String) (s : Option String) : M (Option (Json String)) := do
  match s with
  | none => pure o
  | some s => addItem o name (← createString s)

/-- A loop which adds an element to an array for each item of a list. -/
def addAll {α} (f : α → M (Option (Json String))) (a : Option (Json String)) : List α → M (Option (Json String))
  | [] => pure a
  | x :: l => do addAll f (addElem a (← f x)) l

/-- `cJSON_AddArrayToObject`, `cJSON.c:2175-2185`, and a loop which fills the array: the object afterwards. The array
is part of the object (or `NULL`) before the loop. -/
def addArray {α} (o : Option (Json String)) (name : String) (f : α → M (Option (Json String))) (l : List α) :
    M (Option (Json String)) := do
  let a ← create (.arr [])
  match o, a with
  | some (.obj m), some _ => do
    if ← alloc then
      match ← addAll f (some (.arr [])) l with
      | some a => pure (some (.obj (m ++ [(name, a)])))
      | none => pure o
    else do
      let _ ← addAll f none l
      pure o
  | _, _ => do
    let _ ← addAll f none l
    pure o

/-! ## Texts of documents -/

mutual

/-- The strings of a document, changed. -/
def Json.map {σ τ} (f : σ → τ) : Json σ → Json τ
  | .null => .null
  | .bool b => .bool b
  | .num i => .num i
  | .str s => .str (f s)
  | .arr l => .arr (mapElems f l)
  | .obj l => .obj (mapMembers f l)

def mapElems {σ τ} (f : σ → τ) : List (Json σ) → List (Json τ)
  | [] => []
  | x :: l => x.map f :: mapElems f l

def mapMembers {σ τ} (f : σ → τ) : List (σ × Json σ) → List (τ × Json τ)
  | [] => []
  | (k, x) :: l => (f k, x.map f) :: mapMembers f l

end

/-- The bytes of a string. -/
def enc (s : String) : Bytes := s.toList.flatMap String.utf8EncodeChar

/-- `cJSON_PrintUnformatted`, `cJSON.c:1257-1260`, of a document with its strings in UTF-8. -/
def text (j : Json String) : Bytes := print (j.map enc)

end Verif.Json
