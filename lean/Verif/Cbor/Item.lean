/-!
# CBOR data items — specification

The data items of RFC 8949 and their encoding, independent of the code. Heads have the shortest form; strings, arrays
and maps may have a definite or an indefinite length.
-/

namespace Verif.Cbor

abbrev Bytes := List UInt8

/-- The `k` byte big endian representation of a number. -/
def be : Nat → Nat → Bytes
  | 0, _ => []
  | k + 1, n => be k (n / 256) ++ [UInt8.ofNat n]

/-- The number represented by bytes in big endian order. -/
def beNat (l : Bytes) : Nat := l.foldl (fun a b => a * 256 + b.toNat) 0

/-- The head of a data item, RFC 8949 section 3: major type and argument. -/
def head (major n : Nat) : Bytes :=
  if n < 24 then [UInt8.ofNat (major * 32 + n)]
  else if n < 2 ^ 8 then UInt8.ofNat (major * 32 + 24) :: be 1 n
  else if n < 2 ^ 16 then UInt8.ofNat (major * 32 + 25) :: be 2 n
  else if n < 2 ^ 32 then UInt8.ofNat (major * 32 + 26) :: be 4 n
  else UInt8.ofNat (major * 32 + 27) :: be 8 n

/-- The head of an item of indefinite length. -/
def headIndef (major : Nat) : UInt8 := UInt8.ofNat (major * 32 + 31)

/-- The `break` byte. -/
def brk : UInt8 := 0xff

/-- A data item. `indef` is an array or map of indefinite length; `chunks` a string of indefinite length. -/
inductive Item
  | uint (n : Nat)
  /-- The number `-1 - n`. -/
  | nint (n : Nat)
  | bytes (b : Bytes)
  | text (b : Bytes)
  | chunks (text : Bool) (l : List Bytes)
  | arr (indef : Bool) (l : List Item)
  | map (indef : Bool) (l : List (Item × Item))
  | tag (n : Nat) (i : Item)
  | bool (b : Bool)
  | null
  | undef
  /-- A floating point number of 16, 32 or 64 bits. -/
  | half (bits : Nat)
  | float (bits : Nat)
  | double (bits : Nat)

/-- The chunks of a string of indefinite length. -/
def encChunks (major : Nat) : List Bytes → Bytes
  | [] => [brk]
  | c :: l => head major c.length ++ c ++ encChunks major l

mutual
/-- The encoding of an item. -/
def Item.enc : Item → Bytes
  | .uint n => head 0 n
  | .nint n => head 1 n
  | .bytes b => head 2 b.length ++ b
  | .text b => head 3 b.length ++ b
  | .chunks t l => headIndef (if t then 3 else 2) :: encChunks (if t then 3 else 2) l
  | .arr false l => head 4 l.length ++ Item.encs l
  | .arr true l => headIndef 4 :: (Item.encs l ++ [brk])
  | .map false l => head 5 l.length ++ Item.encm l
  | .map true l => headIndef 5 :: (Item.encm l ++ [brk])
  | .tag n i => head 6 n ++ i.enc
  | .bool b => [if b then 0xf5 else 0xf4]
  | .null => [0xf6]
  | .undef => [0xf7]
  | .half n => 0xf9 :: be 2 n
  | .float n => 0xfa :: be 4 n
  | .double n => 0xfb :: be 8 n
/-- The encodings of the elements of an array. -/
def Item.encs : List Item → Bytes
  | [] => []
  | i :: l => i.enc ++ Item.encs l
/-- The encodings of the keys and values of a map. -/
def Item.encm : List (Item × Item) → Bytes
  | [] => []
  | (k, v) :: l => k.enc ++ (v.enc ++ Item.encm l)
end

mutual
/-- The nesting of arrays and maps. -/
def Item.depth : Item → Nat
  | .arr _ l => Item.depths l + 1
  | .map _ l => Item.depthm l + 1
  | .tag _ i => i.depth
  | _ => 0
def Item.depths : List Item → Nat
  | [] => 0
  | i :: l => max i.depth (Item.depths l)
def Item.depthm : List (Item × Item) → Nat
  | [] => 0
  | (k, v) :: l => max (max k.depth v.depth) (Item.depthm l)
end

mutual
/-- The item can be encoded: numbers have at most 64 bits, a container has less than 2^31 elements. -/
def Item.Fits : Item → Prop
  | .uint n => n < 2 ^ 64
  | .nint n => n < 2 ^ 64
  | .bytes b => b.length < 2 ^ 64
  | .text b => b.length < 2 ^ 64
  | .chunks _ l => ∀ c ∈ l, c.length < 2 ^ 64
  | .arr _ l => l.length < 2 ^ 31 ∧ Item.Fitss l
  | .map _ l => l.length < 2 ^ 31 ∧ Item.Fitsm l
  | .tag n i => n < 2 ^ 64 ∧ i.Fits
  | .half n => n < 2 ^ 16
  | .float n => n < 2 ^ 32
  | .double n => n < 2 ^ 64
  | _ => True
def Item.Fitss : List Item → Prop
  | [] => True
  | i :: l => i.Fits ∧ Item.Fitss l
def Item.Fitsm : List (Item × Item) → Prop
  | [] => True
  | (k, v) :: l => k.Fits ∧ v.Fits ∧ Item.Fitsm l
end

end Verif.Cbor
