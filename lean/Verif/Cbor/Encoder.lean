import Verif.Cbor.Item

/-!
# tinycbor encoder — model

Transcription of `/repo/3rdparty/tinycbor/tinycbor_src/src/cborencoder.c`, without writer functions. Sizes are natural
numbers (sums of sizes do not overflow `ptrdiff_t`).
-/

namespace Verif.Cbor

/-- What the encoder functions report. -/
inductive EErr | ok | oom | tooMany | tooFew | tooLarge | illegalSimple
  deriving DecidableEq, Repr

/-- The buffer of an encoder. `room`: `end` is not `NULL`, the bytes written and the room left. `over`: `end` is `NULL`,
the bytes which were written and the bytes which are missing. `ub`: `memcpy` to the `NULL` pointer. -/
inductive Buf
  | room (out : Bytes) (left : Nat)
  | over (out : Bytes) (needed : Nat)
  | ub
  deriving DecidableEq, Repr

/-- `append_to_buffer`, `cborencoder.c:272-301`, with `would_overflow`, 256-262, and `advance_ptr`, 264-270. -/
def Buf.append (b : Buf) (d : Bytes) : Buf × EErr :=
  match b with
  | .room out left =>
    if d.length ≤ left then (.room (out ++ d) (left - d.length), .ok) else (.over out (d.length - left), .oom)
  | .over out n => if n + d.length = 0 then (.ub, .ok) else (.over out (n + d.length), .oom)
  | .ub => (.ub, .ok)

/-- `struct CborEncoder`. `unknown` is the flag `CborIteratorFlag_UnknownLength`. -/
structure Enc where
  buf : Buf
  remaining : Nat
  unknown : Bool
  deriving DecidableEq, Repr

/-- `cbor_encoder_init`, `cborencoder.c:203-209`: `none` is the `NULL` buffer of size 0. -/
def Enc.init (size : Option Nat) : Enc :=
  { buf := match size with
      | none => .over [] 0
      | some n => .room [] n
    remaining := 2
    unknown := false }

/-- `encode_number_no_update`, `cborencoder.c:308-335`: the bytes. -/
def numberBytes (ui shifted : Nat) : Bytes :=
  if ui < 24 then [UInt8.ofNat (ui + shifted)]
  else
    let more := (if ui > 0xff then 1 else 0) + (if ui > 0xffff then 1 else 0) + (if ui > 0xffffffff then 1 else 0)
    UInt8.ofNat (shifted + 24 + more) :: (be 8 ui).drop (8 - 2 ^ more)

/-- `encode_number_no_update`. -/
def Enc.numberNoUpdate (e : Enc) (ui shifted : Nat) : Enc × EErr :=
  let r := e.buf.append (numberBytes ui shifted)
  ({ e with buf := r.1 }, r.2)

/-- `saturated_decrement`, `cborencoder.c:337-341`. -/
def Enc.decrement (e : Enc) : Enc := { e with remaining := e.remaining - 1 }

/-- `encode_number`, `cborencoder.c:343-347`. -/
def Enc.number (e : Enc) (ui shifted : Nat) : Enc × EErr := e.decrement.numberNoUpdate ui shifted

/-- `cbor_encode_uint`, `cborencoder.c:355-358`. -/
def Enc.uint (e : Enc) (n : Nat) : Enc × EErr := e.number n (0 * 32)

/-- `cbor_encode_int`, `cborencoder.c:379-386`, for a 64 bit integer. -/
def Enc.int (e : Enc) (i : Int) : Enc × EErr :=
  if i < 0 then e.number (-1 - i).toNat 0x20 else e.number i.toNat 0

/-- `cbor_encode_simple_value`, `cborencoder.c:395-403`. -/
def Enc.simple (e : Enc) (value : Nat) : Enc × EErr :=
  if 25 ≤ value ∧ value ≤ 31 then (e, .illegalSimple) else e.number value (7 * 32)

/-- `cbor_encode_boolean`, `cbor.h:251-252`. -/
def Enc.bool (e : Enc) (b : Bool) : Enc × EErr := e.simple (b.toNat + (0xf5 % 32) - 1)

/-- `cbor_encode_null`, `cbor.h:253-254`. -/
def Enc.null (e : Enc) : Enc × EErr := e.simple (0xf6 % 32)

/-- `encode_string`, `cborencoder.c:445-451`. -/
def Enc.string (e : Enc) (shifted : Nat) (s : Bytes) : Enc × EErr :=
  let r := e.number s.length shifted
  if r.2 ≠ .ok ∧ r.2 ≠ .oom then r
  else
    let q := r.1.buf.append s
    ({ r.1 with buf := q.1 }, q.2)

/-- `cbor_encode_byte_string`, `cborencoder.c:470-473`. -/
def Enc.bytes (e : Enc) (s : Bytes) : Enc × EErr := e.string (2 * 32) s

/-- `cbor_encode_text_string`, `cborencoder.c:482-485`. -/
def Enc.text (e : Enc) (s : Bytes) : Enc × EErr := e.string (3 * 32) s

/-- `create_container`, `cborencoder.c:490-514`: the parent and the container; the length `none` is
`CborIndefiniteLength`. -/
def Enc.create (e : Enc) (length : Option Nat) (major : Nat) : Enc × Enc × EErr :=
  match length with
  | none =>
    let r := e.buf.append [UInt8.ofNat (major * 32 + 31)]
    (e.decrement, { buf := r.1, remaining := 0, unknown := true }, r.2)
  | some n =>
    let r := Enc.numberNoUpdate { e with remaining := (if major = 5 then n + 1 + n else n + 1), unknown := false } n
      (major * 32)
    (e.decrement, r.1, r.2)

/-- `cbor_encoder_create_array`, `cborencoder.c:530-533`. -/
def Enc.createArray (e : Enc) (length : Option Nat) : Enc × Enc × EErr := e.create length 4

/-- `cbor_encoder_create_map`, `cborencoder.c:554-559`, with at most `SIZE_MAX / 2` pairs. -/
def Enc.createMap (e : Enc) (length : Option Nat) : Enc × Enc × EErr := e.create length 5

/-- `cbor_encoder_close_container`, `cborencoder.c:573-590`. -/
def Enc.close (e c : Enc) : Enc × EErr :=
  if c.unknown then
    let r := c.buf.append [0xff]
    ({ e with buf := r.1 }, r.2)
  else
    let e := { e with buf := c.buf }
    if c.remaining ≠ 1 then (e, if c.remaining = 0 then .tooMany else .tooFew)
    else match c.buf with
      | .over _ _ => (e, .oom)
      | _ => (e, .ok)

/-- `cbor_encoder_get_extra_bytes_needed`, `cbor.h:281-284`. -/
def Enc.extra (e : Enc) : Nat :=
  match e.buf with
  | .over _ n => n
  | _ => 0

end Verif.Cbor
