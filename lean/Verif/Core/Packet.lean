/-!
# Variable length integers and stream packet headers

Model of `src/core/nc_packet.c` and of the header part of `nc_stream_manager_handle_packet`
(`src/core/nc_stream_manager.c:92-116`). A packet is a list of bytes; reading a byte beyond its end is the
outcome `ub`.
-/

namespace Verif.Core.Packet

/-- Result of reading from a packet. -/
inductive Rd (α : Type)
  | ub
  | fail
  | ok (a : α)
  deriving DecidableEq, Repr

/-- `buf[i]`. -/
def Rd.byte (buf : List UInt8) (i : Nat) {α : Type} (k : UInt64 → Rd α) : Rd α :=
  match buf[i]? with
  | none => .ub
  | some b => k b.toUInt64

/-- `var_uint_read`, `nc_packet.c:7-59`: value and encoded length. `bufSize` is the announced size, `buf` the
bytes that are there. -/
def varUintRead (buf : List UInt8) (bufSize : Nat) : Rd (UInt64 × Nat) :=
  Rd.byte buf 0 fun first =>
  let b7 := first &&& 0x3F
  let lengthBits := first >>> 6
  if bufSize < 1 <<< lengthBits.toNat then .fail
  else if lengthBits = 0 then .ok (b7, 1)
  else if lengthBits = 1 then
    Rd.byte buf 1 fun b6 => .ok ((b7 <<< 8) + b6, 2)
  else if lengthBits = 2 then
    Rd.byte buf 1 fun b6 => Rd.byte buf 2 fun b5 => Rd.byte buf 3 fun b4 =>
    .ok ((b7 <<< 24) + (b6 <<< 16) + (b5 <<< 8) + b4, 4)
  else
    Rd.byte buf 1 fun b6 => Rd.byte buf 2 fun b5 => Rd.byte buf 3 fun b4 => Rd.byte buf 4 fun b3 =>
    Rd.byte buf 5 fun b2 => Rd.byte buf 6 fun b1 => Rd.byte buf 7 fun b0 =>
    .ok ((b7 <<< 56) + (b6 <<< 48) + (b5 <<< 40) + (b4 <<< 32) + (b3 <<< 24) + (b2 <<< 16) + (b1 <<< 8) + b0, 8)

/-- `var_uint_write_forward`, `nc_packet.c:61-113`: the bytes written. -/
def varUintWrite (val : UInt64) : List UInt8 :=
  let b7 := val.toUInt8
  let b6 := (val >>> 8).toUInt8
  let b5 := (val >>> 16).toUInt8
  let b4 := (val >>> 24).toUInt8
  let b3 := (val >>> 32).toUInt8
  let b2 := (val >>> 40).toUInt8
  let b1 := (val >>> 48).toUInt8
  let b0 := (val >>> 56).toUInt8
  if val < (1 : UInt64) <<< 6 then [b7]
  else if val < (1 : UInt64) <<< 14 then [b6 ||| ((1 : UInt8) <<< 6), b7]
  else if val < (1 : UInt64) <<< 30 then [b4 ||| ((2 : UInt8) <<< 6), b5, b6, b7]
  else [b0 ||| ((3 : UInt8) <<< 6), b1, b2, b3, b4, b5, b6, b7]

/-- Header of a stream packet: stream id, flags and what is handed to the stream. -/
structure Header where
  streamId : UInt64
  flags : UInt8
  payload : List UInt8
  deriving DecidableEq, Repr

/-- `nc_stream_manager_handle_packet`, `nc_stream_manager.c:92-116` and `:133`. -/
def parseHeader (buffer : List UInt8) : Rd Header :=
  if buffer.length < 4 then .fail
  else
    match varUintRead (buffer.drop 1) (buffer.length - 1) with
    | .ub => .ub
    | .fail => .fail
    | .ok (streamId, len) =>
      match buffer[1 + len]? with
      | none => .ub
      | some flags => .ok ⟨streamId, flags, buffer.drop (1 + len)⟩

end Verif.Core.Packet
