import Mathlib.Data.Nat.Digits.Defs

/-!
# Printing of CoAP packets for the log

Model of `src/core/nc_coap_packet_printer.c`, which runs for every CoAP packet a client sends (nc_coap_server.c:82) and for every
packet sent to it (nc_coap_server.c:148). Memory is modelled as far as it can be overrun: the four static arrays into which the
code prints with `sprintf`, and the block of 1024 bytes in which the whole text is gathered. A write outside of them is the
distinct outcome `undefined`, and a pointer which leaves its block without being used is recorded in `wild`.

The CoAP library is not in /repo. What its parser finds in a packet is the parameter `Option Message`: any message at all, and a
token of any length (the precondition the code relies on is stated in the theorems). `nabto_coap_parse_variable_int` is a
parameter as well. The numbers of options and codes are those of RFC 7252, RFC 7959.
-/

namespace Verif.Coap.Printer

/-- A text: the bytes of a C string without the terminator. -/
abbrev Text := List UInt8

/-- The bytes of a string literal. -/
def str (x : String) : Text := x.toList.map fun c => c.toNat.toUInt8

/-- `%u`, `%d` of a number which is not negative: C library. -/
def dec (n : Nat) : Text := (Nat.toDigits 10 n).map fun c => c.toNat.toUInt8

/-- `%02u`: C library. -/
def dec2 (n : Nat) : Text := if n < 10 then 48 :: dec n else dec n

/-- One hexadecimal digit in lower case. -/
def nibble (n : Nat) : UInt8 := if n < 10 then (48 + n).toUInt8 else (87 + n).toUInt8

/-- `%02hhx`: C library. -/
def hex2 (b : UInt8) : Text := [nibble (b.toNat / 16), nibble (b.toNat % 16)]

/-- `%.*s`: at most `bytes.length` bytes, ending at the first zero. C library. -/
def precise (bytes : List UInt8) : Text := bytes.takeWhile (· ≠ 0)

/-- `sprintf` of a text into an array of `size` bytes at index `at`; the terminator is written too. `none` when it does not fit,
which is undefined behaviour. C library. -/
def sprintf (size pos : Nat) (t : Text) : Option Text := if pos + t.length + 1 ≤ size then some t else none

/-- `blockToString`, nc_coap_packet_printer.c:11-24. -/
def blockToString (value : UInt32) : Option Text :=
  let blockSize := 16 <<< (value &&& 0x7).toNat
  let more := (value &&& 0xF) >>> 3
  let num := value >>> 4
  sprintf 21 0 (dec num.toNat ++ str "/" ++ dec more.toNat ++ str "/" ++ dec blockSize)

/-- The loop of `tokenToString`, nc_coap_packet_printer.c:32-35; `pos` is where `ptr` points in the array. -/
def tokenLoop (pos : Nat) : List UInt8 → Option Text
  | [] => some []
  | b :: rest =>
    match sprintf 17 pos (hex2 b), tokenLoop (pos + (hex2 b).length) rest with
    | some t, some u => some (t ++ u)
    | _, _ => none

/-- `tokenToString`, nc_coap_packet_printer.c:26-37. -/
def tokenToString (token : List UInt8) : Option Text := tokenLoop 0 token

/-- `nabto_coap_type`, two bits of the packet. -/
inductive Kind where
  | con
  | non
  | ack
  | rst
deriving DecidableEq, Repr

/-- `coapTypeToString`, nc_coap_packet_printer.c:39-48. -/
def typeToString : Kind → Text
  | .con => str "CON"
  | .non => str "NON"
  | .ack => str "ACK"
  | .rst => str "RST"

/-- The names of requests in the switch of `coapCodeToString`, nc_coap_packet_printer.c:58-65. -/
def requestName : Nat → Option Text
  | 0 => some (str "EMPTY")
  | 1 => some (str "GET")
  | 2 => some (str "POST")
  | 3 => some (str "PUT")
  | 4 => some (str "DELETE")
  | _ => none

/-- `coapCodeToString`, nc_coap_packet_printer.c:50-73. -/
def codeToString (code : UInt8) : Option Text :=
  let cls := code >>> 5
  match if cls = 0 then requestName (code &&& 0x1f).toNat else none with
  | some t => some t
  | none =>
    if 1 < cls ∧ cls ≤ 5 then sprintf 15 0 (dec cls.toNat ++ dec2 (code &&& 0x1f).toNat)
    else sprintf 15 0 (str "UNKNOWN(" ++ dec code.toNat ++ str ")")

/-- The names in the switch of `coapOptionToString`, nc_coap_packet_printer.c:80-98. -/
def optionName : Nat → Option Text
  | 1 => some (str "IF_MATCH")
  | 3 => some (str "URI_HOST")
  | 4 => some (str "ETAG")
  | 5 => some (str "IF_NONE_MATCH")
  | 7 => some (str "URI_PORT")
  | 8 => some (str "LOCATION_PATH")
  | 11 => some (str "URI_PATH")
  | 12 => some (str "CONTENT_FORMAT")
  | 14 => some (str "MAX_AGE")
  | 15 => some (str "URI_QUERY")
  | 17 => some (str "ACCEPT")
  | 20 => some (str "LOCATION_QUERY")
  | 28 => some (str "SIZE2")
  | 35 => some (str "PROXY_URI")
  | 39 => some (str "PROXY_SCHEME")
  | 60 => some (str "OPTION_SIZE1")
  | _ => none

/-- `coapOptionToString`, nc_coap_packet_printer.c:75-101. -/
def optionToString (option : UInt16) : Option Text :=
  match optionName option.toNat with
  | some t => some t
  | none => sprintf 15 0 (str "UNKNOWN(" ++ dec option.toNat ++ str ")")

/-- What the library finds in a packet. -/
structure Message where
  kind : Kind
  code : UInt8
  messageId : UInt16
  token : List UInt8
  /-- number and data of each option -/
  options : List (UInt16 × List UInt8)
  payloadLength : Nat
deriving DecidableEq, Repr

/-- The text of one option, nc_coap_packet_printer.c:148-169. The lengths are handed to `%.*s` as `size_t` where the C library
expects an `int`; the model takes them as they are meant. -/
def optionText (varInt : List UInt8 → Option UInt32) (o : UInt16 × List UInt8) : Option Text :=
  if o.1 = 11 then some (str ", Uri-Path: " ++ precise o.2)
  else if o.1 = 3 then some (str ", Uri-Host: " ++ precise o.2)
  else match o.1.toNat, varInt o.2 with
    | 7, some v => some (str ", Uri-Port: " ++ dec v.toNat)
    | 27, some v => (blockToString v).map (str ", Block1: " ++ ·)
    | 23, some v => (blockToString v).map (str ", Block2: " ++ ·)
    | _, _ => (optionToString o.1).map fun name => str ", " ++ name ++ str ": OptionDataLength: " ++ dec o.2.length

/-- The block of memory, where `ptr` points to in it (`none`: the null pointer), and whether `ptr` ever was more than one past
the end of the block. -/
structure Out where
  mem : List UInt8
  ptr : Option Nat
  wild : Bool
deriving DecidableEq, Repr

/-- Bytes written to memory; `none` when some are outside. -/
def put (mem : List UInt8) (pos : Nat) (bytes : List UInt8) : Option (List UInt8) :=
  if pos + bytes.length ≤ mem.length then some (mem.take pos ++ bytes ++ mem.drop (pos + bytes.length)) else none

/-- `vsnprintf` with room for `n` bytes at `pos`: as much of the text as fits, and the terminator; nothing if `n` is zero. C
library. -/
def vsnprintf (mem : List UInt8) (pos n : Nat) (t : Text) : Option (List UInt8) :=
  if n = 0 then some mem else put mem pos (t.take (n - 1) ++ [0])

/-- `bufferLength`, nc_coap_packet_printer.c:125. -/
def bufferLength : Nat := 1024

/-- `end`, nc_coap_packet_printer.c:134, as an index. -/
def endIdx : Nat := bufferLength - 1

/-- `safeWrite`, nc_coap_packet_printer.c:103-121. `vsnprintf` is taken not to fail. -/
def safeWrite (o : Out) (t : Text) : Option Out :=
  match o.ptr with
  | none => some o
  | some p =>
    if endIdx < p then some { o with ptr := none }
    else
      match vsnprintf o.mem p (endIdx - p) t with
      | none => none
      | some m => some { mem := m, ptr := some (p + t.length), wild := o.wild || decide (bufferLength < p + t.length) }

/-- The loop over the options, nc_coap_packet_printer.c:147-173. -/
def writeOptions (varInt : List UInt8 → Option UInt32) (o : Out) : List (UInt16 × List UInt8) → Option Out
  | [] => some o
  | x :: rest =>
    match optionText varInt x with
    | none => none
    | some t =>
      match safeWrite o t with
      | none => none
      | some o' => writeOptions varInt o' rest

/-- The text of the fixed part of a message, nc_coap_packet_printer.c:140-142. -/
def headText (m : Message) : Option Text :=
  match codeToString m.code, tokenToString m.token with
  | some c, some k => some (str "Type: " ++ typeToString m.kind ++ str ", Code: " ++ c ++ str ", MessageId: " ++
      dec m.messageId.toNat ++ str ", Token: " ++ k)
  | _, _ => none

/-- A message is printed, nc_coap_packet_printer.c:140-174. -/
def writeMessage (varInt : List UInt8 → Option UInt32) (o : Out) (m : Message) : Option Out :=
  match headText m with
  | none => none
  | some t =>
    match safeWrite o t with
    | none => none
    | some o =>
      match safeWrite o (str ", Options:") with
      | none => none
      | some o =>
        match writeOptions varInt o m.options with
        | none => none
        | some o => safeWrite o (str ", Payload Length: " ++ dec m.payloadLength)

/-- A packet is printed, nc_coap_packet_printer.c:137-176. -/
def writePacket (varInt : List UInt8 → Option UInt32) (o : Out) : Option Message → Option Out
  | none => safeWrite o (str "Invalid packet")
  | some m => writeMessage varInt o m

/-- What `nc_coap_packet_print` does. -/
inductive Result where
  /-- NABTO_EC_OUT_OF_MEMORY, nothing is logged -/
  | outOfMemory
  /-- a write outside of an array -/
  | undefined
  /-- NABTO_EC_OK; what is given to the log, and whether a pointer left its block -/
  | logged (text : Text) (wild : Bool)
deriving DecidableEq, Repr

/-- `nc_coap_packet_print`, nc_coap_packet_printer.c:123-183; `memory` says whether the allocation succeeds. -/
def print (varInt : List UInt8 → Option UInt32) (memory : Bool) (header : Text) (packet : Option Message) : Result :=
  if !memory then .outOfMemory
  else
    match safeWrite { mem := List.replicate bufferLength 0, ptr := some 0, wild := false } header with
    | none => .undefined
    | some o =>
      match writePacket varInt o packet with
      | none => .undefined
      | some o =>
        if o.ptr.isSome then .logged (o.mem.takeWhile (· ≠ 0)) o.wild
        else .logged (str "Can not print coap packet") o.wild

end Verif.Coap.Printer
