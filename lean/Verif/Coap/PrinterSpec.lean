import Verif.Coap.Printer

/-!
# C126: what is to be seen of a CoAP packet in the log

The description of a packet as a list of pieces, with the meaning of the block option taken from RFC 7959 (section 2.2: the value
is `num * 16 + more * 8 + szx`, the size of a block is `2 ^ (szx + 4)`) and of a code from RFC 7252 (section 3: a class of three
bits and a detail of five bits).
-/

namespace Verif.Coap.Printer.Spec

open Verif.Coap.Printer (Text Kind Message str dec)

/-- Number, more flag and size of the block which a value of a block option stands for. -/
def block (value : Nat) : Text :=
  dec (value / 16) ++ str "/" ++ dec (value / 8 % 2) ++ str "/" ++ dec (2 ^ (value % 8 + 4))

/-- Two digits for each byte. -/
def token (bytes : List UInt8) : Text :=
  bytes.flatMap fun b => [b.toNat / 16, b.toNat % 16].map fun d => if d < 10 then (48 + d).toUInt8 else (97 + (d - 10)).toUInt8

/-- A request by its name, a response by its class and detail, anything else by its number. -/
def code (n : Nat) : Text :=
  if n = 0 then str "EMPTY" else if n = 1 then str "GET" else if n = 2 then str "POST" else if n = 3 then str "PUT"
  else if n = 4 then str "DELETE"
  else if 64 ≤ n ∧ n < 192 then dec (n / 32) ++ (if n % 32 < 10 then str "0" else []) ++ dec (n % 32)
  else str "UNKNOWN(" ++ dec n ++ str ")"

/-- The names of options. -/
def names : List (Nat × Text) :=
  [(1, str "IF_MATCH"), (3, str "URI_HOST"), (4, str "ETAG"), (5, str "IF_NONE_MATCH"), (7, str "URI_PORT"),
   (8, str "LOCATION_PATH"), (11, str "URI_PATH"), (12, str "CONTENT_FORMAT"), (14, str "MAX_AGE"), (15, str "URI_QUERY"),
   (17, str "ACCEPT"), (20, str "LOCATION_QUERY"), (28, str "SIZE2"), (35, str "PROXY_URI"), (39, str "PROXY_SCHEME"),
   (60, str "OPTION_SIZE1")]

/-- The options whose value is a number: port and blocks. -/
def numeric (n : Nat) (value : Nat) : Option Text :=
  if n = 7 then some (str ", Uri-Port: " ++ dec value)
  else if n = 27 then some (str ", Block1: " ++ block value)
  else if n = 23 then some (str ", Block2: " ++ block value)
  else none

/-- An option by its name, or its number when it has none, and its length. -/
def byName (n : Nat) (data : List UInt8) : Text :=
  let name := match names.find? (·.1 = n) with
    | some x => x.2
    | none => str "UNKNOWN(" ++ dec n ++ str ")"
  str ", " ++ name ++ str ": OptionDataLength: " ++ dec data.length

/-- An option with its value when it is a path, a host, a port or a block, and otherwise with its length. -/
def option (varInt : List UInt8 → Option UInt32) (n : Nat) (data : List UInt8) : Text :=
  if n = 11 then str ", Uri-Path: " ++ data.takeWhile (· ≠ 0)
  else if n = 3 then str ", Uri-Host: " ++ data.takeWhile (· ≠ 0)
  else match (varInt data).bind fun v => numeric n v.toNat with
    | some t => t
    | none => byName n data

/-- The name of a kind of message. -/
def kind : Kind → String
  | .con => "CON"
  | .non => "NON"
  | .ack => "ACK"
  | .rst => "RST"

/-- The description of a packet but for its last piece, and the last piece. -/
def pieces (varInt : List UInt8 → Option UInt32) (header : Text) : Option Message → List Text × Text
  | none => ([header], str "Invalid packet")
  | some m =>
    ([header,
      str "Type: " ++ str (kind m.kind) ++ str ", Code: " ++ code m.code.toNat ++ str ", MessageId: " ++ dec m.messageId.toNat ++
        str ", Token: " ++ token m.token,
      str ", Options:"] ++ m.options.map (fun o => option varInt o.1.toNat o.2),
     str ", Payload Length: " ++ dec m.payloadLength)

/-- The whole description. -/
def full (varInt : List UInt8 → Option UInt32) (header : Text) (p : Option Message) : Text :=
  (pieces varInt header p).1.flatten ++ (pieces varInt header p).2

/-- What is logged: the first 1022 bytes of the description, as long as the last piece begins in the first 1023. -/
def logged (varInt : List UInt8 → Option UInt32) (header : Text) (p : Option Message) : Text :=
  if (pieces varInt header p).1.flatten.length ≤ 1023 then (full varInt header p).take 1022 else str "Can not print coap packet"

end Verif.Coap.Printer.Spec
