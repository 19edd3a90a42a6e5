import Verif.Dtls.Records
import Verif.Core.Conn

/-!
# Records, datagrams and the numbers of received data — specification
-/

namespace Verif.Dtls.Records.Spec

/-- The fields fit into the header of a record. -/
def Fits (r : Rec) : Prop := r.epoch < 2 ^ 16 ∧ r.seq < 2 ^ 48 ∧ r.body.length < 2 ^ 16

/-- A datagram which has at most one record which the library finds, at its beginning. A forged datagram may have none. -/
def Single (g : Dgram) : Prop := g.recs = [] ∨ ∃ r junk, g.recs = [r] ∧ g.bytes = r.bytes ++ junk ∧ Fits r

/-- The number which goes with the data of a record: with mbed TLS the epoch and the number of the record, with wolfSSL what is
in the header one byte further. -/
def number : Lib → Rec → Nat
  | .mbed, r => r.epoch * 2 ^ 48 + r.seq
  | .wolf, r => r.epoch % 256 * 2 ^ 56 + r.seq * 2 ^ 8 + r.body.length / 256

/-- What should be given to the connection: the data of every datagram, with the channel it came on. -/
def expected (lib : Lib) : Op → Option (UInt8 × Nat × Bytes)
  | .packet ch g =>
    match g.recs with
    | [r] => r.data.map fun d => (ch, number lib r, d)
    | _ => none
  | .poke => none

/-- The same history of a connection, with other numbers of the data. -/
def renumber (f : Nat → Nat) : Core.Conn.Op → Core.Conn.Op
  | .data ref ch seq d => .data ref ch (f seq) d
  | op => op

/-- The number which the wolfSSL module gives for the record with epoch and number `n`, if that has a body of this length. -/
def wolfOf (len : Nat → Nat) (n : Nat) : Nat := n / 2 ^ 48 % 256 * 2 ^ 56 + n % 2 ^ 48 * 2 ^ 8 + len n / 256

end Verif.Dtls.Records.Spec
