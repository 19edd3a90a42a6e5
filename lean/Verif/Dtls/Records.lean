/-!
# Records, datagrams and the numbers of received data

What the secure session of a client connection does with the datagrams it gets when the handshake is complete, with both
crypto modules: `nm_mbedtls_srv.c` and `nm_wolfssl_srv.c` (`nm_wolfssl_cli.c` is the same in this respect). A datagram may
hold several records (RFC 6347, section 4.1.1); the TLS library gives the data of one record per read and keeps the rest of the
datagram. The number which goes with the data decides whether a client moves to another channel (`Core/Conn`).

The TLS library is the environment. A datagram is its bytes and the records which the library finds in it; `data` says what the
library makes of a record: the decrypted data, or nothing if it discards the record, because it is forged, replayed or holds no
data. The parameter `drop` says whether the library discards the rest of a datagram with a record it discards.

Left out: closing and errors (`Dtls/Server`, `Dtls/WolfServer`), and lack of memory in `nm_mbedtls_recv_data`.
-/

namespace Verif.Dtls.Records

abbrev Bytes := List UInt8

inductive Lib
  | mbed | wolf
  deriving DecidableEq, Repr

structure Rec where
  typ : UInt8
  epoch : Nat
  seq : Nat
  body : Bytes
  data : Option Bytes
  deriving DecidableEq, Repr

/-- `n` in `k` bytes, the most significant first. -/
def be : Nat → Nat → Bytes
  | 0, _ => []
  | k + 1, n => UInt8.ofNat (n / 256 ^ k) :: be k n

/-- The header of a record, RFC 6347, section 4.1: type, version, epoch, number, length. -/
def header (r : Rec) : Bytes := [r.typ, 0xfe, 0xfd] ++ be 2 r.epoch ++ be 6 r.seq ++ be 2 r.body.length

def Rec.bytes (r : Rec) : Bytes := header r ++ r.body

structure Dgram where
  bytes : Bytes
  recs : List Rec
  deriving DecidableEq, Repr

/-- `uint64_from_bigendian`, nm_mbedtls_srv.c:342-352, nm_wolfssl_srv.c:368-374, of eight bytes. -/
def fromBE (b : Bytes) : Nat := b.foldl (fun n x => n * 256 + x.toNat) 0

structure St where
  /-- the records of the last datagram which the library did not look at yet -/
  left : List Rec
  /-- `lastRecvSequenceNumber` -/
  last : Nat
  /-- `currentChannelId` -/
  chan : UInt8
  /-- what was given to the connection: channel, number, data -/
  out : List (UInt8 × Nat × Bytes)
  deriving DecidableEq, Repr

/-- The state when the handshake is complete. -/
def St.init : St := { left := [], last := 0, chan := 0xff, out := [] }

/-- The first record with data. -/
def scan (drop : Bool) : List Rec → Option (Rec × Bytes × List Rec)
  | [] => none
  | r :: rs =>
    match r.data with
    | some d => some (r, d, rs)
    | none => if drop then none else scan drop rs

/-- The number of the data of a record: `in_ctr` of mbed TLS is the address of epoch and number in the header
(nm_mbedtls_srv.c:387-389); the wolfSSL module has its own (nm_wolfssl_srv.c:409-413). -/
def number (lib : Lib) (s : St) (r : Rec) : Nat :=
  match lib with
  | .mbed => fromBE (((header r).drop 3).take 8)
  | .wolf => s.last

/-- The data handler of the connection is called, nm_mbedtls_srv.c:385-392, nm_wolfssl_srv.c:408-417. -/
def deliver (lib : Lib) (s : St) (r : Rec) (d : Bytes) (rest : List Rec) : St :=
  { s with left := rest, out := s.out ++ [(s.chan, number lib s r, d)] }

/-- `wolfssl_recv`, nm_wolfssl_srv.c:650-668: the number is taken from the datagram. `nm_mbedtls_srv_mbedtls_recv`
(nm_mbedtls_srv.c:623-633) only copies. -/
def recv (s : St) (bytes : Bytes) : St :=
  if 12 ≤ bytes.length then { s with last := fromBE ((bytes.drop 4).take 8) } else s

/-- A read of the library: it goes on with what is left, then asks for a datagram. `buf`: what the receive callback has,
`recvBuffer` and `recvBufferSize`. -/
def read (lib : Lib) (drop : Bool) (s : St) (buf : Option Dgram) : St :=
  match scan drop s.left with
  | some (r, d, rest) => deliver lib s r d rest
  | none =>
    let s := { s with left := [] }
    match buf with
    | none => s
    | some g =>
      let s := recv s g.bytes
      match scan drop g.recs with
      | some (r, d, rest) => deliver lib s r d rest
      | none => s

inductive Op
  /-- `nm_mbedtls_srv_handle_packet`, nm_mbedtls_srv.c:322-340, `nm_wolfssl_srv_handle_packet`, nm_wolfssl_srv.c:346-366: one
  read; afterwards the buffer is gone, whether it was looked at or not -/
  | packet (chan : UInt8) (g : Dgram)
  /-- a read without a datagram: a packet was sent, or the timer of mbed TLS fired -/
  | poke
  deriving DecidableEq, Repr

def step (lib : Lib) (drop : Bool) (s : St) : Op → St
  | .packet ch g => read lib drop { s with chan := ch } (some g)
  | .poke => read lib drop s none

def run (lib : Lib) (drop : Bool) (ops : List Op) : St := ops.foldl (step lib drop) St.init

end Verif.Dtls.Records
