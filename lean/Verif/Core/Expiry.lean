import Verif.Core.Attacher

/-!
# When the certificate of the basestation expires — model

`nabto_device_get_attach_certificate_expiration`, on the attacher of `Core/Attacher`.

Simplifications: the connection the attacher points to is in the state of `Conn.phase`; a peer which showed no certificate
has no `notAfter`. `timegm` of the C library is the formula of POSIX ("Seconds Since the Epoch") with the day of the year
computed from month and day; before 1970 it is negative. The lock is the subject of C31.
-/

namespace Verif.Core.Expiry
open Verif.Core.Attacher

/-- `mbedtls_x509_time` -/
structure X509Time where
  year : Nat
  mon : Nat
  day : Nat
  hour : Nat
  min : Nat
  sec : Nat
  deriving DecidableEq, Repr

/-- `struct tm`, the fields which are set. -/
structure Tm where
  sec : Int
  min : Int
  hour : Int
  mday : Int
  mon : Int
  year : Int
  deriving DecidableEq, Repr

/-- The days of a year before a month, `tm_mon`. -/
def cumulative (mon : Int) : Int :=
  if mon = 0 then 0 else if mon = 1 then 31 else if mon = 2 then 59 else if mon = 3 then 90 else if mon = 4 then 120
  else if mon = 5 then 151 else if mon = 6 then 181 else if mon = 7 then 212 else if mon = 8 then 243
  else if mon = 9 then 273 else if mon = 10 then 304 else 334

/-- Leap years, for a `tm_year`. -/
def tmLeap (y : Int) : Bool := decide ((y + 1900) % 4 = 0 ∧ ((y + 1900) % 100 ≠ 0 ∨ (y + 1900) % 400 = 0))

/-- The C library. -/
def timegm (t : Tm) : Int :=
  if t.year < 70 then -1
  else
    let yday := cumulative t.mon + (t.mday - 1) + (if tmLeap t.year && decide (2 ≤ t.mon) then 1 else 0)
    t.sec + t.min * 60 + t.hour * 3600 + yday * 86400 + (t.year - 70) * 31536000 + (t.year - 69) / 4 * 86400
      - (t.year - 1) / 100 * 86400 + (t.year + 299) / 400 * 86400

/-- How the library is built. -/
inductive Build | mbed | mbedWithoutTimegm | wolf
  deriving DecidableEq, Repr

inductive Ec | ok | invalidState | unknown | notImplemented | notAttached
  deriving DecidableEq, Repr

/-- What comes of a call: an answer, with the value of `expiration` if it is written, or a NULL pointer is read. -/
inductive Res
  | answer (ec : Ec) (expiration : Option Nat)
  | null
  deriving DecidableEq, Repr

/-- The `struct tm`, nm_mbedtls_cli.c:403-410. -/
def toTm (v : X509Time) : Tm :=
  { year := v.year - 1900, mon := v.mon - 1, mday := v.day, hour := v.hour, min := v.min, sec := v.sec }

/-- `get_certificate_expiration`, nm_mbedtls_cli.c:391-421, when the connection is not NULL. `cert`: the end of the certificate
the peer showed. -/
def ofConn (c : Conn) (cert : Option X509Time) : Res :=
  if c.phase ≠ .data then .answer .invalidState none
  else match cert with
    | none => .answer .unknown none
    | some v => if timegm (toTm v) < 0 then .answer .unknown none else .answer .ok (some (timegm (toTm v)).toNat)

/-- `nabto_device_get_attach_certificate_expiration`, nabto_device_experimental.c:36-48. The functions without `timegm`,
nm_mbedtls_cli.c:423-428, and for wolfSSL, nm_wolfssl_cli.c:748-751, do not look at the connection. -/
def expiration (b : Build) (s : St) (cert : Option X509Time) : Res :=
  match b with
  | .wolf | .mbedWithoutTimegm => .answer .notImplemented none
  | .mbed =>
    match s.cur with
    | none => .null
    | some c => ofConn c cert

end Verif.Core.Expiry
