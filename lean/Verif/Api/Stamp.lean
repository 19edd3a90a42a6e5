/-!
# The time and the place in the lines of the loggers — model

`nabto_device_logging_std_out_callback` and `nm_unix_log`, up to what is printed in front of the message.

Simplifications: the clock is one number of microseconds since 1970, both `gettimeofday` and `time` read it. The conversion to local
time is that of the C library and is left out: a time is printed as seconds since 1970 and milliseconds.
-/

namespace Verif.Api.Stamp

/-- The times at which a line reads the clock: `gettimeofday`, then `time`. -/
structure Reading where
  first : Nat
  second : Nat
  deriving DecidableEq, Repr

/-- What is printed: seconds and milliseconds. -/
structure Stamp where
  sec : Nat
  ms : Nat
  deriving DecidableEq, Repr

/-- `tv.tv_sec` and `tv.tv_usec` -/
def tvSec (t : Nat) : Nat := t / 1000000
def tvUsec (t : Nat) : Nat := t % 1000000

/-- `getTimestamp` with `sys/time.h`, std_out_logger.c:31-45. -/
def stdOut (r : Reading) : Stamp := { sec := tvSec r.second, ms := tvUsec r.first / 1000 }

/-- `nm_unix_log`, nm_unix_logging.c:22-30. It reads the clock once. -/
def unixLog (r : Reading) : Stamp := { sec := tvSec r.first, ms := tvUsec r.first / 1000 }

/-- The name of the file, std_out_logger.c:74-79 and nm_unix_logging.c:32-36. -/
def fileTmp (file : List Char) : List Char :=
  if file.length > 24 then file.drop (file.length - 24) else file

/-- `NabtoDeviceLogLevel` of a message. -/
inductive Level | error | warn | info | trace
  deriving DecidableEq, Repr

/-- The level, std_out_logger.c:80-98 and nm_unix_logging.c:37-53. -/
def levelText : Level → String
  | .error => "ERROR"
  | .warn => "_WARN"
  | .info => "_INFO"
  | .trace => "TRACE"

end Verif.Api.Stamp
