/-!
# Log messages

Model of `src/api/nabto_device_logging.c`, of the adapters of `src/platform/np_logging.c`, and of the hooks which hand the log of
the TLS libraries to it (`my_debug`, src/modules/mbedtls/nm_mbedtls_util.c:257-277; `logging_callback`,
src/modules/wolfssl/nm_wolfssl_util.c:275-290; both only with NABTO_DEVICE_DTLS_LOG).

All variables are global and no lock protects them, while messages come from the core thread, from the threads of the network
module and from threads of the application. The steps are those between which another thread can run: storing the user data,
storing the callback, deciding about and formatting a message and loading the callback and the user data, calling the callback.
(Loading the two is one step of the model. A schedule of the model is one of the code.)

The C library's `vsnprintf` is modelled as far as needed: `%%` is a percent sign, any other conversion is one character which
stands for the next argument, and a conversion without an argument is undefined behaviour. Arguments are the texts they are
printed as.
-/

namespace Verif.Api.Logging

abbrev Text := List UInt8

/-- What `vsnprintf` makes of a format and arguments; `none` is undefined behaviour. C library. -/
def format : List UInt8 → List Text → Option Text
  | [], _ => some []
  | [c], _ => if c = 37 then none else some [c]
  | c :: d :: rest, args =>
    if c = 37 then
      if d = 37 then (format rest args).map (37 :: ·)
      else match args with
        | [] => none
        | a :: args => (format rest args).map (a ++ ·)
    else (format (d :: rest) args).map (c :: ·)

/-- `enum NabtoDeviceLogLevel_`, include/nabto/nabto_device.h:1998-2004, as far as used. -/
inductive Level where
  | error
  | warn
  | info
  | trace
deriving DecidableEq, Repr

/-- NABTO_LOG_SEVERITY_*, np_logging_defines.h:38-41. -/
def ERROR : UInt32 := 2
def WARN : UInt32 := 4
def INFO : UInt32 := 8
def TRACE : UInt32 := 16

/-- NABTO_LOG_SEVERITY_LEVEL_*, np_logging_defines.h:48-51. -/
def LEVEL_ERROR : UInt32 := ERROR
def LEVEL_WARN : UInt32 := WARN ||| LEVEL_ERROR
def LEVEL_INFO : UInt32 := INFO ||| LEVEL_WARN
def LEVEL_TRACE : UInt32 := TRACE ||| LEVEL_INFO

/-- The severity which the macros NABTO_LOG_ERROR .. NABTO_LOG_TRACE give to `np_log.log`, np_logging.c:43-78. -/
def severity : Level → UInt32
  | .error => ERROR
  | .warn => WARN
  | .info => INFO
  | .trace => TRACE

/-- The severity of a message of mbedtls, nm_mbedtls_util.c:263-274. -/
def debugSeverity : Nat → UInt32
  | 1 => ERROR
  | 2 => INFO
  | _ => TRACE

/-- The severity of a message of wolfssl, nm_wolfssl_util.c:278-288. -/
def wolfSeverity : Nat → UInt32
  | 0 => ERROR
  | 1 => INFO
  | _ => TRACE

/-- The switch of `logging_log`, nabto_device_logging.c:44-60. -/
def outSeverity (s : UInt32) : Level :=
  if s = ERROR then .error else if s = WARN then .warn else if s = INFO then .info else if s = TRACE then .trace else .error

/-- The comparisons of `nabto_device_set_log_level`, nabto_device_logging.c:107-121. -/
def levelMask (s : String) : Option UInt32 :=
  if s = "error" then some LEVEL_ERROR
  else if s = "warn" then some LEVEL_WARN
  else if s = "info" then some LEVEL_INFO
  else if s = "trace" then some LEVEL_TRACE
  else none

/-- A call of a callback: which one, with which user data, and the message. -/
structure Call where
  cb : Nat
  data : Option Nat
  level : Level
  text : Text
deriving DecidableEq, Repr

/-- The global variables, the calls of `set_log_callback` which have stored the user data but not yet the callback, the messages
for which a callback was loaded and not yet called, and the calls which were made. -/
structure St where
  /-- `np_log.log` is `logging_log`, np_logging.c:8, nabto_device_logging.c:24 -/
  on : Bool := false
  level : UInt32 := LEVEL_INFO
  /-- `none` is `default_log_callback`, which does nothing, nabto_device_logging.c:9-12 -/
  cb : Option Nat := none
  data : Option Nat := none
  setting : List (Nat × Option Nat) := []
  loaded : List (Nat × Option Nat × Option Nat × Level × Text) := []
  calls : List Call := []
deriving DecidableEq, Repr

/-- What the threads do; `tid` is the thread. -/
inductive Op where
  /-- `nabto_device_new` got to nabto_device.c:89 -/
  | init
  | setLevel (s : String)
  | setBegin (tid : Nat) (cb data : Option Nat)
  | setEnd (tid : Nat)
  | log (tid : Nat) (severity : UInt32) (fmt : List UInt8) (args : List Text)
  | call (tid : Nat)
deriving DecidableEq, Repr

/-- `logging_log` up to the call, nabto_device_logging.c:32-66: `vsnprintf` has room for 255 bytes with the terminator. -/
def St.log (s : St) (tid : Nat) (sev : UInt32) (fmt : List UInt8) (args : List Text) : Option St :=
  if !s.on then some s
  else if s.level &&& sev ≠ 0 then
    match format fmt args with
    | none => none
    | some t => some { s with loaded := s.loaded ++ [(tid, s.cb, s.data, outSeverity sev, t.take 254)] }
  else some s

/-- The call, nabto_device_logging.c:66. -/
def St.call (s : St) (tid : Nat) : St :=
  match s.loaded.find? (·.1 = tid) with
  | none => s
  | some x =>
    let s := { s with loaded := s.loaded.erase x }
    match x.2.1 with
    | none => s
    | some cb => { s with calls := s.calls ++ [{ cb := cb, data := x.2.2.1, level := x.2.2.2.1, text := x.2.2.2.2 }] }

/-- `nabto_device_logging_set_callback`, nabto_device_logging.c:70-78: its second half. -/
def St.setEnd (s : St) (tid : Nat) : St :=
  match s.setting.find? (·.1 = tid) with
  | none => s
  | some x => { s with setting := s.setting.erase x, cb := x.2 }

/-- One step of some thread. -/
def step (s : St) : Op → Option St
  | .init => some { s with on := true }
  | .setLevel l =>
    match levelMask l with
    | none => some s
    | some m => some { s with level := m }
  | .setBegin tid cb data => some { s with data := data, setting := s.setting ++ [(tid, cb)] }
  | .setEnd tid => some (s.setEnd tid)
  | .log tid sev fmt args => s.log tid sev fmt args
  | .call tid => some (s.call tid)

/-- A schedule from the start of the program on; `none` when something undefined was done. -/
def runFrom (s : St) : List Op → Option St
  | [] => some s
  | op :: ops =>
    match step s op with
    | none => none
    | some s' => runFrom s' ops

def run (ops : List Op) : Option St := runFrom {} ops

/-- The functions, one after the other. -/
inductive Api where
  | new
  | setLevel (s : String)
  /-- `nabto_device_set_log_callback`; the callback for the standard output is one with null data, nabto_device_logging.c:129 -/
  | setCallback (cb data : Option Nat)
  /-- NABTO_LOG_ERROR, ..WARN, ..INFO, ..TRACE -/
  | message (l : Level) (fmt : List UInt8) (args : List Text)
  /-- a line which mbedtls gives to `my_debug` -/
  | mbedtls (level : Nat) (line : Text)
  /-- a line which wolfssl gives to `logging_callback` -/
  | wolfssl (level : Nat) (line : Text)
deriving DecidableEq, Repr

/-- The steps of a function when no other thread runs. NABTO_LOG_RAW makes the line the format, np_logging.h:93,
np_logging.c:79-87. -/
def Api.steps : Api → List Op
  | .new => [.init]
  | .setLevel s => [.setLevel s]
  | .setCallback cb data => [.setBegin 0 cb data, .setEnd 0]
  | .message l fmt args => [.log 0 (severity l) fmt args, .call 0]
  | .mbedtls level line => [.log 0 (debugSeverity level) line [], .call 0]
  | .wolfssl level line => [.log 0 (wolfSeverity level) line [], .call 0]

end Verif.Api.Logging
