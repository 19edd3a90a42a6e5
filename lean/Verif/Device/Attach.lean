import Verif.Core.Attacher

/-!
# The switch for the basestation attach

Model of `nc_device_set_basestation_attach` and `nc_device_disable_remote_access` (`src/core/nc_device.c:644-678`), which the
API calls with the lock held (`src/api/nabto_device.c:402-419`), of the part of starting and closing a device which concerns the
attacher, and, below them, of the whole attacher (`Core/Attacher`).

Simplifications: the host name and the port of the server do not change after the start (that they may be set again is
C92). The three binds of the sockets are one step, which ends with `nc_device_sockets_bound` or with a failure; the device may be
closed before it. A second `nabto_device_start` is left out (C90). What is done for client connections is left out: that they
are all closed is a step of its own (`clientsClosed`).
-/

namespace Verif.Device.Attach

open Core.Attacher (Act Cb Obs Mod AState)

/-- The codes which are returned. -/
inductive Ec
  | ok | outOfMemory | invalidState | stopped | bindFailed
  deriving DecidableEq, Repr

/-- `enum nc_device_state`, `nc_device.h:24-28`. -/
inductive DState
  | setup | running | stopped
  deriving DecidableEq, Repr

/-- `struct nc_device_context`, `nc_device.h`, as far as it concerns the attach. -/
structure St where
  state : DState := .setup
  /-- `enableAttach`, set in `nc_device_init`, nc_device.c:41 -/
  enable : Bool := true
  /-- the sockets are being bound -/
  binding : Bool := false
  /-- the client connections are being closed by `nc_device_close` -/
  closing : Bool := false
  att : Core.Attacher.St := Core.Attacher.init
  /-- what the start of the device reported -/
  started : List Ec := []
  deriving DecidableEq, Repr

def St.init : St := {}

/-- The callback of `nc_device_close`, `nc_device_attach_closed_cb`, nc_device.c:435-446. -/
def closedCb : Cb := ⟨0, false⟩

/-- The callback of `nc_device_set_basestation_attach`, `nc_device_attach_disabled_cb`, nc_device.c:653-655. -/
def disabledCb : Cb := ⟨1, true⟩

/-- `nc_attacher_start` as the device calls it, with what it returns, nc_attacher.c:263-284. -/
def attStart (a : Core.Attacher.St) (host : String) (port : Nat) (mem : Bool) : Core.Attacher.St × Ec :=
  (a.start host port mem, if a.mod ≠ .setup then .invalidState else if mem then .ok else .outOfMemory)

/-- `nc_attacher_restart` with what it returns, nc_attacher.c:286-299. -/
def attRestart (a : Core.Attacher.St) (mem : Bool) : Core.Attacher.St × Ec :=
  (a.restart mem, if a.mod ≠ .closed then .invalidState else .ok)

/-- `nc_attacher_async_close`, nc_attacher.c:301-307. -/
def attClose (a : Core.Attacher.St) (cb : Cb) (sending : Bool) : Core.Attacher.St :=
  { a with closedCb := some cb }.doClose sending

/-- The name and the port of the server. -/
structure Cfg where
  host : String
  port : Nat

/-- `nc_device_set_basestation_attach`, nc_device.c:657-676. `mem`: there is memory for the name of the server; `sending`: an
alert is handed to the socket. -/
def St.setAttach (cfg : Cfg) (s : St) (enabled mem sending : Bool) : St × Ec :=
  match s.state, enabled with
  | .setup, _ => ({ s with enable := enabled }, .ok)
  | .running, true =>
    if !s.enable then
      ({ s with enable := true, att := (attStart s.att cfg.host cfg.port mem).1 }, (attStart s.att cfg.host cfg.port mem).2)
    else ({ s with att := (attRestart s.att mem).1 }, (attRestart s.att mem).2)
  | .running, false => ({ s with att := attClose s.att disabledCb sending }, .ok)
  | .stopped, _ => (s, .invalidState)

/-- `nc_device_disable_remote_access`, nc_device.c:644-651. -/
def St.disableRemote (s : St) : St × Ec :=
  if s.state ≠ .setup then (s, .invalidState) else ({ s with enable := false }, .ok)

/-- `nc_device_sockets_bound`, nc_device.c:343-389, and the callbacks of the binds before it, nc_device.c:244-303. -/
def St.bound (cfg : Cfg) (s : St) (bindOk mem : Bool) : St :=
  let s := { s with binding := false }
  if s.state = .stopped then { s with started := s.started ++ [.stopped] }
  else if !bindOk then { s with state := .stopped, started := s.started ++ [.bindFailed] }
  else if s.enable then
    { s with att := (attStart s.att cfg.host cfg.port mem).1, started := s.started ++ [(attStart s.att cfg.host cfg.port mem).2] }
  else { s with started := s.started ++ [.ok] }

inductive Op
  | setAttach (enabled mem sending : Bool)
  | disableRemote
  /-- `nabto_device_start`, up to the binding of the sockets -/
  | start
  | bound (bindOk mem : Bool)
  /-- `nabto_device_close` -/
  | close
  /-- all client connections are closed -/
  | clientsClosed (sending : Bool)
  /-- `nabto_device_stop` -/
  | stop (sending : Bool)
  /-- something happens to the attacher: a completion, a timer, a token which is added -/
  | env (a : Act)
  deriving DecidableEq, Repr

/-- The actions which are not calls of the device into the attacher. -/
def isEnv : Act → Bool
  | .start .. | .close .. | .stop .. | .restart .. => false
  | _ => true

/-- One step with what it returns; `none` when it cannot occur. -/
def step (cfg : Cfg) (s : St) : Op → Option (St × Ec)
  | .setAttach e m b => some (s.setAttach cfg e m b)
  | .disableRemote => some s.disableRemote
  -- `nc_device_start`, nc_device.c:393-433
  | .start => if s.state = .setup then some ({ s with state := .running, binding := true }, .ok) else none
  | .bound o m => if s.binding then some (s.bound cfg o m, .ok) else none
  -- `nc_device_close`, nc_device.c:468-486
  | .close => if s.state = .running then some ({ s with state := .stopped, closing := true }, .ok) else some (s, .invalidState)
  -- `nc_device_client_connections_closed_cb`, nc_device.c:448-452
  | .clientsClosed b => if s.closing then some ({ s with closing := false, att := attClose s.att closedCb b }, .ok) else none
  -- `nc_device_stop`, nc_device.c:454-466, with `nc_attacher_stop`, nc_attacher.c:312-318
  | .stop b => some ({ s with state := .stopped, att := { s.att with keepAlive := false }.doClose b }, .ok)
  | .env a => if isEnv a then (Core.Attacher.step s.att a).map fun t => ({ s with att := t }, .ok) else none

/-- Some steps in a row. -/
def runFrom (cfg : Cfg) (s : St) : List Op → Option St
  | [] => some s
  | op :: ops => (step cfg s op).bind fun r => runFrom cfg r.1 ops

def run (cfg : Cfg) (ops : List Op) : Option St := runFrom cfg St.init ops

end Verif.Device.Attach
