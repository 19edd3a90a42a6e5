/-!
# Starting and ending the IAM module — model

Transcription of `nm_iam_init`, `nm_iam_stop` and `nm_iam_deinit`, `src/modules/iam/nm_iam.c:25-103`, with the functions of
`nm_iam_internal.c:447-553`, `nm_iam_auth_handler.c`, `nm_iam_pake_handler.c`, `nm_iam_connection_events.c` and
`coap_handler/nm_iam_coap_handler.c` which set up, stop and free what the module listens with, and of the parts of
`nabto_device_listener.c` and `nabto_device_future.c` they use.

Simplifications:
* A listener and a future of a service are in the three places of `Sub`: the pointer in the structure of the service,
  whether the block is there, and what is going on with it.
* What a callback does with a request is left out (C30, C133, C140 are about it), as is the content of the state and of
  the configuration (one block each).
* `nabto_device_stop` stops all listeners and ends when the thread of the futures has called all callbacks
  (`nabto_device.c:189-217`, `nabto_device_future_queue.c:66-90`).
* `nn_string_set_deinit` and `nn_vector_deinit` (not in the repository) of a set or vector which was never initialised
  are recorded as a misuse.
-/

namespace Verif.Iam.Lifecycle

/-- The CoAP handlers, `struct nm_iam`, `nm_iam_internal.h`. -/
inductive Handler
  | pairingGet | pairingPasswordOpenPost | pairingPasswordInvitePost | pairingLocalOpenPost
  | pairingLocalInitialPost | iamNotificationCategoriesGet | iamSendFcmTestPost | iamMeGet | iamUsersGet
  | iamUsersUserGet | iamUsersUserCreate | iamUsersUserDelete | iamRolesGet | iamUsersUserSetRole
  | iamUsersUserSetUsername | iamUsersUserSetDisplayName | iamUsersUserSetFingerprint
  | iamUsersUserAddFingerprint | iamUsersUserDeleteFingerprint | iamUsersUserSetSct | iamUsersUserSetPassword
  | iamUsersUserSetFcmToken | iamUsersUserSetNotificationCategories | iamUsersUserSetOauthSubject
  | iamSettingsGet | iamSettingsSet | iamDeviceInfoSet
  deriving DecidableEq, Repr

/-- What the module listens with. -/
inductive Svc
  | auth | pake | events
  | coap (h : Handler)
  deriving DecidableEq, Repr

/-- What goes on with a future. -/
inductive Fut
  /-- nothing -/
  | idle
  /-- the listener has it -/
  | armed
  /-- resolved, and its callback not called yet; with a request or with an error -/
  | queued (request : Bool)
  deriving DecidableEq, Repr

/-- What must not happen. -/
inductive Bad
  | null | freedTwice | freedInUse | usedFreed | uninitialised
  deriving DecidableEq, Repr

/-- The structure of a service, with its listener and its future. -/
structure Sub where
  /-- `device` is not NULL; only looked at for the CoAP handlers -/
  device : Bool := false
  /-- the pointer to the listener is not NULL -/
  lPtr : Bool := false
  /-- the listener is there -/
  lLive : Bool := false
  fPtr : Bool := false
  fLive : Bool := false
  /-- the listener is initialised: the device calls it -/
  inited : Bool := false
  /-- the listener has an error code, `STOPPED` -/
  stopped : Bool := false
  fut : Fut := .idle
  deriving DecidableEq, Repr

/-- A pointer of `struct nm_iam` and the block. -/
structure Ref where
  ptr : Bool := false
  live : Bool := false
  deriving DecidableEq, Repr

structure W where
  /-- which of the next requests to the device or the system succeed; all, after the end of the list -/
  mem : List Bool := []
  mutex : Ref := {}
  state : Ref := {}
  conf : Ref := {}
  /-- the set of notification categories and the vector of authorized connections are initialised -/
  sets : Bool := false
  subs : Svc → Sub := fun _ => {}
  bad : List Bad := []

/-- The answer to a request. -/
def ask (mem : List Bool) : Bool × List Bool :=
  match mem with
  | [] => (true, [])
  | b :: l => (b, l)

/-- The services in a world, one changed. -/
def W.put (w : W) (x : Svc) (s : Sub) : W := { w with subs := fun y => if y = x then s else w.subs y }

/-! ## Listeners and futures of the library -/

/-- `nabto_device_listener_stop`, `nabto_device_listener.c:113-122,158-168`, and `nabto_device_listener_resolve_error_state`:
the listener lets go of the device, and its future is resolved with an error. -/
def listenerStop (s : Sub) : Sub × List Bad :=
  if !s.lPtr then (s, [.null])
  else if !s.lLive then (s, [.usedFreed])
  else if !s.inited then (s, [])
  else if s.stopped then (s, [])
  else ({ s with stopped := true, fut := if s.fut = .armed then .queued false else s.fut }, [])

/-- `nabto_device_future_free`, `nabto_device_future.c:51-65`. -/
def futureFree (s : Sub) : Sub × List Bad :=
  if !s.fPtr then (s, [])
  else if !s.fLive then (s, [.freedTwice])
  else ({ s with fLive := false }, if s.fut = .idle then [] else [.freedInUse])

/-- `nabto_device_listener_free`, `nabto_device_listener.c:69-83`. The device must not call it any more. -/
def listenerFree (s : Sub) : Sub × List Bad :=
  if !s.lPtr then (s, [])
  else if !s.lLive then (s, [.freedTwice])
  else ({ s with lLive := false, inited := false }, if s.inited && !s.stopped then [.freedInUse] else [])

/-- `start_listen` of each of the services: the listener takes the future, or the future is resolved with its error. -/
def startListen (s : Sub) : Sub := { s with fut := if s.stopped then .queued false else .armed }

/-- One after another. -/
def seq (f g : Sub → Sub × List Bad) (s : Sub) : Sub × List Bad :=
  ((g (f s).1).1, (f s).2 ++ (g (f s).1).2)

/-! ## The services -/

/-- `nm_iam_auth_handler_init`, `nm_iam_auth_handler.c:12-26`; `nm_iam_pake_handler_init`, `nm_iam_pake_handler.c:14-33`;
`nm_iam_connection_events_init`, `nm_iam_connection_events.c:13-31`. -/
def eventsInit (s : Sub) (mem : List Bool) : Bool × Sub × List Bool :=
  let l := ask mem
  let f := ask l.2
  let s := { s with device := true, lPtr := l.1, lLive := l.1, fPtr := f.1, fLive := f.1 }
  if !l.1 || !f.1 then (false, s, f.2)
  else
    let i := ask f.2
    if i.1 then (true, startListen { s with inited := true }, i.2) else (false, s, i.2)

/-- `nm_iam_coap_handler_init`, `nm_iam_coap_handler.c:15-43`. A future which was made without a listener is freed, the
pointer to it stays; a listener which was made without a future is not freed. -/
def coapInit (mem : List Bool) : Bool × Sub × List Bool :=
  let f := ask mem
  let l := ask f.2
  let s : Sub := { fPtr := f.1, fLive := f.1, lPtr := l.1, lLive := l.1 }
  if !f.1 || !l.1 then (false, { s with fLive := false }, l.2)
  else
    let i := ask l.2
    let s := { s with device := true }
    if i.1 then (true, startListen { s with inited := true }, i.2) else (false, s, i.2)

/-- `nm_iam_auth_handler_deinit`, `nm_iam_auth_handler.c:33-37`, and the same of the other two,
`nm_iam_pake_handler.c:40-44`, `nm_iam_connection_events.c:38-42`. -/
def eventsDeinit : Sub → Sub × List Bad := seq futureFree listenerFree

/-- `nm_iam_coap_handler_stop`, `nm_iam_coap_handler.c:45-50`. -/
def coapStop (s : Sub) : Sub × List Bad := if s.device then listenerStop s else (s, [])

/-- `nm_iam_coap_handler_deinit`, `nm_iam_coap_handler.c:52-63`. -/
def coapDeinit (s : Sub) : Sub × List Bad :=
  if s.device then
    let r := seq listenerStop (seq futureFree listenerFree) s
    ({ r.1 with device := false, lPtr := false, fPtr := false }, r.2)
  else (s, [])

/-- A change of one service. -/
def W.act (x : Svc) (f : Sub → Sub × List Bad) (w : W) : W :=
  { w.put x (f (w.subs x)).1 with bad := w.bad ++ (f (w.subs x)).2 }

/-- A change of several services, one after another. -/
def W.acts (f : Sub → Sub × List Bad) : List Svc → W → W
  | [], w => w
  | x :: l, w => W.acts f l (w.act x f)

/-! ## The module -/

/-- `nm_iam_internal_init_coap_handlers`, `nm_iam_internal.c:447-480`, in this order. -/
def initOrder : List Handler := [
  .pairingGet, .pairingPasswordOpenPost, .pairingPasswordInvitePost, .pairingLocalOpenPost,
  .pairingLocalInitialPost, .iamNotificationCategoriesGet, .iamSendFcmTestPost, .iamMeGet, .iamUsersGet,
  .iamUsersUserGet, .iamUsersUserCreate, .iamUsersUserDelete, .iamRolesGet, .iamUsersUserSetRole,
  .iamUsersUserSetUsername, .iamUsersUserSetDisplayName, .iamUsersUserSetFingerprint,
  .iamUsersUserAddFingerprint, .iamUsersUserDeleteFingerprint, .iamUsersUserSetSct, .iamUsersUserSetPassword,
  .iamUsersUserSetFcmToken, .iamUsersUserSetNotificationCategories, .iamUsersUserSetOauthSubject,
  .iamSettingsGet, .iamSettingsSet, .iamDeviceInfoSet]

/-- `nm_iam_internal_deinit_coap_handlers`, `nm_iam_internal.c:482-514`, in this order. -/
def deinitOrder : List Handler := [
  .pairingGet, .pairingPasswordOpenPost, .pairingPasswordInvitePost, .pairingLocalOpenPost,
  .pairingLocalInitialPost, .iamNotificationCategoriesGet, .iamSendFcmTestPost, .iamMeGet, .iamUsersGet,
  .iamUsersUserGet, .iamUsersUserCreate, .iamUsersUserDelete, .iamRolesGet, .iamUsersUserSetRole,
  .iamUsersUserSetUsername, .iamUsersUserSetDisplayName, .iamUsersUserSetFingerprint,
  .iamUsersUserAddFingerprint, .iamUsersUserDeleteFingerprint, .iamUsersUserSetSct, .iamUsersUserSetPassword,
  .iamUsersUserSetFcmToken, .iamUsersUserSetNotificationCategories, .iamUsersUserSetOauthSubject,
  .iamSettingsGet, .iamSettingsSet, .iamDeviceInfoSet]

/-- `nm_iam_internal_stop`, `nm_iam_internal.c:516-548`, in this order. -/
def stopOrder : List Handler := [
  .pairingGet, .pairingPasswordOpenPost, .pairingPasswordInvitePost, .pairingLocalOpenPost,
  .pairingLocalInitialPost, .iamNotificationCategoriesGet, .iamSendFcmTestPost, .iamMeGet, .iamUsersGet,
  .iamUsersUserGet, .iamUsersUserCreate, .iamUsersUserDelete, .iamRolesGet, .iamUsersUserSetRole,
  .iamUsersUserSetUsername, .iamUsersUserSetDisplayName, .iamUsersUserSetFingerprint,
  .iamUsersUserAddFingerprint, .iamUsersUserDeleteFingerprint, .iamUsersUserSetSct, .iamUsersUserSetPassword,
  .iamUsersUserSetFcmToken, .iamUsersUserSetOauthSubject, .iamUsersUserSetNotificationCategories,
  .iamSettingsGet, .iamSettingsSet, .iamDeviceInfoSet]

/-- The three services which are not CoAP handlers, in the order of `nm_iam.c:55-65`. -/
def initEvents : List Svc → W → Bool × W
  | [], w => (true, w)
  | x :: l, w =>
    let r := eventsInit (w.subs x) w.mem
    let w := { w.put x r.2.1 with mem := r.2.2 }
    if r.1 then initEvents l w else (false, w)

/-- The macro `CHECK_EC`, `nm_iam_internal.c:438-445`, over the handlers: the first which fails ends it. -/
def initHandlers : List Handler → W → Bool × W
  | [], w => (true, w)
  | h :: l, w =>
    let r := coapInit w.mem
    let w := { w.put (.coap h) r.2.1 with mem := r.2.2 }
    if r.1 then initHandlers l w else (false, w)

/-- `nm_iam_init`, `nm_iam.c:25-72`. -/
def init (mem : List Bool) : Bool × W :=
  let m := ask mem
  let w : W := { mem := m.2, mutex := ⟨m.1, m.1⟩ }
  if !m.1 then (false, w)
  else
    let s := ask w.mem
    let c := ask s.2
    let w := { w with mem := c.2, state := ⟨s.1, s.1⟩, conf := ⟨c.1, c.1⟩ }
    if !s.1 || !c.1 then (false, w)
    else
      let r := initEvents [.auth, .pake, .events] { w with sets := true }
      if r.1 then initHandlers initOrder r.2 else r

/-- `nm_iam_stop`, `nm_iam.c:97-102`, with `nm_iam_internal_stop`, `nm_iam_internal.c:516-553`. -/
def stop (w : W) : W :=
  if !w.mutex.ptr then { w with bad := w.bad ++ [.null] }
  else W.acts listenerStop [.auth, .pake, .events] (W.acts coapStop (stopOrder.map .coap) w)

/-- A block of the module which is freed, if there is a pointer to it. -/
def free (r : Ref) : Ref × List Bad :=
  if !r.ptr then (r, []) else if r.live then ({ r with live := false }, []) else (r, [.freedTwice])

/-- `nm_iam_deinit`, `nm_iam.c:74-94`. -/
def deinit (w : W) : W :=
  if !w.mutex.ptr then w
  else
    let w := W.acts eventsDeinit [.auth, .pake, .events] w
    let w := W.acts coapDeinit (deinitOrder.map .coap) w
    { w with
      state := (free w.state).1
      conf := (free w.conf).1
      sets := false
      mutex := (free w.mutex).1
      bad := w.bad ++ (free w.state).2 ++ (free w.conf).2 ++ (if w.sets then [] else [.uninitialised]) ++ (free w.mutex).2 }

/-- `nabto_device_stop`, `nabto_device.c:189-217`, for a listener of the device and its future. -/
def deviceStopSub (s : Sub) : Sub :=
  if s.lLive && s.inited then { s with stopped := true, fut := .idle } else s

/-- What happens between `nm_iam_init` and `nm_iam_deinit`. -/
inductive Op
  /-- `nm_iam_stop` -/
  | stop
  /-- `nabto_device_stop` -/
  | deviceStop
  /-- the device has a request for a service -/
  | request (x : Svc)
  /-- the thread of the futures calls the callback of a service, which listens again after a request -/
  | callback (x : Svc)
  deriving DecidableEq, Repr

def step (w : W) : Op → W
  | .stop => stop w
  | .deviceStop => { w with subs := fun x => deviceStopSub (w.subs x) }
  | .request x => if (w.subs x).fut = .armed then w.put x { w.subs x with fut := .queued true } else w
  | .callback x =>
    match (w.subs x).fut with
    | .queued true => w.put x (startListen (w.subs x))
    | .queued false => w.put x { w.subs x with fut := .idle }
    | _ => w

def run (w : W) (ops : List Op) : W := ops.foldl step w

end Verif.Iam.Lifecycle
