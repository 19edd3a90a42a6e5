import Verif.Core.Attacher

/-!
# Attacher: what is claimed

The predicates in which C38, C39 and C55 are stated.
-/

namespace Verif.Core.Attacher.Spec

/-- The executions for which the attacher keeps its promises: a DTLS connection can be created when it is
needed; a datagram which was handed to the socket has been sent before the retry timer expires; and `start`
and `restart` are not called before a close is complete and its datagrams have been sent. -/
def Regular (s : St) : Act → Prop
  | .resolved _ e => e.create = true
  | .timer _ => ∀ c ∈ s.conns, c.destroyed = false
  | .start .. => s.closeEv = false
  | .restart _ => s.mod = .closed → s.state = .closed ∧ s.closeEv = false ∧ s.conns = []
  | _ => True

/-- A regular execution. -/
inductive Run : St → List Act → St → Prop
  | nil (s) : Run s [] s
  | cons {s t u a as} : Regular s a → step s a = some t → Run t as u → Run s (a :: as) u

/-- The calls of the API. Everything else comes from the environment. -/
def api : Act → Bool
  | .start .. | .close .. | .stop .. | .restart .. | .addToken .. => true
  | _ => false

/-- A request is outstanding on a connection. -/
def Requested (s : St) (id : Nat) : Prop :=
  s.startReq = some (some id) ∨ (s.sct.callback = some true ∧ s.sct.conn = some id) ∨ s.endReq = some (some id)

/-- Something is pending: a name is being resolved, the timer runs, or the current connection is connecting,
waits for the answer to a request, or waits for its last datagram to be sent. -/
def Pending (s : St) : Prop :=
  s.resolving = true ∨ s.timer.isSome ∨
    ∃ c, s.cur = some c ∧
      (c.phase = .connecting ∨ (c.phase = .data ∧ Requested s c.id) ∨ (c.phase = .closing ∧ c.sending = true))

/-- What starts or completes an attempt to attach: a name is given to the resolver, or the device is attached. -/
def attempt : Obs → Bool
  | .resolve _ => true
  | .event .attached => true
  | _ => false

/-- The current connection is up and has a request outstanding. -/
def answers (s : St) (conn : Option Nat) : Bool :=
  match s.cur with
  | some c => c.phase == .data && conn == some c.id
  | none => false

/-- The current connection is closing. -/
def closing (s : St) : Bool :=
  match s.cur with
  | some c => c.phase == .closing
  | none => false

/-- The action completes something which was pending: the name is resolved or not, the handshake succeeds or
the connection fails, a request on the current connection is answered or given up, the last datagram of the
current connection is sent, the keep alive gives the connection up, or the timer expires (and there is memory
to copy the name). -/
def completes (s : St) : Act → Bool
  | .resolved .. | .connected .. | .fail .. => true
  | .keepAliveTimeout .. => !closing s
  | .sent id => s.dtls == some id && closing s
  | .startResponse .. => answers s (s.startReq.getD none)
  | .sctResponse .. => s.sct.callback == some true && answers s s.sct.conn
  | .endResponse .. => answers s (s.endReq.getD none)
  | .timer mem => mem
  | _ => false

/-- The number of completions in an execution. -/
def completions (s : St) : List Act → Nat
  | [] => 0
  | a :: as =>
    match step s a with
    | some t => (if completes s a then 1 else 0) + completions t as
    | none => 0

/-- Actions of the environment, and added tokens. -/
def env : Act → Bool
  | .start .. | .close .. | .stop .. | .restart .. => false
  | _ => true

/-- Attached and detached events alternate, from "not attached" (`false`) on; the result is whether the last
event was an attached event. -/
def alternate : Bool → List Obs → Option Bool
  | b, [] => some b
  | b, .event .attached :: l => if b then none else alternate true l
  | b, .event .detached :: l => if b then alternate false l else none
  | b, _ :: l => alternate b l

/-- The action completes something a close waits for: the name is resolved, the last datagram of the current
connection is sent, or the close event runs. -/
def ends (s : St) : Act → Bool
  | .resolved .. | .closeEvent => true
  | .sent id => s.dtls == some id && closing s
  | _ => false

/-- The number of such completions in an execution. -/
def endings (s : St) : List Act → Nat
  | [] => 0
  | a :: as =>
    match step s a with
    | some t => (if ends s a then 1 else 0) + endings t as
    | none => 0

/-- The calls with which the application wants the device attached, and further closes. -/
def interferes : Act → Bool
  | .start .. | .restart .. | .close .. => true
  | _ => false

/-- A close with a callback. -/
def isClose (cb : Cb) : Act → Bool
  | .close c _ => c == cb
  | _ => false

/-- What a closed attacher may still show: tokens which the application adds, callbacks of further closes, and
that it is still closed. -/
def quiet : Obs → Bool
  | .added _ | .closedCb _ | .notify .closed => true
  | _ => false

/-- The host name of the successful start. -/
def configured : List Act → Option String
  | [] => none
  | .start h _ true :: _ => some h
  | _ :: as => configured as

/-- The names a server has redirected the device to. -/
def redirectedTo (as : List Act) (n : String) : Prop := ∃ p e, Act.startResponse (.redirect n p true) e ∈ as

/-- A name is given to the resolver. -/
def isResolve : Obs → Bool
  | .resolve _ => true
  | _ => false

/-- Actions which begin a new series of attempts: the calls of the application and the expiry of the timer,
which runs for ten seconds or an hour. -/
def begins : Act → Bool
  | .start .. | .restart .. | .timer .. => true
  | _ => false

end Verif.Core.Attacher.Spec
