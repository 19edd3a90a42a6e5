import Verif.Tunnel.Manager
import Verif.Iam.Handler

/-!
# Tunnels behind the IAM module — model

The TCP tunnels of the core (`Tunnel/Manager`), whose checks of access are authorization requests which the handler of the
IAM module decides (`Iam/Handler`). Streams and CoAP requests come from connections; the core makes a request for the
connection, adds the attributes, and opens the tunnel or answers when the event queue delivers the verdict.

Simplifications: those of `Tunnel/Manager` and `Iam/Handler`. A request and what waits for its verdict (the three pointers
given to `check_access`) are put together by the number of the check.
-/

namespace Verif.Tunnel.Access

open Verif.Iam (Env ConnInfo Iam)
open Verif.Tunnel.Manager (findPort findId)

/-- Which allocations succeed while a request is made: the request, and three blocks for each attribute. -/
structure Mem where
  create : Bool := true
  id1 : Bool := true
  id2 : Bool := true
  id3 : Bool := true
  type1 : Bool := true
  type2 : Bool := true
  type3 : Bool := true
  deriving DecidableEq, Repr

def Mem.id (m : Mem) : Bool := m.id1 && m.id2 && m.id3
def Mem.type (m : Mem) : Bool := m.type1 && m.type2 && m.type3

/-- The names of the actions, `nm_tcp_tunnel.c:169`, `nm_tcp_tunnel_coap.c:82,207,213`. -/
def actionName : Manager.Action → String
  | .connect => "TcpTunnel:Connect"
  | .listServices => "TcpTunnel:ListServices"
  | .getService => "TcpTunnel:GetService"

structure Sys where
  h : Verif.Iam.Handler.W := Verif.Iam.Handler.init
  m : Manager.St := Manager.St.init
  /-- the requests behind the checks, in the order of the checks -/
  asks : List Nat := []
  /-- what the authorization module and the tunnels have seen; not in the code -/
  hev : List Verif.Iam.Handler.Ev := []
  mev : List Manager.Op := []

inductive Op
  /-- calls of the application, and connections which end -/
  | mgr (op : Manager.Op)
  /-- a stream of the connection arrives at a port -/
  | stream (conn : Nat) (port : UInt32) (mem : Mem)
  /-- `GET /tcp-tunnels/services` of the connection -/
  | list (conn : Nat) (mem : Mem)
  /-- `GET /tcp-tunnels/services/{id}` or `GET /tcp-tunnels/connect/{id}` of the connection -/
  | get (conn : Nat) (id : String) (connect : Bool) (mem : Mem)
  /-- the IAM module and its handler, and what is known about connections -/
  | hand (e : Verif.Iam.Handler.Ev)
  /-- the event queue gets to the verdict event of a request; `mem`: the allocations of the callback -/
  | run (i : Nat) (mem : Bool)
  deriving DecidableEq, Repr

/-- Who asks for what: `nm_tcp_tunnel.c:169-172`, `nm_tcp_tunnel_coap.c:82`, `nm_tcp_tunnel_coap.c:216-230`. -/
def asking (s : Sys) : Op → Option (Nat × Manager.Action × Option (String × String) × Mem)
  | .stream c port mem =>
    match findPort port s.m.services with
    | none => none
    | some x => some (c, .connect, some (x.id, x.type), mem)
  | .list c mem => some (c, .listServices, none, mem)
  | .get c id connect mem =>
    match findId id s.m.services with
    | none => none
    | some x => some (c, if connect then .connect else .getService, some (x.id, x.type), mem)
  | _ => none

/-- The calls of the authorization module for one check, `nm_tcp_tunnel.c:169-179`, `nm_tcp_tunnel_coap.c:82-86` and
`nm_tcp_tunnel_coap.c:227-236`. `i` is the request which is made. -/
def request (i c : Nat) (a : String) (attrs : Option (String × String)) (mem : Mem) : List Verif.Iam.Handler.Ev :=
  if mem.create = false then []
  else .create c a :: match attrs with
    | none => [.check i]
    | some (id, type) =>
      .add i "TcpTunnel:ServiceId" id mem.id1 mem.id2 mem.id3 ::
        if mem.id = false then [.discard i]
        else .add i "TcpTunnel:ServiceType" type mem.type1 mem.type2 mem.type3 ::
          if mem.type = false then [.discard i] else [.check i]

/-- What happens to the requests and to the handler. -/
def events (s : Sys) (op : Op) : List Verif.Iam.Handler.Ev :=
  match op with
  | .hand (.iam x) => [.iam x]
  | .hand (.conn c x) => [.conn c x]
  | .hand .init => [.init]
  | .hand .work => [.work]
  | .hand .stop => [.stop]
  | .hand .deinit => [.deinit]
  | .run i _ => [.run i]
  | _ =>
    match asking s op with
    | none => []
    | some (c, a, attrs, mem) => request s.h.auth.next c (actionName a) attrs mem

/-- What happens to the tunnels. `h'`: the requests afterwards; the verdict of a request is the answer of its check
(`handle_verdict`, `nabto_device_authorization.c:63-68`). -/
def calls (s : Sys) (h' : Verif.Iam.Handler.W) : Op → List Manager.Op
  | .mgr (.addService id type target mem mem' port) => [.addService id type target mem mem' port]
  | .mgr (.removeService id) => [.removeService id]
  | .mgr (.setLimit type limit mem) => [.setLimit type limit mem]
  | .mgr (.addMeta id key value mem) => [.addMeta id key value mem]
  | .mgr (.removeMeta id key) => [.removeMeta id key]
  | .mgr (.connEnds c) => [.connEnds c]
  | .mgr _ => []
  | .stream _ port mem => [.incoming port (mem.create && mem.id && mem.type)]
  | .list _ mem => [.coapList mem.create]
  | .get _ id connect mem => [.coapGet id connect (mem.create && mem.id && mem.type)]
  | .hand _ => []
  | .run _ mem =>
    match h'.auth.log.drop s.h.auth.log.length with
    | [.given j v] =>
      match s.asks.idxOf? j with
      | some r => [.verdict r v mem]
      | none => []
    | _ => []

/-- The request for which `check_access` is called. -/
def submitted : Verif.Iam.Handler.Ev → Option Nat
  | .check i => some i
  | _ => none

/-- One step; `none` is undefined behaviour. -/
def step (E : Env) (s : Sys) (op : Op) : Option Sys :=
  match Verif.Iam.Handler.run E s.h (events s op) with
  | none => none
  | some h' =>
    some {
      h := h'
      m := (calls s h' op).foldl Manager.step s.m
      asks := s.asks ++ (events s op).filterMap submitted
      hev := s.hev ++ events s op
      mev := s.mev ++ calls s h' op }

def run (E : Env) (s : Sys) : List Op → Option Sys
  | [] => some s
  | op :: ops => (step E s op).bind (run E · ops)

end Verif.Tunnel.Access
