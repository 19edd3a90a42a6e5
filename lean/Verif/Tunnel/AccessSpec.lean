import Verif.Tunnel.Access
import Verif.Tunnel.ManagerSpec
import Verif.Iam.HandlerSpec

/-!
# Tunnels behind the IAM module — specification
-/

namespace Verif.Tunnel.Access.Spec

open Verif.Iam Verif.Iam.Spec
open Verif.Tunnel.Manager (Svc)

/-- The device after a history. -/
def after (E : Env) (ops : List Op) : Option Sys := run E {} ops

/-- The state of the IAM module after a history. -/
def iamOf (ops : List Op) : Iam := ops.foldl (fun x o => match o with | .hand (.iam y) => y | _ => x) {}

/-- What there is to know about a connection after a history. -/
def connOf (c : Nat) (ops : List Op) : ConnInfo :=
  ops.foldl (fun x o => match o with | .hand (.conn d y) => if d = c then y else x | _ => x) { fpOk := false }

/-- After this history the configuration lets the connection do the action with the attributes. -/
def Allows (N : NumSem) (ops : List Op) (c : Nat) (action : String) (attrs : Attrs) : Prop :=
  ((connOf c ops).fpOk = true ∨ (connOf c ops).isVirtual = true) ∧
  ∃ user, ActsAs (iamOf ops) (connOf c ops) c user ∧
    ∃ rid, roleId (iamOf ops) user = some rid ∧
      ∃ role, FirstWith (fun r => r.id = rid) (iamOf ops).conf.roles role ∧
        Granted N (iamOf ops).conf role action
          ((match user with | some u => [("Connection:Username", u.username)] | none => []) ++
            [("Connection:IsLocal", if (connOf c ops).isLocal then "true" else "false")] ++ attrs)

/-- The attributes by which a service is known to the configuration. -/
def serviceAttrs (id type : String) : Attrs := [("TcpTunnel:ServiceId", id), ("TcpTunnel:ServiceType", type)]

/-- The handler of the IAM module is initialised, stopped and, when its last callback has returned, deinitialised; after
that no client asks for anything. -/
def allowed (hist : List Op) (s : Sys) : Op → Prop
  | .hand .init => .hand .init ∉ hist
  | .hand .stop => .hand .init ∈ hist ∧ .hand .deinit ∉ hist
  | .hand .deinit => .hand .stop ∈ hist ∧ .hand .deinit ∉ hist ∧ s.h.pc = .ended
  | .stream .. => .hand .deinit ∉ hist
  | .list .. => .hand .deinit ∉ hist
  | .get .. => .hand .deinit ∉ hist
  | _ => True

def Legal (E : Env) (ops : List Op) : Prop :=
  ∀ p o rest, ops = p ++ o :: rest → ∀ s, after E p = some s → allowed p s o

/-- The users connections were authorised as exist whenever the handler works, see C08. -/
def NoDangling (ops : List Op) : Prop :=
  ∀ p rest, ops = p ++ .hand .work :: rest → ∀ c, ¬ Dangling (iamOf p) (connOf c p) c

/-- What a step tells. -/
def told (s s' : Sys) : List Manager.Out := s'.m.out.drop s.m.out.length

end Verif.Tunnel.Access.Spec
