import Verif.Iam.Handler
import Verif.Iam.AccessSpec
import Verif.Iam.PolicySpec
import Verif.Api.AuthorizationSpec

/-!
# The authorization handler of the IAM module — specification

What there is to know about a request is read off the history: its connection and action when it was made, its attributes
as they were added, the state of the IAM module and of the connection when it was decided.
-/

namespace Verif.Iam.Handler.Spec

open Verif.Api Verif.Iam Verif.Iam.Spec

/-- The state of the IAM module after a history. -/
def iamOf (hist : List Ev) : Iam := hist.foldl (fun x e => match e with | .iam y => y | _ => x) {}

/-- What there is to know about a connection after a history. -/
def connOf (ref : Nat) (hist : List Ev) : ConnInfo :=
  hist.foldl (fun x e => match e with | .conn r y => if r = ref then y else x | _ => x) { fpOk := false }

/-- The requests in the order in which they were made: connection and action. -/
def creates (hist : List Ev) : List (Nat × String) :=
  hist.filterMap fun | .create c a => some (c, a) | _ => none

/-- The attributes which were added to a request, in this order. -/
def attrsOf (i : Nat) (hist : List Ev) : Attrs :=
  hist.filterMap fun | .add j k v true true true => if j = i then some (k, v) else none | _ => none

/-- After this history the configuration permits what the request asks for. If an attribute was added twice the first
counts. -/
def Permits (N : NumSem) (hist : List Ev) (i : Nat) : Prop :=
  ∃ (c : Nat) (a : String), (creates hist)[i]? = some (c, a) ∧
    ((connOf c hist).fpOk = true ∨ (connOf c hist).isVirtual = true) ∧
    ∃ user, ActsAs (iamOf hist) (connOf c hist) c user ∧
      ∃ rid, roleId (iamOf hist) user = some rid ∧
        ∃ role, FirstWith (fun r => r.id = rid) (iamOf hist).conf.roles role ∧
          Granted N (iamOf hist).conf role a
            ((match user with | some u => [("Connection:Username", u.username)] | none => []) ++
              [("Connection:IsLocal", if (connOf c hist).isLocal then "true" else "false")] ++ attrsOf i hist)

/-- A map: inserting makes the new value the value of the key and changes nothing else, and no key occurs twice. -/
def IsMap (ins : Attrs → String → String → Attrs) : Prop :=
  Overwrites ins ∧ ∀ m k v, (m.map (·.1)).Nodup → ((ins m k v).map (·.1)).Nodup

/-- The core uses a request as long as it has neither submitted nor discarded it. -/
def own (hist : List Ev) (i : Nat) : Prop := i < (creates hist).length ∧ .check i ∉ hist ∧ .discard i ∉ hist

/-- What may happen after a history: the handler is initialised, stopped and, when its last callback has returned,
deinitialised. -/
def allowed (hist : List Ev) (w : W) : Ev → Prop
  | .add i _ _ _ _ _ => own hist i
  | .discard i => own hist i
  | .check i => own hist i ∧ .deinit ∉ hist
  | .init => .init ∉ hist
  | .stop => .init ∈ hist ∧ .deinit ∉ hist
  | .deinit => .stop ∈ hist ∧ .deinit ∉ hist ∧ w.pc = .ended
  | _ => True

def Legal (E : Env) (hist : List Ev) : Prop :=
  ∀ p e rest, hist = p ++ e :: rest → ∀ w, run E init p = some w → allowed p w e

/-- The users of the IAM module which connections were authorised as exist whenever the handler works, see C08. -/
def NoDangling (hist : List Ev) : Prop :=
  ∀ p rest, hist = p ++ .work :: rest → ∀ (i c : Nat) (a : String), (creates p)[i]? = some (c, a) → ¬ Dangling (iamOf p) (connOf c p) c

/-- Nothing is under way: the handler is not working on a request and no verdict waits in the event queue. -/
def Quiet (w : W) : Prop :=
  (w.pc = .off ∨ w.pc = .waiting ∨ w.pc = .ended ∨ w.pc = .gone) ∧ ∀ i, (w.auth.reqs i).posted = false

/-- The application was not asked: the handler was not there when the request was submitted, or has been stopped. -/
def NotAsked (hist : List Ev) (i : Nat) : Prop :=
  .stop ∈ hist ∨ ∃ p rest, hist = p ++ .check i :: rest ∧ .init ∉ p

end Verif.Iam.Handler.Spec
