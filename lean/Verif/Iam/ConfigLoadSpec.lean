import Verif.Iam.ConfigLoad
import Mathlib.Data.List.Forall2

/-!
# Loading an IAM configuration when memory is short: what is expected
-/

namespace Verif.Iam.ConfigLoad.Spec

/-- The access the document gives, by the rules for a device which has memory enough (C01 to C06 are about them). -/
def granted (N : NumSem) (conf : Config) (role : Option String) (action : String) (attributes : Attrs) : Prop :=
  ∃ r, findRole conf role = some r ∧ checkAccessRole N conf r action attributes = .allow

/-- A configuration as one which may have lost something. -/
def wholeCond (c : Condition) : Cond := ⟨c.op, some c.key, c.values⟩
def wholeStmt (s : Statement) : Stmt := ⟨s.effect, s.actions, s.conditions.map wholeCond⟩
def wholePol (p : Policy) : Pol := ⟨p.id, p.statements.map wholeStmt⟩
def whole (c : Config) : Conf := ⟨c.policies.map wholePol, c.roles, c.unpairedRole⟩

/-- What may be missing of a condition: its key, and some of its values. -/
structure CondLess (a : Cond) (b : Condition) : Prop where
  op : a.op = b.op
  key : ∀ k, a.key = some k → k = b.key
  values : a.values ⊆ b.values

/-- Nothing is missing of a statement, but of its conditions. -/
structure StmtLess (a : Stmt) (b : Statement) : Prop where
  effect : a.effect = b.effect
  actions : a.actions = b.actions
  conditions : List.Forall₂ CondLess a.conditions b.conditions

structure PolLess (a : Pol) (b : Policy) : Prop where
  id : a.id = b.id
  statements : List.Forall₂ StmtLess a.statements b.statements

/-- Some of the policies of a role may be missing. -/
structure RoleLess (a b : Role) : Prop where
  id : a.id = b.id
  policies : a.policies ⊆ b.policies

/-- What may be missing of a configuration. -/
structure Less (a : Conf) (b : Config) : Prop where
  policies : List.Forall₂ PolLess a.policies b.policies
  roles : List.Forall₂ RoleLess a.roles b.roles
  unpaired : a.unpairedRole = none ∨ a.unpairedRole = b.unpairedRole

/-- A configuration which only allows, under conditions on strings, and whose roles name policies which exist. -/
structure AllowOnly (c : Config) : Prop where
  effect : ∀ p ∈ c.policies, ∀ s ∈ p.statements, s.effect = .allow
  ops : ∀ p ∈ c.policies, ∀ s ∈ p.statements, ∀ x ∈ s.conditions, x.op = .stringEquals ∨ x.op = .stringNotEquals
  exist : ∀ r ∈ c.roles, ∀ n ∈ r.policies, ∃ p ∈ c.policies, p.id = n

/-- No request for memory is refused. -/
def Plenty (h : Heap) : Prop := ∀ b ∈ h.mem, b = true

end Verif.Iam.ConfigLoad.Spec
