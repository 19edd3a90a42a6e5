import Verif.Iam.Policy

/-!
# IAM policy evaluation — specification

What the policy language means, stated without reference to the evaluation functions of
`Verif.Iam.Policy` (only its data types are used).
-/

namespace Verif.Iam.Spec

open Verif.Iam

/-- The text `${n}`. -/
def variable_ (n : String) : String := "${" ++ n ++ "}"

/-- A condition value denotes a string: a variable denotes the request attribute of that name (nothing if
the attribute is absent), any other text denotes itself. -/
inductive Denotes (attrs : Attrs) : String → String → Prop
  | var (n s) : attrs.lookup n = some s → Denotes attrs (variable_ n) s
  | lit (v) : (∀ n, v ≠ variable_ n) → Denotes attrs v v

/-- The relation an operator stands for. -/
inductive Holds (N : NumSem) : Op → String → String → Prop
  | strEq (a) : Holds N .stringEquals a a
  | strNe (a b) : a ≠ b → Holds N .stringNotEquals a b
  | numEq (a b x y) : N.parse a = some x → N.parse b = some y → N.eq x y = true →
      Holds N .numericEquals a b
  | numNe (a b x y) : N.parse a = some x → N.parse b = some y → N.eq x y = false →
      Holds N .numericNotEquals a b
  | numLt (a b x y) : N.parse a = some x → N.parse b = some y → N.lt x y = true →
      Holds N .numericLessThan a b
  | numLe (a b x y) : N.parse a = some x → N.parse b = some y → N.le x y = true →
      Holds N .numericLessThanEquals a b
  | numGt (a b x y) : N.parse a = some x → N.parse b = some y → N.lt y x = true →
      Holds N .numericGreaterThan a b
  | numGe (a b x y) : N.parse a = some x → N.parse b = some y → N.le y x = true →
      Holds N .numericGreaterThanEquals a b
  | boolT : Holds N .bool "true" "true"
  | boolF : Holds N .bool "false" "false"

/-- The numeric operators. -/
def numericOps : List Op :=
  [.numericEquals, .numericNotEquals, .numericLessThan, .numericLessThanEquals,
   .numericGreaterThan, .numericGreaterThanEquals]

/-- The comparison has no meaning: text that is not a number under a numeric operator or not a boolean
under the boolean operator. -/
inductive Meaningless (N : NumSem) : Op → String → String → Prop
  | num (op a b) : op ∈ numericOps → (N.parse a = none ∨ N.parse b = none) → Meaningless N op a b
  | bool (a b) : ((a ≠ "true" ∧ a ≠ "false") ∨ (b ≠ "true" ∧ b ≠ "false")) →
      Meaningless N .bool a b

/-- The condition is met: the attribute is present and one of the values is met, all earlier values
having been meaningful. -/
def CondMet (N : NumSem) (attrs : Attrs) (c : Condition) : Prop :=
  ∃ a, attrs.lookup c.key = some a ∧
    ∃ pre v post, c.values = pre ++ v :: post ∧
      (∃ s, Denotes attrs v s ∧ Holds N c.op a s) ∧
      ∀ w ∈ pre, ∀ t, Denotes attrs w t → ¬ Meaningless N c.op a t

/-- The condition cannot be evaluated: the attribute is present and some value is meaningless, no earlier
value being met. -/
def CondFails (N : NumSem) (attrs : Attrs) (c : Condition) : Prop :=
  ∃ a, attrs.lookup c.key = some a ∧
    ∃ pre v post, c.values = pre ++ v :: post ∧
      (∃ s, Denotes attrs v s ∧ Meaningless N c.op a s) ∧
      ∀ w ∈ pre, ∀ t, Denotes attrs w t → ¬ Holds N c.op a t

/-- All conditions are met. -/
def AllMet (N : NumSem) (attrs : Attrs) (cs : List Condition) : Prop := ∀ c ∈ cs, CondMet N attrs c

/-- Some condition cannot be evaluated while all conditions before it are met. -/
def SomeFails (N : NumSem) (attrs : Attrs) (cs : List Condition) : Prop :=
  ∃ pre c post, cs = pre ++ c :: post ∧ CondFails N attrs c ∧ ∀ d ∈ pre, CondMet N attrs d

/-- The statement applies to the request. -/
def Applies (N : NumSem) (attrs : Attrs) (action : String) (s : Statement) : Prop :=
  action ∈ s.actions ∧ AllMet N attrs s.conditions

/-- The statement is about the requested action but cannot be evaluated. -/
def Broken (N : NumSem) (attrs : Attrs) (action : String) (s : Statement) : Prop :=
  action ∈ s.actions ∧ SomeFails N attrs s.conditions

/-- The statements governing a role: those of the policies the role names (the first policy with that
id). `InRole` says the statement `s` is one of them. -/
def InRole (conf : Config) (role : Role) (s : Statement) : Prop :=
  ∃ pid ∈ role.policies, ∃ p, conf.policies.find? (fun q => q.id == pid) = some p ∧ s ∈ p.statements

/-- Every policy the role names exists. -/
def PoliciesExist (conf : Config) (role : Role) : Prop :=
  ∀ pid ∈ role.policies, ∃ p ∈ conf.policies, p.id = pid

/-- The role grants the action: some applicable statement allows, none denies, none is broken, and no
policy is missing. -/
def Granted (N : NumSem) (conf : Config) (role : Role) (action : String) (attrs : Attrs) : Prop :=
  PoliciesExist conf role ∧
  (∃ s, InRole conf role s ∧ Applies N attrs action s ∧ s.effect = .allow) ∧
  ∀ s, InRole conf role s →
    ¬ Broken N attrs action s ∧
    (Applies N attrs action s → s.effect ≠ .deny ∧ s.effect ≠ .error)

end Verif.Iam.Spec
