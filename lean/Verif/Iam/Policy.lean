/-!
# IAM policy evaluation — model

Transcription of `/repo/src/modules/iam/policies/nm_condition.c`, `nm_statement.c`, `nm_policy.c` and of
the role check in `/repo/src/modules/iam/nm_iam_internal.c`.

Simplifications:
* `nn_string_set` (not in the repository) is a `List String` in its iteration order; every theorem holds
  for every list, hence for whatever iteration order the container has.
* `nn_string_map` is an association list; `get` is `List.lookup`.
* `strtod` and the comparisons on `double` are the parameter `NumSem`.
* C strings are Lean `String`s.
-/

namespace Verif.Iam

/-- `enum nm_iam_condition_operator`, `nm_iam_configuration.h:63-73`. -/
inductive Op
  | stringEquals | stringNotEquals
  | numericEquals | numericNotEquals
  | numericLessThan | numericLessThanEquals
  | numericGreaterThan | numericGreaterThanEquals
  | bool
  deriving DecidableEq, Repr

/-- `enum nm_condition_result`, `policies/nm_condition.h`. -/
inductive CondResult | match_ | noMatch | error
  deriving DecidableEq, Repr

/-- `enum nm_iam_effect`, `nm_iam_configuration.h`. -/
inductive Effect | allow | deny | noMatch | error
  deriving DecidableEq, Repr

/-- The behaviour of `strtod` (`parse s = some d` iff the whole string is consumed,
`nm_condition.c:75-83`) and of `==`, `<`, `<=` on `double`. -/
structure NumSem where
  D : Type
  parse : String → Option D
  eq : D → D → Bool
  lt : D → D → Bool
  le : D → D → Bool

/-- `struct nm_iam_condition`, `nm_iam_configuration.h:76-81`. -/
structure Condition where
  op : Op
  key : String
  values : List String
  deriving DecidableEq, Repr

/-- `struct nm_iam_statement`, `nm_iam_configuration.h:83-88`. -/
structure Statement where
  effect : Effect
  actions : List String
  conditions : List Condition
  deriving DecidableEq, Repr

/-- `struct nm_iam_policy`, `nm_iam_configuration.h`. -/
structure Policy where
  id : String
  statements : List Statement
  deriving DecidableEq, Repr

/-- `struct nm_iam_role`, `nm_iam_configuration.h`. -/
structure Role where
  id : String
  policies : List String
  deriving DecidableEq, Repr

/-- `struct nm_iam_configuration`, `nm_iam_configuration.h`. -/
structure Config where
  policies : List Policy
  roles : List Role
  unpairedRole : Option String
  deriving DecidableEq, Repr

/-- Attribute map (`nn_string_map`). -/
abbrev Attrs := List (String × String)

/-- `nm_condition_parse_bool`, `nm_condition.c:62-73`. -/
def parseBool (value : String) : Option Bool :=
  if value = "true" then some true
  else if value = "false" then some false
  else none

/-- `status`, `nm_condition.c:85-91`. -/
def status (s : Bool) : CondResult :=
  if s then .match_ else .noMatch

/-- `nm_condition_numeric_operator`, `nm_condition.c:93-119`. `a > b` is `b < a` and `a >= b` is
`b <= a` on doubles. -/
def numericOperator (N : NumSem) (op : Op) (lhs rhs : String) : CondResult :=
  match N.parse lhs, N.parse rhs with
  | some l, some r =>
    match op with
    | .numericEquals => status (N.eq l r)
    | .numericNotEquals => status (!N.eq l r)
    | .numericLessThan => status (N.lt l r)
    | .numericLessThanEquals => status (N.le l r)
    | .numericGreaterThan => status (N.lt r l)
    | .numericGreaterThanEquals => status (N.le r l)
    | .stringEquals | .stringNotEquals | .bool => .error
  | _, _ => .error

/-- `bool_equals`, `nm_condition.c:185-193`. -/
def boolEquals (lhs rhs : String) : CondResult :=
  match parseBool lhs, parseBool rhs with
  | some l, some r => status (l == r)
  | _, _ => .error

/-- `match`, `nm_condition.c:204-223`. -/
def matchOp (N : NumSem) (op : Op) (lhs rhs : String) : CondResult :=
  match op with
  | .stringEquals => status (lhs == rhs)
  | .stringNotEquals => status (lhs != rhs)
  | .numericEquals | .numericNotEquals | .numericLessThan | .numericLessThanEquals
  | .numericGreaterThan | .numericGreaterThanEquals => numericOperator N op lhs rhs
  | .bool => boolEquals lhs rhs

/-- `resolve_value`, `nm_condition.c:225-250`: `none` is the return value `false`. The C code compares
the first two and the last byte; on UTF-8 text this is the same as comparing characters. -/
def resolveValue (attributes : Attrs) (value : String) : Option String :=
  let cs := value.toList
  if cs.length < 3 then some value
  else if cs.take 2 = ['$', '{'] ∧ cs.getLast? = some '}' then
    attributes.lookup (String.ofList ((cs.drop 2).dropLast))
  else some value

/-- The loop of `nm_condition_matches`, `nm_condition.c:131-144`. -/
def matchValues (N : NumSem) (attributes : Attrs) (op : Op) (attributeValue : String) :
    List String → CondResult
  | [] => .noMatch
  | v :: vs =>
    match resolveValue attributes v with
    | some resolved =>
      match matchOp N op attributeValue resolved with
      | .error => .error
      | .match_ => .match_
      | .noMatch => matchValues N attributes op attributeValue vs
    | none => matchValues N attributes op attributeValue vs

/-- `nm_condition_matches`, `nm_condition.c:121-145`. -/
def conditionMatches (N : NumSem) (c : Condition) (attributes : Attrs) : CondResult :=
  match attributes.lookup c.key with
  | none => .noMatch
  | some attributeValue => matchValues N attributes c.op attributeValue c.values

/-- `match_conditions`, `nm_statement.c:76-87`. -/
def matchConditions (N : NumSem) (attributes : Attrs) : List Condition → CondResult
  | [] => .match_
  | c :: cs =>
    match conditionMatches N c attributes with
    | .noMatch => .noMatch
    | .error => .error
    | .match_ => matchConditions N attributes cs

/-- `nm_statement_eval`, `nm_statement.c:46-63`. -/
def statementEval (N : NumSem) (s : Statement) (action : String) (attributes : Attrs) : Effect :=
  if action ∉ s.actions then .noMatch
  else match matchConditions N attributes s.conditions with
    | .noMatch => .noMatch
    | .error => .error
    | .match_ => s.effect

/-- `nm_policy_statement_eval`, `nm_policy.c:72-83`; the state is the effect found so far. -/
def policyStatementEval (N : NumSem) (action : String) (attributes : Attrs)
    (state : Effect) (s : Statement) : Effect :=
  match state with
  | .deny => .deny
  | .error => .error
  | st =>
    match statementEval N s action attributes with
    | .error => .error
    | .deny => .deny
    | .allow => .allow
    | .noMatch => st

/-- `nm_policy_eval`, `nm_policy.c:64-70`. -/
def policyEval (N : NumSem) (action : String) (attributes : Attrs)
    (state : Effect) (p : Policy) : Effect :=
  p.statements.foldl (policyStatementEval N action attributes) state

/-- `nm_iam_internal_find_role`, `nm_iam_internal.c:140-153`. -/
def findRole (conf : Config) (roleStr : Option String) : Option Role :=
  match roleStr with
  | none => none
  | some r => conf.roles.find? (fun role => role.id == r)

/-- `nm_iam_internal_find_policy`, `nm_iam_internal.c:155-168`. -/
def findPolicy (conf : Config) (policyStr : String) : Option Policy :=
  conf.policies.find? (fun p => p.id == policyStr)

/-- The loop of `nm_iam_internal_check_access_role`, `nm_iam_internal.c:102-114`. -/
def checkRoleLoop (N : NumSem) (conf : Config) (action : String) (attributes : Attrs) :
    Effect → List String → Effect
  | state, [] => state
  | state, p :: ps =>
    match findPolicy conf p with
    | none => .error
    | some policy =>
      checkRoleLoop N conf action attributes (policyEval N action attributes state policy) ps

/-- `nm_iam_internal_check_access_role`, `nm_iam_internal.c:97-115`. -/
def checkAccessRole (N : NumSem) (conf : Config) (role : Role) (action : String)
    (attributes : Attrs) : Effect :=
  checkRoleLoop N conf action attributes .noMatch role.policies

end Verif.Iam
