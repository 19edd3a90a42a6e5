import Verif.Iam.Json
import Verif.Iam.Policy

/-!
# Loading an IAM configuration when memory is short — model

Transcription of the loading part of `/repo/src/modules/iam/nm_iam_serializer.c`, `nm_iam_from_json.c`,
`policies/nm_policies_from_json.c` and of the evaluation of what was loaded (`policies/nm_condition.c`,
`policies/nm_statement.c`, `policies/nm_policy.c`), where each allocation may fail.

Simplifications:
* `nn_string_set_insert` (not in the repository) succeeds without an allocation if the string is in the set, else it takes
  one block, and answers false and leaves the set alone if there is none.
* The document is the tree made by `cJSON_Parse`, `none` if it could not be parsed or memory ran out.
* `nn_string_map_get` (not in the repository) with the key `NULL` is undefined.
-/

namespace Verif.Iam.ConfigLoad

open Verif.Json (getItem asStr asArr asNum isObj)

/-- The allocator: which of the next requests succeed (all, after the end of the list), and the numbers of blocks handed
out and given back. -/
structure Heap where
  mem : List Bool := []
  made : Nat := 0
  freed : Nat := 0
  deriving DecidableEq, Repr

/-- `nm_iam_calloc`, and `nn_strdup` with the allocator of the module. -/
def alloc (h : Heap) : Bool × Heap :=
  match h.mem with
  | [] => (true, { h with made := h.made + 1 })
  | b :: m => (b, { h with mem := m, made := h.made + b.toNat })

/-- `nm_iam_free` of that many blocks. -/
def free (n : Nat) (h : Heap) : Heap := { h with freed := h.freed + n }

/-- `struct nm_iam_condition`, `nm_iam_configuration.h:76-81`; the key may be NULL. -/
structure Cond where
  op : Op
  key : Option String
  values : List String
  deriving DecidableEq, Repr

/-- `struct nm_iam_statement`, `nm_iam_configuration.h:83-88`. -/
structure Stmt where
  effect : Effect
  actions : List String
  conditions : List Cond
  deriving DecidableEq, Repr

/-- `struct nm_iam_policy`. -/
structure Pol where
  id : String
  statements : List Stmt
  deriving DecidableEq, Repr

/-- `struct nm_iam_configuration`. -/
structure Conf where
  policies : List Pol := []
  roles : List Role := []
  unpairedRole : Option String := none
  deriving DecidableEq, Repr

/-- The blocks of a condition. -/
def Cond.size (c : Cond) : Nat := 1 + c.key.isSome.toNat + c.values.length
/-- The blocks of a statement. -/
def Stmt.size (s : Stmt) : Nat := 1 + s.actions.length + (s.conditions.map Cond.size).sum
/-- The blocks of a policy. -/
def Pol.size (p : Pol) : Nat := 2 + (p.statements.map Stmt.size).sum
/-- The blocks of a role. -/
def roleSize (r : Role) : Nat := 2 + r.policies.length
/-- The blocks of a configuration, without the one for itself. -/
def Conf.size (c : Conf) : Nat :=
  (c.policies.map Pol.size).sum + (c.roles.map roleSize).sum + c.unpairedRole.isSome.toNat

/-- `nn_string_set_insert`. -/
def insert (set : List String) (s : String) (h : Heap) : Bool × List String × Heap :=
  if s ∈ set then (true, set, h)
  else if (alloc h).1 then (true, set ++ [s], (alloc h).2)
  else (false, set, (alloc h).2)

/-- The loop over the values of a condition, `nm_policies_from_json.c:56-66`; the result of the insertion is not looked
at. False if a value is not a string. -/
def insertValues (set : List String) (h : Heap) : List Doc → Bool × List String × Heap
  | [] => (true, set, h)
  | .str s :: l => insertValues (insert set s h).2.1 (insert set s h).2.2 l
  | _ :: _ => (false, set, h)

/-- The loop over the actions of a statement, `nm_policies_from_json.c:110-120`. -/
def insertActions (set : List String) (h : Heap) : List Doc → Bool × List String × Heap
  | [] => (true, set, h)
  | .str s :: l =>
    if (insert set s h).1 then insertActions (insert set s h).2.1 (insert set s h).2.2 l
    else (false, (insert set s h).2.1, (insert set s h).2.2)
  | _ :: _ => (false, set, h)

/-- The loop over the policies of a role, `nm_iam_from_json.c:25-32`; the result of the insertion is not looked at, and
what is not a string is skipped. -/
def insertPolicies (set : List String) (h : Heap) : List Doc → List String × Heap
  | [] => (set, h)
  | .str s :: l => insertPolicies (insert set s h).2.1 (insert set s h).2.2 l
  | _ :: l => insertPolicies set h l

/-- `nm_condition_from_json_parse`, `nm_policies_from_json.c:44-67`, for a new condition. -/
def condParse (op : Op) (kv : List (String × Doc)) (h : Heap) : Bool × Cond × Heap :=
  match kv with
  | (key, .arr values) :: _ =>
    let k := alloc h
    let v := insertValues [] k.2 values
    (v.1, ⟨op, if k.1 then some key else none, v.2.1⟩, v.2.2)
  | _ => (false, ⟨op, none, []⟩, h)

/-- `nm_condition_from_json`, `nm_policies_from_json.c:18-42`. -/
def condFromJson (json : Doc) (h : Heap) : Option Cond × Heap :=
  match json with
  | .obj ((name, .obj kv) :: _) =>
    match parseOp name with
    | none => (none, h)
    | some op =>
      if (alloc h).1 then
        let r := condParse op kv (alloc h).2
        if r.1 then (some r.2.1, r.2.2)
        else (none, free r.2.1.size r.2.2)
      else (none, (alloc h).2)
  | _ => (none, h)

/-- A loop over an array which loads an element and appends it to a list, and ends with false if an element could not be
loaded: the conditions of a statement (`nm_policies_from_json.c:122-132`), the statements of a policy
(`nm_policy_from_json_parse`, 162-175), and the policies and roles of a configuration (`nm_iam_serializer.c:91-111`). -/
def loadList {α} (f : Doc → Heap → Option α × Heap) (acc : List α) (h : Heap) : List Doc → Bool × List α × Heap
  | [] => (true, acc, h)
  | x :: l =>
    match f x h with
    | (some a, h) => loadList f (acc ++ [a]) h l
    | (none, h) => (false, acc, h)

/-- `nm_statement_from_json_parse`, `nm_policies_from_json.c:108-134`, for a new statement. -/
def stmtParse (e : Effect) (actions : List Doc) (conditions : Option (List Doc)) (h : Heap) : Bool × Stmt × Heap :=
  let a := insertActions [] h actions
  if !a.1 then (false, ⟨e, a.2.1, []⟩, a.2.2)
  else match conditions with
    | some l =>
      let c := loadList condFromJson [] a.2.2 l
      (c.1, ⟨e, a.2.1, c.2.1⟩, c.2.2)
    | none => (true, ⟨e, a.2.1, []⟩, a.2.2)

/-- `nm_statement_from_json`, `nm_policies_from_json.c:69-106`. -/
def stmtFromJson (json : Doc) (h : Heap) : Option Stmt × Heap :=
  if !isObj (some json) then (none, h)
  else match asStr (getItem json "Effect"), asArr (getItem json "Actions") with
    | some e, some actions =>
      match parseEffect e with
      | none => (none, h)
      | some e =>
        if (alloc h).1 then
          let r := stmtParse e actions (asArr (getItem json "Conditions")) (alloc h).2
          if r.1 then (some r.2.1, r.2.2)
          else (none, free r.2.1.size r.2.2)
        else (none, (alloc h).2)
    | _, _ => (none, h)

/-- `nm_policy_new`, `nm_policy.c:12-29`, and `nm_iam_role_new`, `nm_iam_role.c:12-32`: the copy of the name, then the
block; both are given back if one is missing. -/
def allocNamed (h : Heap) : Bool × Heap :=
  let a := alloc h
  let b := alloc a.2
  if a.1 && b.1 then (true, b.2) else (false, free (a.1.toNat + b.1.toNat) b.2)

/-- `nm_policy_from_json`, `nm_policies_from_json.c:136-160`. -/
def polFromJson (json : Doc) (h : Heap) : Option Pol × Heap :=
  if !isObj (some json) then (none, h)
  else match asStr (getItem json "Id"), asArr (getItem json "Statements") with
    | some id, some l =>
      if (allocNamed h).1 then
        let r := loadList stmtFromJson [] (allocNamed h).2 l
        if r.1 then (some ⟨id, r.2.1⟩, r.2.2)
        else (none, free (Pol.size ⟨id, r.2.1⟩) r.2.2)
      else (none, (allocNamed h).2)
    | _, _ => (none, h)

/-- `nm_iam_role_from_json`, `nm_iam_from_json.c:10-34`. -/
def roleLoad (json : Doc) (h : Heap) : Option Role × Heap :=
  match asStr (getItem json "Id"), asArr (getItem json "Policies") with
  | some id, some l =>
    if (allocNamed h).1 then
      (some ⟨id, (insertPolicies [] (allocNamed h).2 l).1⟩, (insertPolicies [] (allocNamed h).2 l).2)
    else (none, (allocNamed h).2)
  | _, _ => (none, h)

/-- `nm_iam_configuration_set_unpaired_role`, `nm_iam_configuration.c:52-70`; the caller does not look at the result. -/
def setUnpaired (conf : Conf) (role : String) (h : Heap) : Conf × Heap :=
  if (alloc h).1 then ({ conf with unpairedRole := some role }, free conf.unpairedRole.isSome.toNat (alloc h).2)
  else (conf, (alloc h).2)

/-- `nm_iam_serializer_configuration_load_json`, `nm_iam_serializer.c:46-126`: the result, and the configuration, which
belongs to the caller. -/
def load (conf : Conf) (root : Option Doc) (h : Heap) : Bool × Conf × Heap :=
  match root with
  | none => (false, conf, h)
  | some root =>
    if !isObj (some root) then (false, conf, h)
    else match asArr (getItem root "Policies"), asArr (getItem root "Roles") with
      | some policies, some roles =>
        if asNum (getItem root "Version") ≠ some 1 then (false, conf, h)
        else match getItem root "Config" with
          | some (.obj config) =>
            -- what was loaded before a failure stays in the configuration
            let p := loadList polFromJson conf.policies h policies
            if !p.1 then (false, { conf with policies := p.2.1 }, p.2.2)
            else
              let r := loadList roleLoad conf.roles p.2.2 roles
              if !r.1 then (false, { conf with policies := p.2.1, roles := r.2.1 }, r.2.2)
              else match asStr (getItem (.obj config) "UnpairedRole") with
                | some role => (true, setUnpaired { conf with policies := p.2.1, roles := r.2.1 } role r.2.2)
                | none => (true, { conf with policies := p.2.1, roles := r.2.1 }, r.2.2)
          | _ => (false, conf, h)
      | _, _ => (false, conf, h)

/-! ## Evaluation; `none` is undefined behaviour -/

/-- `nm_condition_matches`, `nm_condition.c:121-145`. -/
def condMatches (N : NumSem) (c : Cond) (attributes : Attrs) : Option CondResult :=
  match c.key with
  | none => none
  | some key => some (conditionMatches N ⟨c.op, key, c.values⟩ attributes)

/-- `match_conditions`, `nm_statement.c:76-87`. -/
def matchConds (N : NumSem) (attributes : Attrs) : List Cond → Option CondResult
  | [] => some .match_
  | c :: cs =>
    match condMatches N c attributes with
    | none => none
    | some .noMatch => some .noMatch
    | some .error => some .error
    | some .match_ => matchConds N attributes cs

/-- `nm_statement_eval`, `nm_statement.c:46-63`. -/
def stmtEval (N : NumSem) (s : Stmt) (action : String) (attributes : Attrs) : Option Effect :=
  if action ∉ s.actions then some .noMatch
  else match matchConds N attributes s.conditions with
    | none => none
    | some .noMatch => some .noMatch
    | some .error => some .error
    | some .match_ => some s.effect

/-- `nm_policy_statement_eval`, `nm_policy.c:72-83`. -/
def polStmtEval (N : NumSem) (action : String) (attributes : Attrs) (state : Effect) (s : Stmt) : Option Effect :=
  match state with
  | .deny => some .deny
  | .error => some .error
  | st =>
    match stmtEval N s action attributes with
    | none => none
    | some .noMatch => some st
    | some e => some e

/-- `nm_policy_eval`, `nm_policy.c:64-70`. -/
def polEval (N : NumSem) (action : String) (attributes : Attrs) (state : Effect) : List Stmt → Option Effect
  | [] => some state
  | s :: l =>
    match polStmtEval N action attributes state s with
    | none => none
    | some st => polEval N action attributes st l

/-- The loop of `nm_iam_internal_check_access_role`, `nm_iam_internal.c:102-114`. -/
def roleLoop (N : NumSem) (conf : Conf) (action : String) (attributes : Attrs) (state : Effect) :
    List String → Option Effect
  | [] => some state
  | p :: ps =>
    match conf.policies.find? (fun x => x.id == p) with
    | none => some .error
    | some pol =>
      match polEval N action attributes state pol.statements with
      | none => none
      | some st => roleLoop N conf action attributes st ps

/-- The role and the decision, `nm_iam_internal.c:63-83`, for the name of a role: the user's, or the unpaired role. -/
def access (N : NumSem) (conf : Conf) (role : Option String) (action : String) (attributes : Attrs) : Option Effect :=
  match role with
  | none => some .error
  | some r =>
    match conf.roles.find? (fun x => x.id == r) with
    | none => some .error
    | some role => roleLoop N conf action attributes .noMatch role.policies

end Verif.Iam.ConfigLoad
