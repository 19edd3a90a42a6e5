import Verif.Iam.Policy

/-!
# The configuration builder — model

Model of `src/modules/iam/nm_iam_configuration.c`, and of the functions which make and free roles, policies, statements and
conditions in `nm_iam_role.c`, `policies/nm_policy.c`, `policies/nm_statement.c` and `policies/nm_condition.c`.

A structure is a node on a heap; pointers are handles, which are never used twice. `live` counts the blocks of memory in use:
the structures, and the strings they own. Every call carries what the allocator answers during it.

The contract of the API is that a handle is used only while its structure exists, that a policy or role is added at most once,
and that it is not freed by the caller once it was added. A call outside of it sets `bad`.

`nn_string_set` (not in the repository) is a list without duplicates, in the order of insertion; an insertion takes one block,
or none if the string is there, and fails without a change when there is no memory. `nn_llist` is a list of handles.
-/

namespace Verif.Iam.Builder

/-- The structures of nm_iam_configuration.c:12-21, nm_iam_role.c:12-32, nm_policy.c:12-29, nm_statement.c:16-27 and
nm_condition.c:15-25. -/
inductive Node
  /-- `struct nm_iam_condition`: the key is a pointer which can be NULL -/
  | cond (op : Op) (key : Option String) (values : List String)
  | stmt (effect : Effect) (actions : List String) (conds : List Nat)
  | pol (id : String) (stmts : List Nat)
  | role (id : String) (policies : List String)
  | conf (roles pols : List Nat) (unpaired : Option String)
  deriving DecidableEq, Repr

structure Heap where
  node : Nat → Option Node
  next : Nat
  live : Int
  bad : Bool

def Heap.init : Heap := ⟨fun _ => none, 0, 0, false⟩

inductive Call
  | newConf (mem : Bool)
  | newPol (name : String) (mem1 mem2 : Bool)
  | newRole (name : String) (mem1 mem2 : Bool)
  | createStmt (p : Nat) (effect : Effect) (mem : Bool)
  | createCond (s : Nat) (op : Op) (key : String) (mem1 mem2 : Bool)
  | addAction (s : Nat) (action : String) (mem : Bool)
  | addValue (c : Nat) (value : String) (mem : Bool)
  | addRolePolicy (r : Nat) (policy : String) (mem : Bool)
  | addPol (conf p : Nat)
  | addRole (conf r : Nat)
  | setUnpaired (conf : Nat) (role : Option String) (mem : Bool)
  | freePol (p : Nat)
  | freeRole (r : Nat)
  | freeConf (conf : Nat)
  deriving DecidableEq, Repr

inductive Ret
  | handle (h : Option Nat)
  | bool (b : Bool)
  | unit
  deriving DecidableEq, Repr

/-- Outside of the contract. -/
def Heap.misuse (H : Heap) : Heap := { H with bad := true }

/-- A node is changed; `k` more blocks are in use. -/
def Heap.put (H : Heap) (h : Nat) (n : Node) (k : Int) : Heap :=
  { H with node := fun x => if x = h then some n else H.node x, live := H.live + k }

/-- A new node of `k` blocks. -/
def Heap.make (H : Heap) (n : Node) (k : Int) : Heap × Ret :=
  ({ H.put H.next n k with next := H.next + 1 }, .handle (some H.next))

/-- A node is freed, with `k` blocks. -/
def Heap.del (H : Heap) (h : Nat) (k : Int) : Heap :=
  { H with node := fun x => if x = h then none else H.node x, live := H.live - k }

/-- `nn_string_set_insert`: the set, the answer and the blocks taken. -/
def insert (l : List String) (v : String) (mem : Bool) : List String × Bool × Int :=
  if v ∈ l then (l, true, 0) else if mem then (l ++ [v], true, 1) else (l, false, 0)

def one (b : Bool) : Int := if b then 1 else 0

/-- `nm_condition_free`, nm_condition.c:38-42, with `nm_condition_deinit`, 50-55. -/
def freeCond (H : Heap) (c : Nat) : Heap :=
  match H.node c with
  | some (.cond _ key values) => H.del c (values.length + one key.isSome + 1)
  | _ => H.misuse

/-- `nm_statement_free`, nm_statement.c:29-44. -/
def freeStmt (H : Heap) (s : Nat) : Heap :=
  match H.node s with
  | some (.stmt _ actions conds) => (conds.foldl freeCond H).del s (actions.length + 1)
  | _ => H.misuse

/-- `nm_policy_free`, nm_policy.c:31-44. -/
def freePol (H : Heap) (p : Nat) : Heap :=
  match H.node p with
  | some (.pol _ stmts) => (stmts.foldl freeStmt H).del p (1 + 1)
  | _ => H.misuse

/-- `nm_iam_role_free`, nm_iam_role.c:34-39. -/
def freeRole (H : Heap) (r : Nat) : Heap :=
  match H.node r with
  | some (.role _ policies) => H.del r (policies.length + 1 + 1)
  | _ => H.misuse

/-- `nm_iam_configuration_free`, nm_iam_configuration.c:23-50. -/
def freeConf (H : Heap) (c : Nat) : Heap :=
  match H.node c with
  | some (.conf roles pols unpaired) =>
    (pols.foldl freePol (roles.foldl freeRole H)).del c (one unpaired.isSome + 1)
  | _ => H.misuse

/-- The nodes in the lists of a node, through their `listNode`: nm_iam_configuration.c:72-82, nm_policy.c:47-51,
nm_statement.c:70-74. -/
def kids : Node → List Nat
  | .stmt _ _ conds => conds
  | .pol _ stmts => stmts
  | .conf roles pols _ => roles ++ pols
  | _ => []

/-- The structure is in a list of another one: its `listNode` is in use. -/
def Heap.owned (H : Heap) (h : Nat) : Bool :=
  (List.range H.next).any fun a =>
    match H.node a with
    | some n => decide (h ∈ kids n)
    | none => false

/-- `set_string`, nm_iam_configuration.c:52-65. -/
def setString (old new : Option String) (mem : Bool) : Option String × Bool × Int :=
  match new with
  | none => (none, true, - one old.isSome)
  | some s => if mem then (some s, true, 1 - one old.isSome) else (old, false, 0)

/-- The functions of the builder. -/
def step (H : Heap) : Call → Heap × Ret
  -- `nm_iam_configuration_new`, nm_iam_configuration.c:12-21
  | .newConf mem => if mem then H.make (.conf [] [] none) 1 else (H, .handle none)
  -- `nm_policy_new`, nm_policy.c:12-29: a copy of the name, and the structure
  | .newPol name m1 m2 => if m1 && m2 then H.make (.pol name []) 2 else (H, .handle none)
  -- `nm_iam_role_new`, nm_iam_role.c:12-32
  | .newRole name m1 m2 => if m1 && m2 then H.make (.role name []) 2 else (H, .handle none)
  -- `nm_iam_configuration_policy_create_statement`, nm_iam_configuration.c:94-102
  | .createStmt p effect mem =>
    match H.node p with
    | some (.pol id stmts) =>
      if mem then
        let r := H.make (.stmt effect [] []) 1
        (r.1.put p (.pol id (stmts ++ [H.next])) 0, r.2)
      else (H, .handle none)
    | _ => (H.misuse, .unit)
  -- `nm_iam_configuration_statement_create_condition`, nm_iam_configuration.c:109-117, with `nm_condition_new_with_key`,
  -- nm_condition.c:27-36: the copy of the key is not looked at
  | .createCond s op key m1 m2 =>
    match H.node s with
    | some (.stmt effect actions conds) =>
      if m1 then
        let r := H.make (.cond op (if m2 then some key else none) []) (1 + one m2)
        (r.1.put s (.stmt effect actions (conds ++ [H.next])) 0, r.2)
      else (H, .handle none)
    | _ => (H.misuse, .unit)
  -- `nm_statement_add_action`, nm_statement.c:65-68
  | .addAction s action mem =>
    match H.node s with
    | some (.stmt effect actions conds) =>
      let i := insert actions action mem
      (H.put s (.stmt effect i.1 conds) i.2.2, .bool i.2.1)
    | _ => (H.misuse, .unit)
  -- `nm_condition_add_value`, nm_condition.c:57-60
  | .addValue c value mem =>
    match H.node c with
    | some (.cond op key values) =>
      let i := insert values value mem
      (H.put c (.cond op key i.1) i.2.2, .bool i.2.1)
    | _ => (H.misuse, .unit)
  -- `nm_iam_role_add_policy`, nm_iam_role.c:41-44
  | .addRolePolicy r policy mem =>
    match H.node r with
    | some (.role id policies) =>
      let i := insert policies policy mem
      (H.put r (.role id i.1) i.2.2, .bool i.2.1)
    | _ => (H.misuse, .unit)
  -- `nm_iam_configuration_add_policy`, nm_iam_configuration.c:72-76
  | .addPol c p =>
    match H.node c, H.node p with
    | some (.conf roles pols unpaired), some (.pol _ _) =>
      if H.owned p then (H.misuse, .unit)
      else (H.put c (.conf roles (pols ++ [p]) unpaired) 0, .bool true)
    | _, _ => (H.misuse, .unit)
  -- `nm_iam_configuration_add_role`, nm_iam_configuration.c:78-82
  | .addRole c r =>
    match H.node c, H.node r with
    | some (.conf roles pols unpaired), some (.role _ _) =>
      if H.owned r then (H.misuse, .unit)
      else (H.put c (.conf (roles ++ [r]) pols unpaired) 0, .bool true)
    | _, _ => (H.misuse, .unit)
  -- `nm_iam_configuration_set_unpaired_role`, nm_iam_configuration.c:67-70
  | .setUnpaired c role mem =>
    match H.node c with
    | some (.conf roles pols unpaired) =>
      let i := setString unpaired role mem
      (H.put c (.conf roles pols i.1) i.2.2, .bool i.2.1)
    | _ => (H.misuse, .unit)
  -- `nm_iam_configuration_policy_free`, nm_iam_configuration.c:89-92
  | .freePol p => if H.owned p then (H.misuse, .unit) else (freePol H p, .unit)
  -- `nm_iam_configuration_role_free`, nm_iam_configuration.c:129-132
  | .freeRole r => if H.owned r then (H.misuse, .unit) else (freeRole H r, .unit)
  -- `nm_iam_configuration_free`, nm_iam_configuration.c:23-50
  | .freeConf c => (freeConf H c, .unit)

/-- A sequence of calls, with what they return. -/
def run : List Call → Heap × List (Call × Ret)
  | cs => cs.foldl (fun (a : Heap × List (Call × Ret)) c => let r := step a.1 c; (r.1, a.2 ++ [(c, r.2)])) (Heap.init, [])

/-- What the IAM module sees of a condition in `nm_condition_matches`, nm_condition.c:121-145: `none` if the key is NULL. -/
def readCond (H : Heap) (c : Nat) : Option Condition :=
  match H.node c with
  | some (.cond op (some key) values) => some ⟨op, key, values⟩
  | _ => none

/-- A statement with its conditions, as `nm_statement_eval` walks through them, nm_statement.c:46-63, 76-87. -/
def readStmt (H : Heap) (s : Nat) : Option Statement :=
  match H.node s with
  | some (.stmt effect actions conds) => (conds.mapM (readCond H)).map fun cs => ⟨effect, actions, cs⟩
  | _ => none

/-- A policy with its statements, as `nm_policy_eval` walks through them, nm_policy.c:64-70. -/
def readPol (H : Heap) (p : Nat) : Option Policy :=
  match H.node p with
  | some (.pol id stmts) => (stmts.mapM (readStmt H)).map fun ss => ⟨id, ss⟩
  | _ => none

/-- A role, nm_iam_role.c:12-32. -/
def readRole (H : Heap) (r : Nat) : Option Role :=
  match H.node r with
  | some (.role id policies) => some ⟨id, policies⟩
  | _ => none

/-- A configuration with its lists, nm_iam_configuration.c:12-21. -/
def readConf (H : Heap) (c : Nat) : Option Config :=
  match H.node c with
  | some (.conf roles pols unpaired) =>
    match pols.mapM (readPol H), roles.mapM (readRole H) with
    | some ps, some rs => some ⟨ps, rs, unpaired⟩
    | _, _ => none
  | _ => none

end Verif.Iam.Builder
