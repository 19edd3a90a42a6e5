import Verif.Iam.Builder

/-!
# The configuration builder — specification

What a configuration is to contain, told by the calls made and what they returned, without a heap.
-/

namespace Verif.Iam.Builder.Spec

abbrev Trace := List (Call × Ret)

/-- The strings of a list, each once, in the order of their first occurrence. -/
def firsts (l : List String) : List String :=
  l.foldl (fun a v => if v ∈ a then a else a ++ [v]) []

/-- The values of a condition: those of the calls which said they succeeded. -/
def values (tr : Trace) (c : Nat) : List String :=
  firsts (tr.filterMap fun
    | (.addValue c' v _, .bool true) => if c' = c then some v else none
    | _ => none)

/-- The actions of a statement. -/
def actions (tr : Trace) (s : Nat) : List String :=
  firsts (tr.filterMap fun
    | (.addAction s' v _, .bool true) => if s' = s then some v else none
    | _ => none)

/-- The names of the policies of a role. -/
def rolePolicies (tr : Trace) (r : Nat) : List String :=
  firsts (tr.filterMap fun
    | (.addRolePolicy r' v _, .bool true) => if r' = r then some v else none
    | _ => none)

/-- The conditions which were made in a statement. -/
def conditions (tr : Trace) (s : Nat) : List Condition :=
  tr.filterMap fun
    | (.createCond s' op key _ _, .handle (some c)) => if s' = s then some ⟨op, key, values tr c⟩ else none
    | _ => none

/-- The statements which were made in a policy. -/
def statements (tr : Trace) (p : Nat) : List Statement :=
  tr.filterMap fun
    | (.createStmt p' effect _, .handle (some s)) =>
      if p' = p then some ⟨effect, actions tr s, conditions tr s⟩ else none
    | _ => none

/-- The policy which a handle stands for. -/
def policy (tr : Trace) (p : Nat) : Option Policy :=
  tr.findSome? fun
    | (.newPol name _ _, .handle (some h)) => if h = p then some ⟨name, statements tr p⟩ else none
    | _ => none

/-- The role which a handle stands for. -/
def role (tr : Trace) (r : Nat) : Option Role :=
  tr.findSome? fun
    | (.newRole name _ _, .handle (some h)) => if h = r then some ⟨name, rolePolicies tr r⟩ else none
    | _ => none

/-- The role of unpaired users: the last one which was set. -/
def unpaired (tr : Trace) (c : Nat) : Option String :=
  tr.foldl (fun a e =>
    match e with
    | (.setUnpaired c' r _, .bool true) => if c' = c then r else a
    | _ => a) none

/-- The configuration: the policies and roles which were added to it, and the role of unpaired users. -/
def config (tr : Trace) (c : Nat) : Config :=
  { policies := tr.filterMap fun
      | (.addPol c' p, .bool true) => if c' = c then policy tr p else none
      | _ => none
    roles := tr.filterMap fun
      | (.addRole c' r, .bool true) => if c' = c then role tr r else none
      | _ => none
    unpairedRole := unpaired tr c }

/-- There was memory for the key of every condition which was made. -/
def Keyed (tr : Trace) : Prop :=
  ∀ s op key m1 m2 c, (Call.createCond s op key m1 m2, Ret.handle (some c)) ∈ tr → m2 = true

/-! ### The contract -/

/-- A configuration which was made and not freed. -/
def ConfAlive (tr : Trace) (c : Nat) : Prop :=
  (∃ m, (Call.newConf m, Ret.handle (some c)) ∈ tr) ∧ ∀ r, (Call.freeConf c, r) ∉ tr

/-- A policy which was made, and not freed: neither by the caller nor with the configuration it was added to. -/
def PolAlive (tr : Trace) (p : Nat) : Prop :=
  (∃ name m1 m2, (Call.newPol name m1 m2, Ret.handle (some p)) ∈ tr) ∧ (∀ r, (Call.freePol p, r) ∉ tr) ∧
    ∀ c, (Call.addPol c p, Ret.bool true) ∈ tr → ∀ r, (Call.freeConf c, r) ∉ tr

/-- A role which was made, and not freed: neither by the caller nor with the configuration it was added to. -/
def RoleAlive (tr : Trace) (r : Nat) : Prop :=
  (∃ name m1 m2, (Call.newRole name m1 m2, Ret.handle (some r)) ∈ tr) ∧ (∀ x, (Call.freeRole r, x) ∉ tr) ∧
    ∀ c, (Call.addRole c r, Ret.bool true) ∈ tr → ∀ x, (Call.freeConf c, x) ∉ tr

/-- A statement lives as long as its policy. -/
def StmtAlive (tr : Trace) (s : Nat) : Prop :=
  ∃ p e m, (Call.createStmt p e m, Ret.handle (some s)) ∈ tr ∧ PolAlive tr p

/-- A condition lives as long as its statement. -/
def CondAlive (tr : Trace) (c : Nat) : Prop :=
  ∃ s op key m1 m2, (Call.createCond s op key m1 m2, Ret.handle (some c)) ∈ tr ∧ StmtAlive tr s

/-- The calls which can be made after others. -/
def Allowed (tr : Trace) : Call → Prop
  | .newConf _ => True
  | .newPol _ _ _ => True
  | .newRole _ _ _ => True
  | .createStmt p _ _ => PolAlive tr p
  | .createCond s _ _ _ _ => StmtAlive tr s
  | .addAction s _ _ => StmtAlive tr s
  | .addValue c _ _ => CondAlive tr c
  | .addRolePolicy r _ _ => RoleAlive tr r
  | .addPol c p => ConfAlive tr c ∧ PolAlive tr p ∧ ∀ c', (Call.addPol c' p, Ret.bool true) ∉ tr
  | .addRole c r => ConfAlive tr c ∧ RoleAlive tr r ∧ ∀ c', (Call.addRole c' r, Ret.bool true) ∉ tr
  | .setUnpaired c _ _ => ConfAlive tr c
  | .freePol p => PolAlive tr p ∧ ∀ c', (Call.addPol c' p, Ret.bool true) ∉ tr
  | .freeRole r => RoleAlive tr r ∧ ∀ c', (Call.addRole c' r, Ret.bool true) ∉ tr
  | .freeConf c => ConfAlive tr c

/-- Every call of the history could be made after those before it. -/
def Proper (tr : Trace) : Prop := ∀ pre e post, tr = pre ++ e :: post → Allowed pre e.1

/-- Nothing is left: every configuration was freed, and every policy and role was freed or added to a configuration. -/
def Finished (tr : Trace) : Prop := (∀ c, ¬ ConfAlive tr c) ∧ (∀ p, ¬ PolAlive tr p) ∧ ∀ r, ¬ RoleAlive tr r

/-- There is memory during the call. -/
def Memory : Call → Prop
  | .newConf m => m = true
  | .newPol _ m1 m2 => m1 = true ∧ m2 = true
  | .newRole _ m1 m2 => m1 = true ∧ m2 = true
  | .createStmt _ _ m => m = true
  | .createCond _ _ _ m1 m2 => m1 = true ∧ m2 = true
  | .addAction _ _ m => m = true
  | .addValue _ _ m => m = true
  | .addRolePolicy _ _ m => m = true
  | .setUnpaired _ _ m => m = true
  | _ => True

/-- A call says that it failed: NULL or false. -/
def Failed (r : Ret) : Prop := r = .handle none ∨ r = .bool false

end Verif.Iam.Builder.Spec
