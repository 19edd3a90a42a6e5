import Verif.Iam.BuilderHeap

/-!
# The configuration builder — the heap holds what the calls said
-/

namespace Verif.Iam.Builder
open Spec

def condsOf (tr : Trace) (s : Nat) : List Nat :=
  tr.filterMap fun
    | (.createCond s' _ _ _ _, .handle (some c)) => if s' = s then some c else none
    | _ => none

def stmtsOf (tr : Trace) (p : Nat) : List Nat :=
  tr.filterMap fun
    | (.createStmt p' _ _, .handle (some s)) => if p' = p then some s else none
    | _ => none

def polsOf (tr : Trace) (c : Nat) : List Nat :=
  tr.filterMap fun
    | (.addPol c' p, .bool true) => if c' = c then some p else none
    | _ => none

def rolesOf (tr : Trace) (c : Nat) : List Nat :=
  tr.filterMap fun
    | (.addRole c' p, .bool true) => if c' = c then some p else none
    | _ => none

theorem mem_condsOf {tr : Trace} {s c : Nat} :
    c ∈ condsOf tr s ↔ ∃ op key m1 m2, (Call.createCond s op key m1 m2, Ret.handle (some c)) ∈ tr := by
  unfold condsOf
  rw [List.mem_filterMap]
  constructor
  · rintro ⟨⟨call, ret⟩, he, h⟩
    split at h
    · rename_i heq
      cases heq
      split at h
      · cases h; subst_vars; exact ⟨_, _, _, _, he⟩
      · cases h
    · cases h
  · rintro ⟨op, key, m1, m2, h⟩
    exact ⟨_, h, by simp⟩

theorem mem_stmtsOf {tr : Trace} {p s : Nat} :
    s ∈ stmtsOf tr p ↔ ∃ e m, (Call.createStmt p e m, Ret.handle (some s)) ∈ tr := by
  unfold stmtsOf
  rw [List.mem_filterMap]
  constructor
  · rintro ⟨⟨call, ret⟩, he, h⟩
    split at h
    · rename_i heq
      cases heq
      split at h
      · cases h; subst_vars; exact ⟨_, _, he⟩
      · cases h
    · cases h
  · rintro ⟨e, m, h⟩
    exact ⟨_, h, by simp⟩

theorem mem_polsOf {tr : Trace} {c p : Nat} : p ∈ polsOf tr c ↔ (Call.addPol c p, Ret.bool true) ∈ tr := by
  unfold polsOf
  rw [List.mem_filterMap]
  constructor
  · rintro ⟨⟨call, ret⟩, he, h⟩
    split at h
    · rename_i heq
      cases heq
      split at h
      · cases h; subst_vars; exact he
      · cases h
    · cases h
  · intro h
    exact ⟨_, h, by simp⟩

theorem mem_rolesOf {tr : Trace} {c p : Nat} : p ∈ rolesOf tr c ↔ (Call.addRole c p, Ret.bool true) ∈ tr := by
  unfold rolesOf
  rw [List.mem_filterMap]
  constructor
  · rintro ⟨⟨call, ret⟩, he, h⟩
    split at h
    · rename_i heq
      cases heq
      split at h
      · cases h; subst_vars; exact he
      · cases h
    · cases h
  · intro h
    exact ⟨_, h, by simp⟩

/-- What a node is to be, from the call which made it. -/
def expect (tr : Trace) : Call → Nat → Option Node
  | .createCond _ op key _ m2, h => some (.cond op (if m2 then some key else none) (values tr h))
  | .createStmt _ e _, h => some (.stmt e (actions tr h) (condsOf tr h))
  | .newPol name _ _, h => some (.pol name (stmtsOf tr h))
  | .newRole name _ _, h => some (.role name (rolePolicies tr h))
  | .newConf _, h => some (.conf (rolesOf tr h) (polsOf tr h) (unpaired tr h))
  | _, _ => none

/-- The handle which a call is about. -/
def target : Call → Option Nat
  | .createCond s _ _ _ _ => some s
  | .createStmt p _ _ => some p
  | .addAction s _ _ => some s
  | .addValue c _ _ => some c
  | .addRolePolicy r _ _ => some r
  | .addPol c _ => some c
  | .addRole c _ => some c
  | .setUnpaired c _ _ => some c
  | .freePol p => some p
  | .freeRole r => some r
  | .freeConf c => some c
  | _ => none

/-- The second handle of a call. -/
def second : Call → Option Nat
  | .addPol _ p => some p
  | .addRole _ r => some r
  | _ => none

theorem firsts_snoc (l : List String) (v : String) :
    firsts (l ++ [v]) = if v ∈ firsts l then firsts l else firsts l ++ [v] := by
  unfold firsts
  rw [List.foldl_append, List.foldl_cons, List.foldl_nil]

section Snoc
variable (tr : Trace) (call : Call) (ret : Ret) (h : Nat)

theorem values_skip (ne : target call ≠ some h) : values (tr ++ [(call, ret)]) h = values tr h := by
  unfold values
  rw [List.filterMap_append]
  suffices List.filterMap _ [(call, ret)] = [] by rw [this, List.append_nil]
  cases call <;> simp_all [target]
  split <;> simp_all

theorem actions_skip (ne : target call ≠ some h) : actions (tr ++ [(call, ret)]) h = actions tr h := by
  unfold actions
  rw [List.filterMap_append]
  suffices List.filterMap _ [(call, ret)] = [] by rw [this, List.append_nil]
  cases call <;> simp_all [target]
  split <;> simp_all

theorem rolePolicies_skip (ne : target call ≠ some h) :
    rolePolicies (tr ++ [(call, ret)]) h = rolePolicies tr h := by
  unfold rolePolicies
  rw [List.filterMap_append]
  suffices List.filterMap _ [(call, ret)] = [] by rw [this, List.append_nil]
  cases call <;> simp_all [target]
  split <;> simp_all

theorem condsOf_skip (ne : target call ≠ some h) : condsOf (tr ++ [(call, ret)]) h = condsOf tr h := by
  unfold condsOf
  rw [List.filterMap_append]
  suffices List.filterMap _ [(call, ret)] = [] by rw [this, List.append_nil]
  cases call <;> simp_all [target]
  split <;> simp_all

theorem stmtsOf_skip (ne : target call ≠ some h) : stmtsOf (tr ++ [(call, ret)]) h = stmtsOf tr h := by
  unfold stmtsOf
  rw [List.filterMap_append]
  suffices List.filterMap _ [(call, ret)] = [] by rw [this, List.append_nil]
  cases call <;> simp_all [target]
  split <;> simp_all

theorem polsOf_skip (ne : target call ≠ some h) : polsOf (tr ++ [(call, ret)]) h = polsOf tr h := by
  unfold polsOf
  rw [List.filterMap_append]
  suffices List.filterMap _ [(call, ret)] = [] by rw [this, List.append_nil]
  cases call <;> simp_all [target]
  split <;> simp_all

theorem rolesOf_skip (ne : target call ≠ some h) : rolesOf (tr ++ [(call, ret)]) h = rolesOf tr h := by
  unfold rolesOf
  rw [List.filterMap_append]
  suffices List.filterMap _ [(call, ret)] = [] by rw [this, List.append_nil]
  cases call <;> simp_all [target]
  split <;> simp_all

theorem unpaired_skip (ne : target call ≠ some h) : unpaired (tr ++ [(call, ret)]) h = unpaired tr h := by
  unfold unpaired
  rw [List.foldl_append, List.foldl_cons, List.foldl_nil]
  split
  · rename_i heq
    cases heq
    rw [if_neg]
    intro e
    exact ne (by simp [target, e])
  · rfl

theorem expect_skip (made : Call) (ne : target call ≠ some h) :
    expect (tr ++ [(call, ret)]) made h = expect tr made h := by
  cases made <;> simp only [expect, values_skip tr call ret h ne, actions_skip tr call ret h ne,
    rolePolicies_skip tr call ret h ne, condsOf_skip tr call ret h ne, stmtsOf_skip tr call ret h ne,
    polsOf_skip tr call ret h ne, rolesOf_skip tr call ret h ne, unpaired_skip tr call ret h ne]

end Snoc

/-- Nothing is known about a handle which no call is about. -/
theorem expect_fresh {tr : Trace} {h : Nat} (fresh : ∀ e ∈ tr, target e.1 ≠ some h) (made : Call) :
    expect tr made h = expect [] made h := by
  suffices ∀ t : Trace, (∀ e ∈ t, target e.1 ≠ some h) → expect t made h = expect [] made h from this tr fresh
  intro t
  suffices ∀ r : Trace, (∀ e ∈ r.reverse, target e.1 ≠ some h) → expect r.reverse made h = expect [] made h by
    intro ht; have := this t.reverse (by simpa using ht); simpa using this
  intro r
  induction r with
  | nil => intro _; rfl
  | cons e r ih =>
    intro hr
    rw [List.reverse_cons] at hr ⊢
    rw [expect_skip r.reverse e.1 e.2 h made (hr e (by simp))]
    exact ih fun e he => hr e (by simp at he ⊢; exact .inl he)

structure J (tr : Trace) (H : Heap) : Prop where
  born : ∀ h n, H.node h = some n → ∃ call, (call, Ret.handle (some h)) ∈ tr ∧ expect tr call h = some n
  one : ∀ a b h, (a, Ret.handle (some h)) ∈ tr → (b, Ret.handle (some h)) ∈ tr → a = b
  below : ∀ call ret, (call, ret) ∈ tr → ∀ h, target call = some h ∨ second call = some h ∨ ret = .handle (some h) →
    h < H.next
  hosts : ∀ call, (call, Ret.bool true) ∈ tr → ∀ x, second call = some x →
    ∃ c m, target call = some c ∧ (Call.newConf m, Ret.handle (some c)) ∈ tr
  conf : ∀ c, H.kindOf c = some .conf ↔ ConfAlive tr c
  pol : ∀ p, H.kindOf p = some .pol ↔ PolAlive tr p
  role : ∀ r, H.kindOf r = some .role ↔ RoleAlive tr r
  stmt : ∀ s, H.kindOf s = some .stmt ↔
    ∃ p e m, (Call.createStmt p e m, Ret.handle (some s)) ∈ tr ∧ H.kindOf p = some .pol
  cond : ∀ c, H.kindOf c = some .cond ↔
    ∃ s op key m1 m2, (Call.createCond s op key m1 m2, Ret.handle (some c)) ∈ tr ∧ H.kindOf s = some .stmt

theorem J.init : J [] Heap.init := by
  constructor <;> simp [Heap.init, Heap.kindOf, ConfAlive, PolAlive, RoleAlive]

end Verif.Iam.Builder
