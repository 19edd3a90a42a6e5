import Verif.Iam.BuilderRead

/-!
# The configuration builder — properties
-/

namespace Verif.Iam.Builder.Props
open Verif.Iam.Builder Spec

/-- A history: one policy with a statement, which has two actions and a condition with two values, and one role, added to a
configuration; another policy is not added. Some calls find no memory. -/
def sample : List Call :=
  [.newConf true, .newPol "p" true false, .newPol "p" true true, .createStmt 1 .allow true, .addAction 2 "a" true,
   .addAction 2 "b" false, .addAction 2 "c" true, .addAction 2 "a" false,
   .createCond 2 .stringEquals "k" true true, .addValue 3 "v" true, .addValue 3 "w" true,
   .newRole "r" true true, .addRolePolicy 4 "p" true, .newPol "q" true true, .addRole 0 4, .addPol 0 1,
   .setUnpaired 0 (some "r") true, .setUnpaired 0 (some "x") false]

/-- The contract, told by the history alone, is exactly what the code needs: no call touches a structure which was freed, frees
one twice or puts one in two lists, if and only if every call of the history is allowed after those before it. -/
theorem C137_contract (cs : List Call) : (run cs).1.bad = false ↔ Proper (run cs).2 :=
  ⟨run_proper cs, fun h => (good_run cs h).bad⟩

example : Proper (run sample).2 := (C137_contract _).1 (by decide)
example : ¬ Proper (run (sample ++ [.freePol 1])).2 := fun h => absurd ((C137_contract _).2 h) (by decide)
example : ¬ Proper (run (sample ++ [.freeConf 0, .addAction 2 "d" true])).2 :=
  fun h => absurd ((C137_contract _).2 h) (by decide)

/-- A configuration contains exactly what the calls which said that they succeeded put in it, in their order, whatever other
calls failed. Missing: the key of every condition could be copied; see `C137_key_violated`. -/
theorem C137_config_partial (cs : List Call) (h : Proper (run cs).2) (hk : Keyed (run cs).2) (c : Nat)
    (hc : ConfAlive (run cs).2 c) : readConf (run cs).1 c = some (config (run cs).2 c) :=
  have g := good_run cs h
  readConf_eq g hk ((g.j.conf c).2 hc)

example : ConfAlive (run sample).2 0 := ⟨⟨true, by decide⟩, by
  intro r hr
  have : ∀ e ∈ (run sample).2, e.1 ≠ .freeConf 0 := by decide
  exact this _ hr rfl⟩

example : config (run sample).2 0 =
    ⟨[⟨"p", [⟨.allow, ["a", "c"], [⟨.stringEquals, "k", ["v", "w"]⟩]⟩]⟩], [⟨"r", ["p"]⟩], some "r"⟩ := by decide

/-- The policy and role a caller holds can be looked at as well before they are added. -/
theorem C137_parts_partial (cs : List Call) (h : Proper (run cs).2) (hk : Keyed (run cs).2) (x : Nat) :
    (PolAlive (run cs).2 x → ∃ p, policy (run cs).2 x = some p ∧ readPol (run cs).1 x = some p) ∧
    (RoleAlive (run cs).2 x → ∃ r, role (run cs).2 x = some r ∧ readRole (run cs).1 x = some r) :=
  have g := good_run cs h
  ⟨fun hp => readPol_eq g hk ((g.j.pol x).2 hp), fun hp => readRole_eq g ((g.j.role x).2 hp)⟩

example : policy (run sample).2 5 = some ⟨"q", []⟩ ∧ role (run sample).2 4 = some ⟨"r", ["p"]⟩ := by decide

/-- A call which says that it failed leaves every structure and the memory in use as they were. -/
theorem C137_failed (H : Heap) (call : Call) (hf : Failed (step H call).2) :
    (∀ x, (step H call).1.node x = H.node x) ∧ (step H call).1.live = H.live := by
  have same : ∀ h n n' k, H.node h = some n → n' = n → k = 0 →
      (∀ x, (H.put h n' k).node x = H.node x) ∧ (H.put h n' k).live = H.live := by
    rintro h n _ _ hn rfl rfl
    refine ⟨fun x => ?_, by simp [Heap.put]⟩
    rw [put_node]
    split
    · rename_i e; rw [e, hn]
    · rfl
  have ins : ∀ l v mem, (Builder.insert l v mem).2.1 = false → (Builder.insert l v mem).1 = l ∧
      (Builder.insert l v mem).2.2 = 0 := by
    intro l v mem
    unfold Builder.insert
    by_cases h : v ∈ l
    · simp [h]
    · cases mem <;> simp [h]
  revert hf
  unfold Failed
  cases call with
  | newConf mem => cases mem <;> simp [step, Heap.make]
  | newPol name m1 m2 => cases m1 <;> cases m2 <;> simp [step, Heap.make]
  | newRole name m1 m2 => cases m1 <;> cases m2 <;> simp [step, Heap.make]
  | createStmt p e mem =>
    simp only [step]
    split
    · cases mem <;> simp [Heap.make]
    · simp
  | createCond s op key m1 m2 =>
    simp only [step]
    split
    · cases m1 <;> simp [Heap.make]
    · simp
  | addAction s v mem =>
    simp only [step]
    split
    · rename_i h
      simp only [reduceCtorEq, false_or, Ret.bool.injEq]
      intro hf
      obtain ⟨h1, h2⟩ := ins _ _ _ hf
      exact same _ _ _ _ h (by rw [h1]) h2
    · simp
  | addValue s v mem =>
    simp only [step]
    split
    · rename_i h
      simp only [reduceCtorEq, false_or, Ret.bool.injEq]
      intro hf
      obtain ⟨h1, h2⟩ := ins _ _ _ hf
      exact same _ _ _ _ h (by rw [h1]) h2
    · simp
  | addRolePolicy s v mem =>
    simp only [step]
    split
    · rename_i h
      simp only [reduceCtorEq, false_or, Ret.bool.injEq]
      intro hf
      obtain ⟨h1, h2⟩ := ins _ _ _ hf
      exact same _ _ _ _ h (by rw [h1]) h2
    · simp
  | setUnpaired c r mem =>
    simp only [step]
    split
    · rename_i h
      simp only [reduceCtorEq, false_or, Ret.bool.injEq]
      intro hf
      cases r with
      | none => simp [setString] at hf
      | some r =>
        cases mem with
        | true => simp [setString] at hf
        | false => exact same _ _ _ _ h rfl rfl
    · simp
  | addPol c p =>
    simp only [step]
    split
    · split <;> simp
    · simp
  | addRole c p =>
    simp only [step]
    split
    · split <;> simp
    · simp
  | freePol p => simp only [step]; split <;> simp
  | freeRole p => simp only [step]; split <;> simp
  | freeConf c => simp [step]

example : Failed (step (run (sample.take 3)).1 (.newPol "z" false true)).2 := .inl (by decide)

/-- And a call within the contract fails only for want of memory. -/
theorem C137_well (cs : List Call) (h : Proper (run cs).2) (call : Call) (ha : Allowed (run cs).2 call) (hm : Memory call) :
    ¬ Failed (step (run cs).1 call).2 := by
  have g := good_run cs h
  have ins : ∀ l v, (Builder.insert l v true).2.1 = true := by
    intro l v
    unfold Builder.insert
    split <;> rfl
  have kf : ∀ {x k}, (run cs).1.kindOf x = some k → ∃ n, (run cs).1.node x = some n ∧ kind n = k := kindOf_some
  unfold Failed
  cases call with
  | newConf mem => cases hm; simp [step, Heap.make]
  | newPol name m1 m2 => obtain ⟨rfl, rfl⟩ := hm; simp [step, Heap.make]
  | newRole name m1 m2 => obtain ⟨rfl, rfl⟩ := hm; simp [step, Heap.make]
  | createStmt p e mem =>
    cases hm
    obtain ⟨n, hn, hk⟩ := kf ((g.j.pol p).2 ha)
    cases n <;> try cases hk
    simp [step, hn, Heap.make]
  | createCond s op key m1 m2 =>
    obtain ⟨rfl, rfl⟩ := hm
    obtain ⟨n, hn, hk⟩ := kf ((StmtAlive_iff g.j s).2 ha)
    cases n <;> try cases hk
    simp [step, hn, Heap.make]
  | addAction s v mem =>
    cases hm
    obtain ⟨n, hn, hk⟩ := kf ((StmtAlive_iff g.j s).2 ha)
    cases n <;> try cases hk
    simp [step, hn, ins]
  | addValue s v mem =>
    cases hm
    obtain ⟨n, hn, hk⟩ := kf ((CondAlive_iff g.j s).2 ha)
    cases n <;> try cases hk
    simp [step, hn, ins]
  | addRolePolicy s v mem =>
    cases hm
    obtain ⟨n, hn, hk⟩ := kf ((g.j.role s).2 ha)
    cases n <;> try cases hk
    simp [step, hn, ins]
  | setUnpaired c r mem =>
    cases hm
    obtain ⟨n, hn, hk⟩ := kf ((g.j.conf c).2 ha)
    cases n <;> try cases hk
    cases r <;> simp [step, hn, setString]
  | addPol c p => simp only [step]; split <;> (try split) <;> simp
  | addRole c p => simp only [step]; split <;> (try split) <;> simp
  | freePol p => simp only [step]; split <;> simp
  | freeRole p => simp only [step]; split <;> simp
  | freeConf c => simp [step]

/-- When every configuration was freed, and every policy and role was freed or went with a configuration, no structure and no
block of memory is left: nothing leaks, whatever calls failed, and nothing is freed twice (the count is one of integers). -/
theorem C137_memory (cs : List Call) (h : Proper (run cs).2) (hf : Finished (run cs).2) :
    (run cs).1.live = 0 ∧ ∀ x, (run cs).1.node x = none := by
  have g := good_run cs h
  have hn : ∀ x, (run cs).1.node x = none := by
    intro x
    cases hx : (run cs).1.node x with
    | none => rfl
    | some n =>
      have hk : (run cs).1.kindOf x = some (kind n) := by simp [Heap.kindOf, hx]
      exfalso
      cases e : kind n <;> rw [e] at hk
      · obtain ⟨s, _, _, _, _, _, p, _, _, _, hp⟩ := (CondAlive_iff g.j x).1 hk
        exact hf.2.1 p hp
      · obtain ⟨p, _, _, _, hp⟩ := (StmtAlive_iff g.j x).1 hk
        exact hf.2.1 p hp
      · exact hf.2.1 x ((g.j.pol x).1 hk)
      · exact hf.2.2 x ((g.j.role x).1 hk)
      · exact hf.1 x ((g.j.conf x).1 hk)
  refine ⟨?_, hn⟩
  have := g.inv.bal
  unfold Bal at this
  rw [this]
  exact total_zero (fun x => by rw [hn]; rfl) _

/-- At any time exactly those structures exist which are alive by the history. -/
theorem C137_use (cs : List Call) (h : Proper (run cs).2) (x : Nat) :
    (run cs).1.node x ≠ none ↔ ConfAlive (run cs).2 x ∨ PolAlive (run cs).2 x ∨ RoleAlive (run cs).2 x ∨
      StmtAlive (run cs).2 x ∨ CondAlive (run cs).2 x := by
  have g := good_run cs h
  rw [← g.j.conf, ← g.j.pol, ← g.j.role, ← StmtAlive_iff g.j, ← CondAlive_iff g.j]
  unfold Heap.kindOf
  cases (run cs).1.node x with
  | none => simp
  | some n => cases n <;> simp [kind]

/-- A history which is finished. -/
def whole : List Call := sample ++ [.freeConf 0, .freePol 5]

example : Proper (run whole).2 ∧ Finished (run whole).2 := by
  have hp : Proper (run whole).2 := (C137_contract _).1 (by decide)
  have g := good_run _ hp
  have hn : ∀ x, ¬ (run whole).1.node x ≠ none := by
    intro x hx
    cases h : (run whole).1.node x with
    | none => exact hx h
    | some n =>
      have hl : x < 6 := g.inv.low _ _ h
      have : ∀ y, y < 6 → (run whole).1.node y = none := by decide
      rw [this x hl] at h
      cases h
  refine ⟨hp, fun c hc => ?_, fun c hc => ?_, fun c hc => ?_⟩
  · exact hn c ((C137_use _ hp c).2 (.inl hc))
  · exact hn c ((C137_use _ hp c).2 (.inr (.inl hc)))
  · exact hn c ((C137_use _ hp c).2 (.inr (.inr (.inl hc))))

example : (run sample).1.live = 16 ∧ (run (sample ++ [.freeConf 0])).1.live = 2 ∧
    (run (sample ++ [.freeConf 0, .freePol 5])).1.live = 0 ∧
    (run (sample ++ [.freeConf 0, .freePol 5])).1.bad = false := by decide

/-- A condition is handed out although there was no memory for its key, in every history, for every statement which is alive:
the caller is not told, and the condition has no key. -/
theorem C137_key_violated (cs : List Call) (h : Proper (run cs).2) (s : Nat) (hs : StmtAlive (run cs).2 s) (op : Op)
    (key : String) :
    ∃ c, (step (run cs).1 (.createCond s op key true false)).2 = .handle (some c) ∧
      (step (run cs).1 (.createCond s op key true false)).1.node c = some (.cond op none []) ∧
      readStmt (step (run cs).1 (.createCond s op key true false)).1 s = none := by
  have g := good_run cs h
  obtain ⟨n, hn, hk⟩ := kindOf_some ((StmtAlive_iff g.j s).2 hs)
  cases n <;> try cases hk
  rename_i e as conds
  have hl := g.inv.low _ _ hn
  have hne : (run cs).1.next ≠ s := by omega
  refine ⟨(run cs).1.next, ?_, ?_, ?_⟩
  · simp [step, hn, Heap.make]
  · simp [step, hn, Heap.make, Heap.put, hne]
  · have h2 : (step (run cs).1 (.createCond s op key true false)).1.node s =
        some (.stmt e as (conds ++ [(run cs).1.next])) := by simp [step, hn, Heap.put]
    have h1 : readCond (step (run cs).1 (.createCond s op key true false)).1 (run cs).1.next = none := by
      unfold readCond
      simp [step, hn, Heap.make, Heap.put, hne]
    unfold readStmt
    rw [h2]
    generalize (step (run cs).1 (.createCond s op key true false)).1 = H' at h1
    have : (conds ++ [(run cs).1.next]).mapM (readCond H') = none := by
      rw [List.mapM_append, List.mapM_cons, h1]
      cases List.mapM (readCond H') conds <;> rfl
    simp only [this, Option.map_none]

example : StmtAlive (run sample).2 2 := ⟨1, .allow, true, by decide, ⟨"p", true, true, by decide⟩, by
  intro r hr
  have : ∀ e ∈ (run sample).2, e.1 ≠ .freePol 1 := by decide
  exact this _ hr rfl, by
  intro c _ r hr
  have : ∀ e ∈ (run sample).2, ∀ c, e.1 ≠ .freeConf c := by
    intro e he c
    have : ∀ e ∈ (run sample).2, (match e.1 with | .freeConf _ => false | _ => true) = true := by decide
    have := this e he
    intro hc
    rw [hc] at this
    cases this
  exact this _ hr c rfl⟩

end Verif.Iam.Builder.Props
