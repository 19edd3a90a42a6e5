import Verif.Iam.PolicySpec

/-! Helper lemmas connecting the evaluation functions with the specification. -/

namespace Verif.Iam

open Spec

theorem toList_variable (n : String) : (variable_ n).toList = '$' :: '{' :: (n.toList ++ ['}']) := by
  simp [variable_, String.toList_append]

theorem resolveValue_variable (attrs : Attrs) (n : String) :
    resolveValue attrs (variable_ n) = attrs.lookup n := by
  unfold resolveValue
  have h3 : ¬ (variable_ n).toList.length < 3 := by rw [toList_variable]; simp
  have h2 : (variable_ n).toList.take 2 = ['$', '{'] ∧ (variable_ n).toList.getLast? = some '}' := by
    rw [toList_variable]
    refine ⟨rfl, ?_⟩
    rw [show '$' :: '{' :: (n.toList ++ ['}']) = ('$' :: '{' :: n.toList) ++ ['}'] from rfl]
    exact List.getLast?_concat
  simp only [h3, if_false]
  rw [if_pos h2, toList_variable]
  simp

theorem resolveValue_literal (attrs : Attrs) (v : String) (h : ∀ n, v ≠ variable_ n) :
    resolveValue attrs v = some v := by
  unfold resolveValue
  by_cases h3 : v.toList.length < 3
  · simp only [h3, if_true]
  · simp only [h3, if_false]
    by_cases hv : v.toList.take 2 = ['$', '{'] ∧ v.toList.getLast? = some '}'
    · exfalso
      obtain ⟨ht, hl⟩ := hv
      apply h (String.ofList ((v.toList.drop 2).dropLast))
      apply String.toList_inj.mp
      rw [toList_variable]
      simp only [String.toList_ofList]
      have hsplit : v.toList = ['$', '{'] ++ v.toList.drop 2 := by
        rw [← ht]; exact (List.take_append_drop 2 _).symm
      have hne : v.toList.drop 2 ≠ [] := by
        intro he
        have := congrArg List.length hsplit
        rw [he] at this
        simp at this
        simp at h3
        omega
      have hlast : (v.toList.drop 2).getLast hne = '}' := by
        have : v.toList.getLast? = (v.toList.drop 2).getLast? := by
          conv => lhs; rw [hsplit]
          rw [List.getLast?_append]
          rw [List.getLast?_eq_some_getLast hne]
          rfl
        rw [this, List.getLast?_eq_some_getLast hne] at hl
        exact Option.some.inj hl
      conv => lhs; rw [hsplit]
      have hd := List.dropLast_concat_getLast hne
      rw [hlast] at hd
      rw [hd]
      rfl
    · rw [if_neg hv]

theorem variable_inj {n m : String} (h : variable_ n = variable_ m) : n = m := by
  have := congrArg String.toList h
  rw [toList_variable, toList_variable] at this
  simp at this
  exact String.toList_inj.mp this

/-- `resolve_value` computes the denotation. -/
theorem resolveValue_iff (attrs : Attrs) (v s : String) :
    resolveValue attrs v = some s ↔ Denotes attrs v s := by
  constructor
  · intro h
    by_cases hv : ∃ n, v = variable_ n
    · obtain ⟨n, rfl⟩ := hv
      rw [resolveValue_variable] at h
      exact .var n s h
    · have hv' : ∀ n, v ≠ variable_ n := fun n hn => hv ⟨n, hn⟩
      rw [resolveValue_literal attrs v hv'] at h
      cases h
      exact .lit _ hv'
  · intro h
    cases h with
    | var n s h => rw [resolveValue_variable]; exact h
    | lit v h => exact resolveValue_literal attrs _ h

theorem parseBool_none_iff (a : String) : parseBool a = none ↔ a ≠ "true" ∧ a ≠ "false" := by
  unfold parseBool
  split
  · simp_all
  · split <;> simp_all

theorem parseBool_some (a : String) (b : Bool) (h : parseBool a = some b) :
    a = (if b then "true" else "false") := by
  unfold parseBool at h
  split at h
  · cases h; assumption
  · split at h
    · cases h; assumption
    · cases h

theorem status_match (b : Bool) : status b = .match_ ↔ b = true := by cases b <;> simp [status]
theorem status_noMatch (b : Bool) : status b = .noMatch ↔ b = false := by cases b <;> simp [status]
theorem status_ne_error (b : Bool) : status b ≠ .error := by cases b <;> simp [status]

theorem numericOperator_match (N : NumSem) (op : Op) (hop : op ∈ numericOps) (a b : String) :
    numericOperator N op a b = .match_ ↔ Holds N op a b := by
  unfold numericOperator
  cases ha : N.parse a with
  | none =>
    simp only [reduceCtorEq, false_iff]
    intro h; cases h <;> simp_all [numericOps]
  | some x =>
    cases hb : N.parse b with
    | none =>
      simp only [reduceCtorEq, false_iff]
      intro h; cases h <;> simp_all [numericOps]
    | some y =>
      simp [numericOps] at hop
      rcases hop with rfl | rfl | rfl | rfl | rfl | rfl <;> simp only [status_match]
      · exact ⟨fun h => .numEq a b x y ha hb h, fun h => by cases h; simp_all⟩
      · exact ⟨fun h => .numNe a b x y ha hb (by simpa using h), fun h => by cases h; simp_all⟩
      · exact ⟨fun h => .numLt a b x y ha hb h, fun h => by cases h; simp_all⟩
      · exact ⟨fun h => .numLe a b x y ha hb h, fun h => by cases h; simp_all⟩
      · exact ⟨fun h => .numGt a b x y ha hb h, fun h => by cases h; simp_all⟩
      · exact ⟨fun h => .numGe a b x y ha hb h, fun h => by cases h; simp_all⟩

theorem numericOperator_error (N : NumSem) (op : Op) (hop : op ∈ numericOps) (a b : String) :
    numericOperator N op a b = .error ↔ Meaningless N op a b := by
  unfold numericOperator
  have key : Meaningless N op a b ↔ (N.parse a = none ∨ N.parse b = none) := by
    constructor
    · intro h
      cases h with
      | num _ _ _ _ h => exact h
      | bool _ _ _ => simp [numericOps] at hop
    · intro h; exact .num op a b hop h
  rw [key]
  cases ha : N.parse a with
  | none => simp
  | some x =>
    cases hb : N.parse b with
    | none => simp
    | some y =>
      simp [numericOps] at hop
      rcases hop with rfl | rfl | rfl | rfl | rfl | rfl <;> simp [status_ne_error]

theorem matchOp_match (N : NumSem) (op : Op) (a b : String) :
    matchOp N op a b = .match_ ↔ Holds N op a b := by
  cases op with
  | stringEquals =>
    simp only [matchOp, status_match, beq_iff_eq]
    exact ⟨fun h => h ▸ .strEq a, fun h => by cases h; rfl⟩
  | stringNotEquals =>
    simp only [matchOp, status_match, bne_iff_ne, ne_eq]
    exact ⟨fun h => .strNe a b h, fun h => by cases h; assumption⟩
  | bool =>
    simp only [matchOp, boolEquals]
    cases ha : parseBool a with
    | none =>
      have := (parseBool_none_iff a).mp ha
      simp only [reduceCtorEq, false_iff]
      intro h; cases h <;> simp_all
    | some x =>
      cases hb : parseBool b with
      | none =>
        have := (parseBool_none_iff b).mp hb
        simp only [reduceCtorEq, false_iff]
        intro h; cases h <;> simp_all
      | some y =>
        have e1 := parseBool_some a x ha
        have e2 := parseBool_some b y hb
        simp only [status_match, beq_iff_eq]
        constructor
        · intro h
          subst h
          cases x
          · simp at e1 e2; subst e1; subst e2; exact .boolF
          · simp at e1 e2; subst e1; subst e2; exact .boolT
        · intro h
          cases h <;> cases x <;> cases y <;> first | rfl | exact absurd e1 (by decide) | exact absurd e2 (by decide)
  | _ => simp only [matchOp]; refine numericOperator_match N _ ?_ a b; simp [numericOps]

theorem matchOp_error (N : NumSem) (op : Op) (a b : String) :
    matchOp N op a b = .error ↔ Meaningless N op a b := by
  cases op with
  | stringEquals =>
    simp only [matchOp, status_ne_error, false_iff]
    intro h; cases h; simp_all [numericOps]
  | stringNotEquals =>
    simp only [matchOp, status_ne_error, false_iff]
    intro h; cases h; simp_all [numericOps]
  | bool =>
    have key : Meaningless N .bool a b ↔ (parseBool a = none ∨ parseBool b = none) := by
      rw [parseBool_none_iff, parseBool_none_iff]
      constructor
      · intro h
        cases h with
        | num _ _ _ h _ => simp [numericOps] at h
        | bool _ _ h => exact h
      · intro h; exact .bool a b h
    rw [key]
    simp only [matchOp, boolEquals]
    cases ha : parseBool a with
    | none => simp
    | some x =>
      cases hb : parseBool b with
      | none => simp
      | some y => simp [status_ne_error]
  | _ => simp only [matchOp]; refine numericOperator_error N _ ?_ a b; simp [numericOps]

/-- An operator cannot both hold and be meaningless. -/
theorem holds_not_meaningless (N : NumSem) (op : Op) (a b : String) (h : Holds N op a b) :
    ¬ Meaningless N op a b := by
  rw [← matchOp_match] at h
  rw [← matchOp_error, h]
  simp

theorem matchValues_match (N : NumSem) (attrs : Attrs) (op : Op) (a : String) (vs : List String) :
    matchValues N attrs op a vs = .match_ ↔
      ∃ pre v post, vs = pre ++ v :: post ∧ (∃ s, Denotes attrs v s ∧ Holds N op a s) ∧
        ∀ w ∈ pre, ∀ t, Denotes attrs w t → ¬ Meaningless N op a t := by
  induction vs with
  | nil => simp [matchValues]
  | cons v vs ih =>
    unfold matchValues
    cases hr : resolveValue attrs v with
    | none =>
      have hnd : ∀ t, ¬ Denotes attrs v t := by
        intro t ht; rw [← resolveValue_iff, hr] at ht; cases ht
      simp only
      rw [ih]
      constructor
      · rintro ⟨pre, w, post, rfl, hm, hp⟩
        refine ⟨v :: pre, w, post, rfl, hm, ?_⟩
        intro u hu t ht
        rcases List.mem_cons.mp hu with rfl | hu
        · exact absurd ht (hnd t)
        · exact hp u hu t ht
      · rintro ⟨pre, w, post, he, ⟨s, hd, hh⟩, hp⟩
        cases pre with
        | nil => cases he; exact absurd hd (hnd s)
        | cons x pre =>
          cases he
          exact ⟨pre, w, post, rfl, ⟨s, hd, hh⟩, fun u hu => hp u (List.mem_cons_of_mem _ hu)⟩
    | some s =>
      have hd : Denotes attrs v s := (resolveValue_iff attrs v s).mp hr
      have huniq : ∀ t, Denotes attrs v t → t = s := by
        intro t ht; rw [← resolveValue_iff, hr] at ht; cases ht; rfl
      simp only
      cases hm : matchOp N op a s with
      | match_ =>
        simp only [true_iff]
        exact ⟨[], v, vs, rfl, ⟨s, hd, (matchOp_match N op a s).mp hm⟩, by simp⟩
      | error =>
        simp only [reduceCtorEq, false_iff]
        have hml := (matchOp_error N op a s).mp hm
        rintro ⟨pre, w, post, he, ⟨s', hd', hh'⟩, hp⟩
        cases pre with
        | nil =>
          cases he
          have := huniq s' hd'; subst this
          exact holds_not_meaningless N op a s' hh' hml
        | cons x pre => cases he; exact hp v (List.mem_cons_self ..) s hd hml
      | noMatch =>
        simp only
        rw [ih]
        constructor
        · rintro ⟨pre, w, post, rfl, hmm, hp⟩
          refine ⟨v :: pre, w, post, rfl, hmm, ?_⟩
          intro u hu t ht
          rcases List.mem_cons.mp hu with rfl | hu
          · have := huniq t ht; subst this
            rw [← matchOp_error, hm]; simp
          · exact hp u hu t ht
        · rintro ⟨pre, w, post, he, ⟨s', hd', hh'⟩, hp⟩
          cases pre with
          | nil =>
            cases he
            have := huniq s' hd'; subst this
            rw [← matchOp_match, hm] at hh'; cases hh'
          | cons x pre =>
            cases he
            exact ⟨pre, w, post, rfl, ⟨s', hd', hh'⟩, fun u hu => hp u (List.mem_cons_of_mem _ hu)⟩

theorem matchValues_error (N : NumSem) (attrs : Attrs) (op : Op) (a : String) (vs : List String) :
    matchValues N attrs op a vs = .error ↔
      ∃ pre v post, vs = pre ++ v :: post ∧ (∃ s, Denotes attrs v s ∧ Meaningless N op a s) ∧
        ∀ w ∈ pre, ∀ t, Denotes attrs w t → ¬ Holds N op a t := by
  induction vs with
  | nil => simp [matchValues]
  | cons v vs ih =>
    unfold matchValues
    cases hr : resolveValue attrs v with
    | none =>
      have hnd : ∀ t, ¬ Denotes attrs v t := by
        intro t ht; rw [← resolveValue_iff, hr] at ht; cases ht
      simp only
      rw [ih]
      constructor
      · rintro ⟨pre, w, post, rfl, hm, hp⟩
        refine ⟨v :: pre, w, post, rfl, hm, ?_⟩
        intro u hu t ht
        rcases List.mem_cons.mp hu with rfl | hu
        · exact absurd ht (hnd t)
        · exact hp u hu t ht
      · rintro ⟨pre, w, post, he, ⟨s, hd, hh⟩, hp⟩
        cases pre with
        | nil => cases he; exact absurd hd (hnd s)
        | cons x pre =>
          cases he
          exact ⟨pre, w, post, rfl, ⟨s, hd, hh⟩, fun u hu => hp u (List.mem_cons_of_mem _ hu)⟩
    | some s =>
      have hd : Denotes attrs v s := (resolveValue_iff attrs v s).mp hr
      have huniq : ∀ t, Denotes attrs v t → t = s := by
        intro t ht; rw [← resolveValue_iff, hr] at ht; cases ht; rfl
      simp only
      cases hm : matchOp N op a s with
      | error =>
        simp only [true_iff]
        exact ⟨[], v, vs, rfl, ⟨s, hd, (matchOp_error N op a s).mp hm⟩, by simp⟩
      | match_ =>
        simp only [reduceCtorEq, false_iff]
        have hml := (matchOp_match N op a s).mp hm
        rintro ⟨pre, w, post, he, ⟨s', hd', hh'⟩, hp⟩
        cases pre with
        | nil =>
          cases he
          have := huniq s' hd'; subst this
          exact holds_not_meaningless N op a s' hml hh'
        | cons x pre => cases he; exact hp v (List.mem_cons_self ..) s hd hml
      | noMatch =>
        simp only
        rw [ih]
        constructor
        · rintro ⟨pre, w, post, rfl, hmm, hp⟩
          refine ⟨v :: pre, w, post, rfl, hmm, ?_⟩
          intro u hu t ht
          rcases List.mem_cons.mp hu with rfl | hu
          · have := huniq t ht; subst this
            rw [← matchOp_match, hm]; simp
          · exact hp u hu t ht
        · rintro ⟨pre, w, post, he, ⟨s', hd', hh'⟩, hp⟩
          cases pre with
          | nil =>
            cases he
            have := huniq s' hd'; subst this
            rw [← matchOp_error, hm] at hh'; cases hh'
          | cons x pre =>
            cases he
            exact ⟨pre, w, post, rfl, ⟨s', hd', hh'⟩, fun u hu => hp u (List.mem_cons_of_mem _ hu)⟩

theorem conditionMatches_match (N : NumSem) (c : Condition) (attrs : Attrs) :
    conditionMatches N c attrs = .match_ ↔ CondMet N attrs c := by
  unfold conditionMatches CondMet
  cases h : attrs.lookup c.key with
  | none => simp
  | some a => simp only [matchValues_match, Option.some.injEq, exists_eq_left']

theorem conditionMatches_error (N : NumSem) (c : Condition) (attrs : Attrs) :
    conditionMatches N c attrs = .error ↔ CondFails N attrs c := by
  unfold conditionMatches CondFails
  cases h : attrs.lookup c.key with
  | none => simp
  | some a => simp only [matchValues_error, Option.some.injEq, exists_eq_left']

theorem matchConditions_match (N : NumSem) (attrs : Attrs) (cs : List Condition) :
    matchConditions N attrs cs = .match_ ↔ AllMet N attrs cs := by
  induction cs with
  | nil => simp [matchConditions, AllMet]
  | cons c cs ih =>
    unfold matchConditions AllMet
    rw [List.forall_mem_cons, ← conditionMatches_match]
    cases h : conditionMatches N c attrs with
    | match_ => simp only [true_and]; exact ih
    | noMatch => simp
    | error => simp

theorem matchConditions_error (N : NumSem) (attrs : Attrs) (cs : List Condition) :
    matchConditions N attrs cs = .error ↔ SomeFails N attrs cs := by
  induction cs with
  | nil => simp [matchConditions, SomeFails]
  | cons c cs ih =>
    unfold matchConditions SomeFails
    cases h : conditionMatches N c attrs with
    | match_ =>
      have hm := (conditionMatches_match N c attrs).mp h
      simp only
      rw [ih]
      constructor
      · rintro ⟨pre, d, post, rfl, hf, hp⟩
        exact ⟨c :: pre, d, post, rfl, hf, by simpa using ⟨hm, hp⟩⟩
      · rintro ⟨pre, d, post, he, hf, hp⟩
        cases pre with
        | nil =>
          cases he
          rw [← conditionMatches_error, h] at hf; cases hf
        | cons x pre =>
          cases he
          exact ⟨pre, d, post, rfl, hf, fun u hu => hp u (List.mem_cons_of_mem _ hu)⟩
    | noMatch =>
      simp only [reduceCtorEq, false_iff]
      rintro ⟨pre, d, post, he, hf, hp⟩
      cases pre with
      | nil => cases he; rw [← conditionMatches_error, h] at hf; cases hf
      | cons x pre =>
        cases he
        have := hp c (List.mem_cons_self ..)
        rw [← conditionMatches_match, h] at this; cases this
    | error =>
      simp only [true_iff]
      exact ⟨[], c, cs, rfl, (conditionMatches_error N c attrs).mp h, by simp⟩

theorem statementEval_error (N : NumSem) (s : Statement) (action : String) (attrs : Attrs) :
    statementEval N s action attrs = .error ↔
      Broken N attrs action s ∨ (Applies N attrs action s ∧ s.effect = .error) := by
  unfold statementEval Broken Applies
  by_cases ha : action ∈ s.actions
  · simp only [ha, not_true_eq_false, if_false, true_and]
    rw [← matchConditions_error, ← matchConditions_match]
    cases h : matchConditions N attrs s.conditions <;> simp
  · simp [ha]

theorem statementEval_deny (N : NumSem) (s : Statement) (action : String) (attrs : Attrs) :
    statementEval N s action attrs = .deny ↔ (Applies N attrs action s ∧ s.effect = .deny) := by
  unfold statementEval Applies
  by_cases ha : action ∈ s.actions
  · simp only [ha, not_true_eq_false, if_false, true_and]
    rw [← matchConditions_match]
    cases h : matchConditions N attrs s.conditions <;> simp
  · simp [ha]

theorem statementEval_allow (N : NumSem) (s : Statement) (action : String) (attrs : Attrs) :
    statementEval N s action attrs = .allow ↔ (Applies N attrs action s ∧ s.effect = .allow) := by
  unfold statementEval Applies
  by_cases ha : action ∈ s.actions
  · simp only [ha, not_true_eq_false, if_false, true_and]
    rw [← matchConditions_match]
    cases h : matchConditions N attrs s.conditions <;> simp
  · simp [ha]

/-- Folding over statements reaches `allow` iff nothing denied or failed and something allowed (now or
before). -/
theorem foldl_allow (N : NumSem) (action : String) (attrs : Attrs) (ss : List Statement) (st : Effect) :
    ss.foldl (policyStatementEval N action attrs) st = .allow ↔
      (st = .allow ∨ st = .noMatch) ∧
      (st = .allow ∨ ∃ s ∈ ss, statementEval N s action attrs = .allow) ∧
      ∀ s ∈ ss, statementEval N s action attrs ≠ .deny ∧ statementEval N s action attrs ≠ .error := by
  induction ss generalizing st with
  | nil => cases st <;> simp
  | cons s ss ih =>
    rw [List.foldl_cons, ih]
    cases st <;> cases h : statementEval N s action attrs <;> simp [policyStatementEval, h]

/-- The statements of the policies named, when they all exist. -/
def statementsOf (conf : Config) : List String → Option (List Statement)
  | [] => some []
  | p :: ps =>
    match findPolicy conf p, statementsOf conf ps with
    | some pol, some rest => some (pol.statements ++ rest)
    | _, _ => none

theorem checkRoleLoop_eq (N : NumSem) (conf : Config) (action : String) (attrs : Attrs)
    (ps : List String) (st : Effect) :
    checkRoleLoop N conf action attrs st ps =
      match statementsOf conf ps with
      | none => .error
      | some ss => ss.foldl (policyStatementEval N action attrs) st := by
  induction ps generalizing st with
  | nil => simp [checkRoleLoop, statementsOf]
  | cons p ps ih =>
    unfold checkRoleLoop statementsOf
    cases hp : findPolicy conf p with
    | none => simp
    | some pol =>
      simp only
      rw [ih]
      cases hs : statementsOf conf ps with
      | none => simp
      | some rest => simp [policyEval, List.foldl_append]

theorem findPolicy_isSome (conf : Config) (p : String) :
    (∃ pol, findPolicy conf p = some pol) ↔ ∃ pol ∈ conf.policies, pol.id = p := by
  unfold findPolicy
  constructor
  · rintro ⟨pol, h⟩
    refine ⟨pol, List.mem_of_find?_eq_some h, ?_⟩
    have := List.find?_some h
    simpa using this
  · rintro ⟨pol, hm, rfl⟩
    cases h : conf.policies.find? (fun q => q.id == pol.id) with
    | some q => exact ⟨q, rfl⟩
    | none =>
      have := List.find?_eq_none.mp h pol hm
      simp at this

theorem statementsOf_some_iff (conf : Config) (ps : List String) :
    (∃ ss, statementsOf conf ps = some ss) ↔ ∀ pid ∈ ps, ∃ p ∈ conf.policies, p.id = pid := by
  induction ps with
  | nil => simp [statementsOf]
  | cons p ps ih =>
    rw [List.forall_mem_cons, ← ih, ← findPolicy_isSome]
    conv => lhs; unfold statementsOf
    cases hp : findPolicy conf p with
    | none => simp
    | some pol =>
      cases hs : statementsOf conf ps with
      | none => simp
      | some rest => simp

theorem mem_statementsOf (conf : Config) (ps : List String) (ss : List Statement)
    (h : statementsOf conf ps = some ss) (s : Statement) :
    s ∈ ss ↔ ∃ pid ∈ ps, ∃ p, conf.policies.find? (fun q => q.id == pid) = some p ∧ s ∈ p.statements := by
  induction ps generalizing ss with
  | nil => simp [statementsOf] at h; subst h; simp
  | cons p ps ih =>
    unfold statementsOf at h
    cases hp : findPolicy conf p with
    | none => rw [hp] at h; simp at h
    | some pol =>
      cases hs : statementsOf conf ps with
      | none => rw [hp, hs] at h; simp at h
      | some rest =>
        rw [hp, hs] at h
        simp at h
        subst h
        rw [List.mem_append, ih rest hs]
        unfold findPolicy at hp
        simp [hp]

end Verif.Iam
