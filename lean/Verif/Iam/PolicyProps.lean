import Verif.Iam.PolicyLemmas

/-!
# IAM policy evaluation — property theorems (C01 role part, C02, C03, C04, C05)
-/

namespace Verif.Iam

open Spec

/-- A concrete numeric semantics for the examples: decimal numerals without sign compared as natural
numbers. Only used by `example`s. -/
def natSem : NumSem :=
  { D := Nat, parse := String.toNat?, eq := fun a b => a == b, lt := fun a b => decide (a < b),
    le := fun a b => decide (a ≤ b) }

/-- A semantics in which a few texts are numbers; used where the kernel has to compute. -/
def tinySem : NumSem :=
  { D := Nat,
    parse := fun s => if s = "1" then some 1 else if s = "2" then some 2 else none,
    eq := fun a b => a == b, lt := fun a b => decide (a < b), le := fun a b => decide (a ≤ b) }

/-! ## C01 (role part) -/

/-- C01, role part: the role check answers ALLOW exactly when the role grants the action in the sense of
the specification. -/
theorem C01_role_decision (N : NumSem) (conf : Config) (role : Role) (action : String) (attrs : Attrs) :
    checkAccessRole N conf role action attrs = .allow ↔ Granted N conf role action attrs := by
  unfold checkAccessRole Granted
  rw [checkRoleLoop_eq]
  unfold PoliciesExist
  rw [← statementsOf_some_iff]
  cases hs : statementsOf conf role.policies with
  | none => simp
  | some ss =>
    simp only [Option.some.injEq, exists_eq', true_and]
    rw [foldl_allow]
    have hmem : ∀ s, InRole conf role s ↔ s ∈ ss := by
      intro s; rw [mem_statementsOf conf role.policies ss hs]; rfl
    simp only [hmem, reduceCtorEq, or_true, false_or, true_and, statementEval_allow, ne_eq,
      statementEval_deny, statementEval_error]
    constructor
    · rintro ⟨⟨s, hs, ha⟩, h⟩
      refine ⟨⟨s, hs, ha⟩, ?_⟩
      intro t ht
      have := h t ht
      refine ⟨fun hb => this.2 (Or.inl hb), fun ha => ⟨fun he => this.1 ⟨ha, he⟩, fun he => this.2 (Or.inr ⟨ha, he⟩)⟩⟩
    · rintro ⟨⟨s, hs, ha⟩, h⟩
      refine ⟨⟨s, hs, ha⟩, ?_⟩
      intro t ht
      obtain ⟨hb, hc⟩ := h t ht
      refine ⟨fun hd => (hc hd.1).1 hd.2, ?_⟩
      rintro (hbr | ⟨hap, he⟩)
      · exact hb hbr
      · exact (hc hap).2 he

/-- A configuration with two policies used by the examples: users may do `A`; `B` is denied remotely. -/
def demoConf : Config :=
  { policies :=
      [{ id := "p", statements := [⟨.allow, ["A", "B"], []⟩] },
       { id := "q", statements := [⟨.deny, ["B"], [⟨.stringEquals, "Connection:IsLocal", ["false"]⟩]⟩] }],
    roles := [{ id := "User", policies := ["p", "q"] }, { id := "Bad", policies := ["p", "missing"] }],
    unpairedRole := none }

example : checkAccessRole natSem demoConf ⟨"User", ["p", "q"]⟩ "B" [("Connection:IsLocal", "true")] = .allow := by
  decide
example : checkAccessRole natSem demoConf ⟨"User", ["p", "q"]⟩ "B" [("Connection:IsLocal", "false")] = .deny := by
  decide
example : checkAccessRole natSem demoConf ⟨"Bad", ["p", "missing"]⟩ "A" [] = .error := by
  decide

/-! ## C02 -/

/-- `Stricter N attrs action ss ss'`: the statement list `ss'` is obtained from `ss` by adding Deny
statements, removing Allow statements that can be evaluated, and appending conditions to Allow
statements. -/
inductive Stricter (N : NumSem) (attrs : Attrs) (action : String) :
    List Statement → List Statement → Prop
  | nil : Stricter N attrs action [] []
  | keep (s ss ss') : Stricter N attrs action ss ss' → Stricter N attrs action (s :: ss) (s :: ss')
  | addDeny (d ss ss') : d.effect = .deny → Stricter N attrs action ss ss' →
      Stricter N attrs action ss (d :: ss')
  | dropAllow (s ss ss') : s.effect = .allow → ¬ Broken N attrs action s →
      Stricter N attrs action ss ss' → Stricter N attrs action (s :: ss) ss'
  | restrict (s cs ss ss') : s.effect = .allow → Stricter N attrs action ss ss' →
      Stricter N attrs action (s :: ss) ({ s with conditions := s.conditions ++ cs } :: ss')

/-- Policy lists with the same ids in the same order, related statement lists. -/
inductive PoliciesRel (R : List Statement → List Statement → Prop) : List Policy → List Policy → Prop
  | nil : PoliciesRel R [] []
  | cons {p p' : Policy} {ps ps' : List Policy} :
      p.id = p'.id ∧ R p.statements p'.statements → PoliciesRel R ps ps' →
      PoliciesRel R (p :: ps) (p' :: ps')

theorem find_rel {R : List Statement → List Statement → Prop} {ps ps' : List Policy}
    (h : PoliciesRel R ps ps') (pid : String) :
    (ps.find? (fun q => q.id == pid) = none ∧ ps'.find? (fun q => q.id == pid) = none) ∨
    ∃ p p', ps.find? (fun q => q.id == pid) = some p ∧ ps'.find? (fun q => q.id == pid) = some p' ∧
      R p.statements p'.statements := by
  induction h with
  | nil => left; simp
  | cons hp hps ih =>
    rename_i p p' ps ps'
    obtain ⟨hid, hr⟩ := hp
    by_cases he : p.id = pid
    · right
      refine ⟨p, p', ?_, ?_, hr⟩ <;> rw [List.find?_cons] <;> simp [he, ← hid]
    · have he' : ¬ p'.id = pid := hid ▸ he
      rcases ih with ⟨h1, h2⟩ | ⟨q, q', h1, h2, h3⟩
      · left; simp [he, he', h1, h2]
      · right; exact ⟨q, q', by simp [he, h1], by simp [he', h2], h3⟩

theorem exists_rel {R : List Statement → List Statement → Prop} {ps ps' : List Policy}
    (h : PoliciesRel R ps ps') (pid : String) :
    (∃ p ∈ ps, p.id = pid) ↔ ∃ p ∈ ps', p.id = pid := by
  induction h with
  | nil => simp
  | cons hp hps ih =>
    rename_i p p' ps ps'
    simp only [List.mem_cons, exists_eq_or_imp, hp.1, ih]

theorem allMet_append (N : NumSem) (attrs : Attrs) (cs ds : List Condition)
    (h : AllMet N attrs (cs ++ ds)) : AllMet N attrs cs := fun c hc => h c (List.mem_append_left _ hc)

theorem someFails_append (N : NumSem) (attrs : Attrs) (cs ds : List Condition)
    (h : SomeFails N attrs cs) : SomeFails N attrs (cs ++ ds) := by
  obtain ⟨pre, c, post, rfl, hf, hp⟩ := h
  exact ⟨pre, c, post ++ ds, by simp, hf, hp⟩

theorem stricter_mem' {N : NumSem} {attrs : Attrs} {action : String} {ss ss' : List Statement}
    (h : Stricter N attrs action ss ss') (s' : Statement) (hs' : s' ∈ ss')
    (ha : Applies N attrs action s') (he : s'.effect = .allow) :
    ∃ s ∈ ss, Applies N attrs action s ∧ s.effect = .allow := by
  induction h with
  | nil => simp at hs'
  | keep s ss ss' h ih =>
    rcases List.mem_cons.mp hs' with rfl | hm
    · exact ⟨_, List.mem_cons_self .., ha, he⟩
    · obtain ⟨t, ht, h2⟩ := ih hm
      exact ⟨t, List.mem_cons_of_mem _ ht, h2⟩
  | addDeny d ss ss' hd h ih =>
    rcases List.mem_cons.mp hs' with rfl | hm
    · rw [hd] at he; cases he
    · exact ih hm
  | dropAllow s ss ss' he' hb h ih =>
    obtain ⟨t, ht, h2⟩ := ih hs'
    exact ⟨t, List.mem_cons_of_mem _ ht, h2⟩
  | restrict s cs ss ss' he' h ih =>
    rcases List.mem_cons.mp hs' with rfl | hm
    · exact ⟨s, List.mem_cons_self .., ⟨ha.1, allMet_append N attrs _ _ ha.2⟩, he'⟩
    · obtain ⟨t, ht, h2⟩ := ih hm
      exact ⟨t, List.mem_cons_of_mem _ ht, h2⟩

theorem stricter_mem {N : NumSem} {attrs : Attrs} {action : String} {ss ss' : List Statement}
    (h : Stricter N attrs action ss ss') (s : Statement) (hs : s ∈ ss) :
    s ∈ ss' ∨ (s.effect = .allow ∧ (¬ Broken N attrs action s ∨
      ∃ s' ∈ ss', Broken N attrs action s → Broken N attrs action s')) := by
  induction h with
  | nil => simp at hs
  | keep t ss ss' h ih =>
    rcases List.mem_cons.mp hs with rfl | hm
    · left; exact List.mem_cons_self ..
    · rcases ih hm with h1 | ⟨h1, h2 | ⟨u, hu, h3⟩⟩
      · left; exact List.mem_cons_of_mem _ h1
      · right; exact ⟨h1, Or.inl h2⟩
      · right; exact ⟨h1, Or.inr ⟨u, List.mem_cons_of_mem _ hu, h3⟩⟩
  | addDeny d ss ss' hd h ih =>
    rcases ih hs with h1 | ⟨h1, h2 | ⟨u, hu, h3⟩⟩
    · left; exact List.mem_cons_of_mem _ h1
    · right; exact ⟨h1, Or.inl h2⟩
    · right; exact ⟨h1, Or.inr ⟨u, List.mem_cons_of_mem _ hu, h3⟩⟩
  | dropAllow t ss ss' he' hb h ih =>
    rcases List.mem_cons.mp hs with rfl | hm
    · right; exact ⟨he', Or.inl hb⟩
    · exact ih hm
  | restrict t cs ss ss' he' h ih =>
    rcases List.mem_cons.mp hs with rfl | hm
    · right
      refine ⟨he', Or.inr ⟨_, List.mem_cons_self .., ?_⟩⟩
      exact fun hb => ⟨hb.1, someFails_append N attrs _ _ hb.2⟩
    · rcases ih hm with h1 | ⟨h1, h2 | ⟨u, hu, h3⟩⟩
      · left; exact List.mem_cons_of_mem _ h1
      · right; exact ⟨h1, Or.inl h2⟩
      · right; exact ⟨h1, Or.inr ⟨u, List.mem_cons_of_mem _ hu, h3⟩⟩

/-- C02: tightening the policies never turns a denied request into an allowed one. -/
theorem C02_stricter_never_grants (N : NumSem) (conf conf' : Config) (role : Role) (action : String)
    (attrs : Attrs) (h : PoliciesRel (Stricter N attrs action) conf.policies conf'.policies)
    (hallow : checkAccessRole N conf' role action attrs = .allow) :
    checkAccessRole N conf role action attrs = .allow := by
  rw [C01_role_decision] at *
  obtain ⟨hex, ⟨s', ⟨pid, hpid, p', hp', hs'⟩, ha, he⟩, hall⟩ := hallow
  refine ⟨fun q hq => (exists_rel h q).mpr (hex q hq), ?_, ?_⟩
  · rcases find_rel h pid with ⟨_, h2⟩ | ⟨p, q', h1, h2, h3⟩
    · rw [h2] at hp'; cases hp'
    · rw [h2] at hp'; cases hp'
      obtain ⟨s, hs, h4⟩ := stricter_mem' h3 s' hs' ha he
      exact ⟨s, ⟨pid, hpid, p, h1, hs⟩, h4⟩
  · rintro s ⟨qid, hqid, p, hp, hs⟩
    rcases find_rel h qid with ⟨h1, _⟩ | ⟨p0, q', h1, h2, h3⟩
    · rw [h1] at hp; cases hp
    · rw [h1] at hp; cases hp
      rcases stricter_mem h3 s hs with hm | ⟨hal, hb | ⟨u, hu, hb⟩⟩
      · exact hall s ⟨qid, hqid, q', h2, hm⟩
      · exact ⟨hb, fun _ => by rw [hal]; simp⟩
      · refine ⟨fun hbr => (hall u ⟨qid, hqid, q', h2, hu⟩).1 (hb hbr), fun _ => by rw [hal]; simp⟩

/-- C02: reordering the policies of a role (or listing one several times) never changes the answer. -/
theorem C02_policy_order_irrelevant (N : NumSem) (conf : Config) (role role' : Role) (action : String)
    (attrs : Attrs) (h : ∀ p, p ∈ role.policies ↔ p ∈ role'.policies) :
    checkAccessRole N conf role action attrs = .allow ↔
      checkAccessRole N conf role' action attrs = .allow := by
  rw [C01_role_decision, C01_role_decision]
  unfold Granted PoliciesExist InRole
  simp only [h]

/-- C02: reordering the statements inside the policies never changes the answer. -/
theorem C02_statement_order_irrelevant (N : NumSem) (conf conf' : Config) (role : Role) (action : String)
    (attrs : Attrs) (h : PoliciesRel List.Perm conf.policies conf'.policies) :
    checkAccessRole N conf role action attrs = .allow ↔
      checkAccessRole N conf' role action attrs = .allow := by
  rw [C01_role_decision, C01_role_decision]
  have hin : ∀ s, InRole conf role s ↔ InRole conf' role s := by
    intro s
    constructor
    · rintro ⟨pid, hpid, p, hp, hs⟩
      rcases find_rel h pid with ⟨h1, _⟩ | ⟨p0, p', h1, h2, h3⟩
      · rw [h1] at hp; cases hp
      · rw [h1] at hp; cases hp
        exact ⟨pid, hpid, p', h2, h3.mem_iff.mp hs⟩
    · rintro ⟨pid, hpid, p, hp, hs⟩
      rcases find_rel h pid with ⟨_, h1⟩ | ⟨p0, p', h1, h2, h3⟩
      · rw [h1] at hp; cases hp
      · rw [h2] at hp; cases hp
        exact ⟨pid, hpid, p0, h1, h3.mem_iff.mpr hs⟩
  unfold Granted PoliciesExist
  simp only [hin, exists_rel h]

/-- The hypothesis of `C02_stricter_never_grants` is met by a real tightening which changes the answer. -/
example : PoliciesRel (Stricter natSem [] "A")
    [⟨"p", [⟨.allow, ["A"], []⟩]⟩] [⟨"p", [⟨.deny, ["A"], []⟩, ⟨.allow, ["A"], []⟩]⟩] :=
  .cons ⟨rfl, .addDeny _ _ _ rfl (.keep _ _ _ .nil)⟩ .nil
example : PoliciesRel List.Perm
    [⟨"p", [⟨.allow, ["A"], []⟩, ⟨.deny, ["B"], []⟩]⟩] [⟨"p", [⟨.deny, ["B"], []⟩, ⟨.allow, ["A"], []⟩]⟩] :=
  .cons ⟨rfl, .swap _ _ _⟩ .nil

/-! ## C03 -/

/-- C03: a statement contributes Allow (Deny) exactly when it applies and has that effect. -/
theorem C03_statement_contribution (N : NumSem) (s : Statement) (action : String) (attrs : Attrs) :
    (statementEval N s action attrs = .allow ↔
      (action ∈ s.actions ∧ (∀ c ∈ s.conditions, CondMet N attrs c)) ∧ s.effect = .allow) ∧
    (statementEval N s action attrs = .deny ↔
      (action ∈ s.actions ∧ (∀ c ∈ s.conditions, CondMet N attrs c)) ∧ s.effect = .deny) :=
  ⟨statementEval_allow N s action attrs, statementEval_deny N s action attrs⟩

/-- C03: a statement about another action, or with a condition that is not met (the conditions before it
being met and it being evaluable), contributes nothing. -/
theorem C03_not_applicable_contributes_nothing (N : NumSem) (s : Statement) (action : String)
    (attrs : Attrs)
    (h : action ∉ s.actions ∨ ∃ pre c post, s.conditions = pre ++ c :: post ∧
      (∀ d ∈ pre, CondMet N attrs d) ∧ ¬ CondMet N attrs c ∧ ¬ CondFails N attrs c) :
    statementEval N s action attrs = .noMatch := by
  unfold statementEval
  by_cases ha : action ∈ s.actions
  · rcases h with h | ⟨pre, c, post, hc, hp, hn, hf⟩
    · exact absurd ha h
    · simp only [ha, not_true_eq_false, if_false]
      have hm : matchConditions N attrs s.conditions = .noMatch := by
        rw [hc]
        clear hc
        induction pre with
        | nil =>
          unfold matchConditions
          rw [← conditionMatches_match] at hn
          rw [← conditionMatches_error] at hf
          cases h : conditionMatches N c attrs <;> simp_all
        | cons d pre ih =>
          simp only [List.cons_append]
          unfold matchConditions
          have hd := (conditionMatches_match N d attrs).mpr (hp d (List.mem_cons_self ..))
          rw [hd]
          exact ih (fun e he => hp e (List.mem_cons_of_mem _ he))
      rw [hm]
  · simp [ha]

/-- C03: a statement that cannot be evaluated makes the whole request denied. -/
theorem C03_broken_denies (N : NumSem) (conf : Config) (role : Role) (action : String) (attrs : Attrs)
    (s : Statement) (hs : InRole conf role s) (hb : Broken N attrs action s) :
    checkAccessRole N conf role action attrs ≠ .allow := by
  rw [ne_eq, C01_role_decision]
  exact fun h => (h.2.2 s hs).1 hb

example : statementEval tinySem ⟨.allow, ["A"], [⟨.numericLessThan, "k", ["2"]⟩]⟩ "A" [("k", "1")] = .allow := by
  decide
example : statementEval tinySem ⟨.allow, ["A"], [⟨.numericLessThan, "k", ["x"]⟩]⟩ "A" [("k", "1")] = .error := by
  decide
example : statementEval tinySem ⟨.deny, ["A"], [⟨.stringEquals, "k", ["${u}"]⟩]⟩ "A" [("k", "1")] = .noMatch := by
  decide

/-! ## C04 -/

/-- C04: exact condition semantics. The condition matches iff it is met, fails with an error iff it
cannot be evaluated, and otherwise does not match. -/
theorem C04_condition_semantics (N : NumSem) (c : Condition) (attrs : Attrs) :
    (conditionMatches N c attrs = .match_ ↔ CondMet N attrs c) ∧
    (conditionMatches N c attrs = .error ↔ CondFails N attrs c) ∧
    (conditionMatches N c attrs = .noMatch ↔ ¬ CondMet N attrs c ∧ ¬ CondFails N attrs c) := by
  refine ⟨conditionMatches_match N c attrs, conditionMatches_error N c attrs, ?_⟩
  rw [← conditionMatches_match, ← conditionMatches_error]
  cases conditionMatches N c attrs <;> simp

/-- C04: if every value has a meaning then the condition matches exactly when the attribute is present
and stands in the operator's relation to what one of the values denotes. -/
theorem C04_meaningful_values (N : NumSem) (c : Condition) (attrs : Attrs) (a : String)
    (ha : attrs.lookup c.key = some a)
    (hm : ∀ v ∈ c.values, ∀ s, Denotes attrs v s → ¬ Meaningless N c.op a s) :
    (conditionMatches N c attrs = .match_ ↔ ∃ v ∈ c.values, ∃ s, Denotes attrs v s ∧ Holds N c.op a s) ∧
    conditionMatches N c attrs ≠ .error := by
  constructor
  · rw [conditionMatches_match]
    constructor
    · rintro ⟨b, hb, pre, v, post, hv, hs, _⟩
      rw [ha] at hb; cases hb
      exact ⟨v, by simp [hv], hs⟩
    · rintro ⟨v, hv, hs⟩
      obtain ⟨pre, post, he⟩ := List.append_of_mem hv
      exact ⟨a, ha, pre, v, post, he, hs, fun w hw t ht => hm w (by simp [he, hw]) t ht⟩
  · rw [ne_eq, conditionMatches_error]
    rintro ⟨b, hb, pre, v, post, hv, ⟨s, hd, hml⟩, _⟩
    rw [ha] at hb; cases hb
    exact hm v (by simp [hv]) s hd hml

/-- C04: an absent attribute never matches and is never an error. -/
theorem C04_absent_attribute (N : NumSem) (c : Condition) (attrs : Attrs)
    (ha : attrs.lookup c.key = none) : conditionMatches N c attrs = .noMatch := by
  rw [(C04_condition_semantics N c attrs).2.2]
  constructor <;> (rintro ⟨a, h, _⟩; rw [ha] at h; cases h)

/-- C04: a variable naming an absent attribute never matches. -/
theorem C04_absent_variable (N : NumSem) (op : Op) (key n : String) (attrs : Attrs)
    (hn : attrs.lookup n = none) :
    conditionMatches N ⟨op, key, ["${" ++ n ++ "}"]⟩ attrs = .noMatch := by
  rw [(C04_condition_semantics N _ attrs).2.2]
  have hnd : ∀ s, ¬ Denotes attrs (variable_ n) s := by
    intro s hd
    rw [← resolveValue_iff, resolveValue_variable, hn] at hd; cases hd
  constructor
  · rintro ⟨a, _, pre, v, post, hv, ⟨s, hd, _⟩, _⟩
    have : v ∈ ["${" ++ n ++ "}"] := by rw [show ["${" ++ n ++ "}"] = _ from hv]; simp
    simp at this; subst this
    exact hnd s hd
  · rintro ⟨a, _, pre, v, post, hv, ⟨s, hd, _⟩, _⟩
    have : v ∈ ["${" ++ n ++ "}"] := by rw [show ["${" ++ n ++ "}"] = _ from hv]; simp
    simp at this; subst this
    exact hnd s hd

/-- C04: text that is not a number under a numeric operator is an error, never a match. -/
theorem C04_not_a_number (N : NumSem) (op : Op) (hop : op ∈ numericOps) (key a v : String)
    (attrs : Attrs) (vs : List String) (hk : attrs.lookup key = some a) (hl : ∀ n, v ≠ "${" ++ n ++ "}")
    (hbad : N.parse a = none ∨ N.parse v = none) :
    conditionMatches N ⟨op, key, v :: vs⟩ attrs = .error := by
  rw [(C04_condition_semantics N _ attrs).2.1]
  exact ⟨a, hk, [], v, vs, rfl, ⟨v, .lit v hl, .num op a v hop hbad⟩, by simp⟩

/-- The answer depends on the order in which values are visited when some are meaningless: the evaluation
stops at the first match or error. -/
theorem C04_order_matters_with_errors :
    conditionMatches tinySem ⟨.numericEquals, "k", ["1", "x"]⟩ [("k", "1")] = .match_ ∧
    conditionMatches tinySem ⟨.numericEquals, "k", ["x", "1"]⟩ [("k", "1")] = .error := by decide

example : conditionMatches tinySem ⟨.stringEquals, "k", ["a", "${u}"]⟩ [("k", "bob"), ("u", "bob")] = .match_ := by
  decide
example : conditionMatches tinySem ⟨.bool, "k", ["true"]⟩ [("k", "yes")] = .error := by decide
example : conditionMatches tinySem ⟨.numericGreaterThanEquals, "k", ["2"]⟩ [("k", "1")] = .noMatch := by decide

/-! ## C05 -/

/-- C05 is violated: a `StringNotEquals` condition listing the attribute's value matches as soon as a
different value is listed too. -/
theorem C05_violated :
    ¬ ∀ (N : NumSem) (c : Condition) (attrs : Attrs) (a : String), c.op = .stringNotEquals →
      attrs.lookup c.key = some a → conditionMatches N c attrs = .match_ →
      ∀ v ∈ c.values, ∀ s, Denotes attrs v s → a ≠ s := by
  intro h
  have := h tinySem ⟨.stringNotEquals, "k", ["Admin", "Guest"]⟩ [("k", "Admin")] "Admin" rfl rfl
    (by decide) "Admin" (by simp) "Admin" (by
      rw [← resolveValue_iff]; decide)
  exact this rfl

/-- C05: the defect is not a corner case: with two literal values that differ a `StringNotEquals`
condition matches every value of the attribute. -/
theorem C05_two_values_always_match (N : NumSem) (key v w a : String) (attrs : Attrs)
    (hk : attrs.lookup key = some a) (hv : ∀ n, v ≠ "${" ++ n ++ "}") (hw : ∀ n, w ≠ "${" ++ n ++ "}")
    (hne : v ≠ w) : conditionMatches N ⟨.stringNotEquals, key, [v, w]⟩ attrs = .match_ := by
  rw [(C04_condition_semantics N _ attrs).1]
  by_cases h : a = v
  · subst h
    refine ⟨a, hk, [a], w, [], rfl, ⟨w, .lit w hw, .strNe a w hne⟩, ?_⟩
    intro u _ t _ hm
    cases hm
    simp_all [numericOps]
  · exact ⟨a, hk, [], v, [w], rfl, ⟨v, .lit v hv, .strNe a v h⟩, by simp⟩

/-- C05, what holds (missing: lists of two or more values): with one listed value the documented meaning
is implemented, for both operators. -/
theorem C05_partial (N : NumSem) (key v a s : String) (attrs : Attrs)
    (hk : attrs.lookup key = some a) (hd : Denotes attrs v s) :
    (conditionMatches N ⟨.stringNotEquals, key, [v]⟩ attrs = .match_ ↔ a ≠ s) ∧
    (conditionMatches N ⟨.numericNotEquals, key, [v]⟩ attrs = .match_ ↔
      ∃ x y, N.parse a = some x ∧ N.parse s = some y ∧ N.eq x y = false) := by
  have hr := (resolveValue_iff attrs v s).mpr hd
  have key2 : ∀ op, conditionMatches N ⟨op, key, [v]⟩ attrs = .match_ ↔ Holds N op a s := by
    intro op
    rw [← matchOp_match]
    unfold conditionMatches
    simp only [hk, matchValues, hr]
    cases matchOp N op a s <;> simp
  rw [key2, key2]
  refine ⟨⟨fun h => by cases h; assumption, fun h => .strNe a s h⟩, ?_⟩
  constructor
  · intro h
    cases h with
    | numNe _ _ x y h1 h2 h3 => exact ⟨x, y, h1, h2, h3⟩
  · rintro ⟨x, y, h1, h2, h3⟩; exact .numNe a s x y h1 h2 h3

example : Denotes [("k", "Admin")] "Guest" "Guest" := by rw [← resolveValue_iff]; decide

end Verif.Iam
