import Verif.Iam.BuilderStep

/-!
# The configuration builder — the calls, one by one
-/

namespace Verif.Iam.Builder
open Spec

theorem made_stmt {tr : Trace} {made : Call} {h : Nat} {e : Effect} {as : List String} {cs : List Nat}
    (he : expect tr made h = some (.stmt e as cs)) :
    (∃ p m, made = .createStmt p e m) ∧ as = actions tr h ∧ cs = condsOf tr h := by
  cases made <;> simp [expect] at he
  obtain ⟨rfl, rfl, rfl⟩ := he
  exact ⟨⟨_, _, rfl⟩, rfl, rfl⟩

theorem made_cond {tr : Trace} {made : Call} {h : Nat} {op : Op} {key : Option String} {vs : List String}
    (he : expect tr made h = some (.cond op key vs)) :
    (∃ s k m1 m2, made = .createCond s op k m1 m2 ∧ key = if m2 then some k else none) ∧ vs = values tr h := by
  cases made <;> simp [expect] at he
  obtain ⟨rfl, rfl, rfl⟩ := he
  exact ⟨⟨_, _, _, _, rfl, rfl⟩, rfl⟩

theorem made_pol {tr : Trace} {made : Call} {h : Nat} {id : String} {cs : List Nat}
    (he : expect tr made h = some (.pol id cs)) : (∃ m1 m2, made = .newPol id m1 m2) ∧ cs = stmtsOf tr h := by
  cases made <;> simp [expect] at he
  obtain ⟨rfl, rfl⟩ := he
  exact ⟨⟨_, _, rfl⟩, rfl⟩

theorem made_role {tr : Trace} {made : Call} {h : Nat} {id : String} {ps : List String}
    (he : expect tr made h = some (.role id ps)) : (∃ m1 m2, made = .newRole id m1 m2) ∧ ps = rolePolicies tr h := by
  cases made <;> simp [expect] at he
  obtain ⟨rfl, rfl⟩ := he
  exact ⟨⟨_, _, rfl⟩, rfl⟩

theorem made_conf {tr : Trace} {made : Call} {h : Nat} {rs ps : List Nat} {u : Option String}
    (he : expect tr made h = some (.conf rs ps u)) :
    (∃ m, made = .newConf m) ∧ rs = rolesOf tr h ∧ ps = polsOf tr h ∧ u = unpaired tr h := by
  cases made <;> simp [expect] at he
  obtain ⟨rfl, rfl, rfl⟩ := he
  exact ⟨⟨_, rfl⟩, rfl, rfl, rfl⟩

/-- A set of strings after an insertion, and its blocks. -/
theorem insert_spec (l : List String) (v : String) (mem : Bool) :
    (insert l v mem).1 = (if (insert l v mem).2.1 then (if v ∈ l then l else l ++ [v]) else l) ∧
    (((insert l v mem).1.length : Int) = l.length + (insert l v mem).2.2) := by
  unfold insert
  by_cases h : v ∈ l
  · simp [h]
  · cases mem <;> simp [h]

theorem expect_none {tr : Trace} {call : Call} (made : Call) (h : Nat) :
    expect (tr ++ [(call, .handle none)]) made h = expect tr made h := by
  have e1 : values (tr ++ [(call, .handle none)]) h = values tr h := by
    unfold values; rw [List.filterMap_append]; cases call <;> simp
  have e2 : actions (tr ++ [(call, .handle none)]) h = actions tr h := by
    unfold actions; rw [List.filterMap_append]; cases call <;> simp
  have e3 : rolePolicies (tr ++ [(call, .handle none)]) h = rolePolicies tr h := by
    unfold rolePolicies; rw [List.filterMap_append]; cases call <;> simp
  have e4 : condsOf (tr ++ [(call, .handle none)]) h = condsOf tr h := by
    unfold condsOf; rw [List.filterMap_append]; cases call <;> simp
  have e5 : stmtsOf (tr ++ [(call, .handle none)]) h = stmtsOf tr h := by
    unfold stmtsOf; rw [List.filterMap_append]; cases call <;> simp
  have e6 : polsOf (tr ++ [(call, .handle none)]) h = polsOf tr h := by
    unfold polsOf; rw [List.filterMap_append]; cases call <;> simp
  have e7 : rolesOf (tr ++ [(call, .handle none)]) h = rolesOf tr h := by
    unfold rolesOf; rw [List.filterMap_append]; cases call <;> simp
  have e8 : unpaired (tr ++ [(call, .handle none)]) h = unpaired tr h := by
    unfold unpaired; rw [List.foldl_append]; cases call <;> rfl
  cases made <;> simp only [expect, e1, e2, e3, e4, e5, e6, e7, e8]

theorem fresh_call {tr : Trace} {H : Heap} (j : J tr H) (call : Call) (ret : Ret)
    (h : target call = some H.next ∨ second call = some H.next) : (call, ret) ∉ tr := by
  intro hm
  have := j.below _ _ hm H.next (by rcases h with h | h <;> simp [h])
  omega

variable {tr : Trace} {H : Heap}

theorem good_newConf (g : Good tr H) (mem : Bool) :
    Good (tr ++ [(.newConf mem, (step H (.newConf mem)).2)]) (step H (.newConf mem)).1 := by
  cases mem with
  | false => exact g.same (by simp [target, second]) expect_none (by simp [ConfAlive]) (by simp [PolAlive]) (by simp [RoleAlive])
  | true =>
    refine g.root (n := .conf [] [] none) rfl rfl rfl rfl rfl ?_ (by simp [PolAlive, kind]) (by simp [RoleAlive, kind]) nofun nofun
    intro c
    simp only [ConfAlive, kind, List.mem_append, List.mem_singleton]
    constructor
    · rintro ⟨⟨m, h1 | h1⟩, h2⟩
      · exact .inl ⟨⟨m, h1⟩, fun r hr => h2 r (.inl hr)⟩
      · cases h1; exact .inr ⟨rfl, trivial⟩
    · rintro (⟨⟨m, h1⟩, h2⟩ | ⟨rfl, _⟩)
      · exact ⟨⟨m, .inl h1⟩, fun r hr => by rcases hr with hr | hr; exact h2 r hr; cases hr⟩
      · refine ⟨⟨true, .inr rfl⟩, fun r hr => ?_⟩
        rcases hr with hr | hr
        · exact fresh_call g.j _ _ (.inl rfl) hr
        · cases hr

theorem good_newPol (g : Good tr H) (name : String) (m1 m2 : Bool) :
    Good (tr ++ [(.newPol name m1 m2, (step H (.newPol name m1 m2)).2)]) (step H (.newPol name m1 m2)).1 := by
  simp only [step]
  by_cases hm : (m1 && m2) = true
  · rw [if_pos hm]
    refine g.root (n := .pol name []) rfl rfl rfl rfl rfl (by simp [ConfAlive, kind]) ?_ (by simp [RoleAlive, kind]) nofun nofun
    intro c
    simp only [PolAlive, kind, List.mem_append, List.mem_singleton]
    constructor
    · rintro ⟨⟨n, a, b, h1 | h1⟩, h2, h3⟩
      · exact .inl ⟨⟨n, a, b, h1⟩, fun r hr => h2 r (.inl hr), fun c hc r hr => h3 c (.inl hc) r (.inl hr)⟩
      · cases h1; exact .inr ⟨rfl, trivial⟩
    · rintro (⟨⟨n, a, b, h1⟩, h2, h3⟩ | ⟨rfl, _⟩)
      · refine ⟨⟨n, a, b, .inl h1⟩, fun r hr => ?_, fun c hc r hr => ?_⟩
        · rcases hr with hr | hr
          · exact h2 r hr
          · cases hr
        · rcases hc with hc | hc
          · rcases hr with hr | hr
            · exact h3 c hc r hr
            · cases hr
          · cases hc
      · refine ⟨⟨_, _, _, .inr rfl⟩, fun r hr => ?_, fun c hc r hr => ?_⟩
        · rcases hr with hr | hr
          · exact fresh_call g.j _ _ (.inl rfl) hr
          · cases hr
        · rcases hc with hc | hc
          · exact fresh_call g.j _ _ (.inr rfl) hc
          · cases hc
  · rw [if_neg hm]
    exact g.same (by simp [target, second]) expect_none (by simp [ConfAlive]) (by simp [PolAlive]) (by simp [RoleAlive])

theorem good_newRole (g : Good tr H) (name : String) (m1 m2 : Bool) :
    Good (tr ++ [(.newRole name m1 m2, (step H (.newRole name m1 m2)).2)]) (step H (.newRole name m1 m2)).1 := by
  simp only [step]
  by_cases hm : (m1 && m2) = true
  · rw [if_pos hm]
    refine g.root (n := .role name []) rfl rfl rfl rfl rfl (by simp [ConfAlive, kind]) (by simp [PolAlive, kind]) ?_ nofun nofun
    intro c
    simp only [RoleAlive, kind, List.mem_append, List.mem_singleton]
    constructor
    · rintro ⟨⟨n, a, b, h1 | h1⟩, h2, h3⟩
      · exact .inl ⟨⟨n, a, b, h1⟩, fun r hr => h2 r (.inl hr), fun c hc r hr => h3 c (.inl hc) r (.inl hr)⟩
      · cases h1; exact .inr ⟨rfl, trivial⟩
    · rintro (⟨⟨n, a, b, h1⟩, h2, h3⟩ | ⟨rfl, _⟩)
      · refine ⟨⟨n, a, b, .inl h1⟩, fun r hr => ?_, fun c hc r hr => ?_⟩
        · rcases hr with hr | hr
          · exact h2 r hr
          · cases hr
        · rcases hc with hc | hc
          · rcases hr with hr | hr
            · exact h3 c hc r hr
            · cases hr
          · cases hc
      · refine ⟨⟨_, _, _, .inr rfl⟩, fun r hr => ?_, fun c hc r hr => ?_⟩
        · rcases hr with hr | hr
          · exact fresh_call g.j _ _ (.inl rfl) hr
          · cases hr
        · rcases hc with hc | hc
          · exact fresh_call g.j _ _ (.inr rfl) hc
          · cases hc
  · rw [if_neg hm]
    exact g.same (by simp [target, second]) expect_none (by simp [ConfAlive]) (by simp [PolAlive]) (by simp [RoleAlive])

theorem good_createStmt (g : Good tr H) {p : Nat} {e : Effect} {mem : Bool} (hk : H.kindOf p = some .pol) :
    Good (tr ++ [(.createStmt p e mem, (step H (.createStmt p e mem)).2)]) (step H (.createStmt p e mem)).1 := by
  obtain ⟨n, hn, hkn⟩ := kindOf_some hk
  cases n <;> try cases hkn
  rename_i id stmts
  unfold step
  simp only [hn]
  cases mem with
  | false =>
    exact g.same (target_low g.inv hn rfl rfl) expect_none (plain_conf rfl) (plain_pol rfl) (plain_role rfl)
  | true =>
    refine g.child (n0 := .stmt e [] []) rfl rfl rfl hn rfl rfl rfl rfl rfl ?_ ?_ (.inl rfl) ?_ ?_ ?_ ?_
    · simp [kidKinds, kind]
    · intro made hm
      obtain ⟨⟨m1, m2, rfl⟩, rfl⟩ := made_pol hm
      simp [expect, stmtsOf]
    · exact ⟨fun _ => ⟨_, _, _, rfl⟩, fun _ => rfl⟩
    · rintro p' e' m' h; cases h; exact hk
    · exact ⟨nofun, nofun⟩
    · nofun

theorem good_createCond (g : Good tr H) {s : Nat} {op : Op} {key : String} {m1 m2 : Bool}
    (hk : H.kindOf s = some .stmt) :
    Good (tr ++ [(.createCond s op key m1 m2, (step H (.createCond s op key m1 m2)).2)])
      (step H (.createCond s op key m1 m2)).1 := by
  obtain ⟨n, hn, hkn⟩ := kindOf_some hk
  cases n <;> try cases hkn
  rename_i effect acts conds
  unfold step
  simp only [hn]
  cases m1 with
  | false =>
    exact g.same (target_low g.inv hn rfl rfl) expect_none (plain_conf rfl) (plain_pol rfl) (plain_role rfl)
  | true =>
    refine g.child (n0 := .cond op (if m2 then some key else none) []) rfl rfl rfl hn rfl ?_ rfl rfl rfl ?_ ?_ (.inr rfl)
      ?_ ?_ ?_ ?_
    · cases m2 <;> rfl
    · simp [kidKinds, kind]
    · intro made hm
      obtain ⟨⟨p, m, rfl⟩, rfl, rfl⟩ := made_stmt hm
      have := actions_skip tr (.createCond s op key true m2) (.handle (some H.next)) s
      simp [expect, condsOf, actions]
    · exact ⟨nofun, nofun⟩
    · nofun
    · exact ⟨fun _ => ⟨_, _, _, _, _, rfl⟩, fun _ => rfl⟩
    · rintro s' op' k' a b h; cases h; exact hk

theorem good_addAction (g : Good tr H) {s : Nat} {v : String} {mem : Bool} (hk : H.kindOf s = some .stmt) :
    Good (tr ++ [(.addAction s v mem, (step H (.addAction s v mem)).2)]) (step H (.addAction s v mem)).1 := by
  obtain ⟨n, hn, hkn⟩ := kindOf_some hk
  cases n <;> try cases hkn
  rename_i effect acts conds
  unfold step
  simp only [hn]
  obtain ⟨h1, h2⟩ := insert_spec acts v mem
  refine g.put rfl rfl rfl nofun hn rfl ?_ rfl ?_
  · simp only [blocks]; omega
  · intro made hm
    obtain ⟨⟨p, m, rfl⟩, rfl, rfl⟩ := made_stmt hm
    rw [h1]
    cases (insert (actions tr s) v mem).2.1
    · simp [expect, actions, condsOf]
    · simp only [expect, actions, condsOf, List.filterMap_append, List.filterMap_cons, List.filterMap_nil, if_pos,
        firsts_snoc, List.append_nil]
      rfl

theorem good_addValue (g : Good tr H) {c : Nat} {v : String} {mem : Bool} (hk : H.kindOf c = some .cond) :
    Good (tr ++ [(.addValue c v mem, (step H (.addValue c v mem)).2)]) (step H (.addValue c v mem)).1 := by
  obtain ⟨n, hn, hkn⟩ := kindOf_some hk
  cases n <;> try cases hkn
  rename_i op key vs
  unfold step
  simp only [hn]
  obtain ⟨h1, h2⟩ := insert_spec vs v mem
  refine g.put rfl rfl rfl nofun hn rfl ?_ rfl ?_
  · simp only [blocks]; omega
  · intro made hm
    obtain ⟨⟨p, k, m1, m2, rfl, rfl⟩, rfl⟩ := made_cond hm
    rw [h1]
    cases (insert (values tr c) v mem).2.1
    · simp [expect, values]
    · simp only [expect, values, List.filterMap_append, List.filterMap_cons, List.filterMap_nil, if_pos, firsts_snoc]
      rfl

theorem good_addRolePolicy (g : Good tr H) {r : Nat} {v : String} {mem : Bool} (hk : H.kindOf r = some .role) :
    Good (tr ++ [(.addRolePolicy r v mem, (step H (.addRolePolicy r v mem)).2)]) (step H (.addRolePolicy r v mem)).1 := by
  obtain ⟨n, hn, hkn⟩ := kindOf_some hk
  cases n <;> try cases hkn
  rename_i id ps
  unfold step
  simp only [hn]
  obtain ⟨h1, h2⟩ := insert_spec ps v mem
  refine g.put rfl rfl rfl nofun hn rfl ?_ rfl ?_
  · simp only [blocks]; omega
  · intro made hm
    obtain ⟨⟨m1, m2, rfl⟩, rfl⟩ := made_role hm
    rw [h1]
    cases (insert (rolePolicies tr r) v mem).2.1
    · simp [expect, rolePolicies]
    · simp only [expect, rolePolicies, List.filterMap_append, List.filterMap_cons, List.filterMap_nil, if_pos, firsts_snoc]
      rfl

theorem good_setUnpaired (g : Good tr H) {c : Nat} {r : Option String} {mem : Bool} (hk : H.kindOf c = some .conf) :
    Good (tr ++ [(.setUnpaired c r mem, (step H (.setUnpaired c r mem)).2)]) (step H (.setUnpaired c r mem)).1 := by
  obtain ⟨n, hn, hkn⟩ := kindOf_some hk
  cases n <;> try cases hkn
  rename_i roles pols u
  unfold step
  simp only [hn]
  refine g.put rfl rfl rfl nofun hn rfl ?_ rfl ?_
  · cases r <;> cases mem <;> simp [blocks, setString, one] <;> omega
  · intro made hm
    obtain ⟨⟨m, rfl⟩, rfl, rfl, rfl⟩ := made_conf hm
    cases r <;> cases mem <;>
      simp [expect, setString, polsOf, rolesOf, unpaired]

theorem good_addPol (g : Good tr H) {c p : Nat} (hc : H.kindOf c = some .conf) (hp : H.kindOf p = some .pol)
    (ha : ∀ c, (Call.addPol c p, Ret.bool true) ∉ tr) :
    Good (tr ++ [(.addPol c p, (step H (.addPol c p)).2)]) (step H (.addPol c p)).1 := by
  obtain ⟨n, hn, hkn⟩ := kindOf_some hc
  cases n <;> try cases hkn
  obtain ⟨m, hm, hkm⟩ := kindOf_some hp
  cases m <;> try cases hkm
  have hu := (unowned_pol g.inv g.j hp).2 ha
  have hca := (g.j.conf c).1 hc
  unfold step
  simp only [hn, hm, (owned_false g.inv).2 hu]
  refine g.add (n' := .conf _ _ _) rfl rfl hn hm hu rfl rfl ?_ ?_ hca.1 (by simp [ConfAlive]) ?_ (by simp [RoleAlive])
  · simp only [kidKinds, kind, List.map_append, List.map_cons, List.map_nil, ← List.append_assoc]
    exact List.perm_append_singleton _ _
  · intro made hm
    obtain ⟨⟨m, rfl⟩, rfl, rfl, rfl⟩ := made_conf hm
    simp [expect, polsOf, rolesOf, unpaired]
  · intro q
    simp only [PolAlive, List.mem_append, List.mem_singleton]
    constructor
    · rintro ⟨⟨n, a, b, h1 | h1⟩, h2, h3⟩
      · exact ⟨⟨n, a, b, h1⟩, fun r hr => h2 r (.inl hr), fun c hc r hr => h3 c (.inl hc) r (.inl hr)⟩
      · cases h1
    · rintro ⟨⟨n, a, b, h1⟩, h2, h3⟩
      refine ⟨⟨n, a, b, .inl h1⟩, fun r hr => ?_, fun c' hc' r hr => ?_⟩
      · rcases hr with hr | hr
        · exact h2 r hr
        · cases hr
      · rcases hr with hr | hr
        · rcases hc' with hc' | hc'
          · exact h3 c' hc' r hr
          · cases hc'; exact hca.2 r hr
        · cases hr

theorem good_addRole (g : Good tr H) {c p : Nat} (hc : H.kindOf c = some .conf) (hp : H.kindOf p = some .role)
    (ha : ∀ c, (Call.addRole c p, Ret.bool true) ∉ tr) :
    Good (tr ++ [(.addRole c p, (step H (.addRole c p)).2)]) (step H (.addRole c p)).1 := by
  obtain ⟨n, hn, hkn⟩ := kindOf_some hc
  cases n <;> try cases hkn
  obtain ⟨m, hm, hkm⟩ := kindOf_some hp
  cases m <;> try cases hkm
  have hu := (unowned_role g.inv g.j hp).2 ha
  have hca := (g.j.conf c).1 hc
  unfold step
  simp only [hn, hm, (owned_false g.inv).2 hu]
  refine g.add (n' := .conf _ _ _) rfl rfl hn hm hu rfl rfl ?_ ?_ hca.1 (by simp [ConfAlive]) (by simp [PolAlive]) ?_
  · simp only [kidKinds, kind, List.map_append, List.map_cons, List.map_nil, List.append_assoc, List.singleton_append]
    exact List.perm_middle
  · intro made hm
    obtain ⟨⟨m, rfl⟩, rfl, rfl, rfl⟩ := made_conf hm
    simp [expect, polsOf, rolesOf, unpaired]
  · intro q
    simp only [RoleAlive, List.mem_append, List.mem_singleton]
    constructor
    · rintro ⟨⟨n, a, b, h1 | h1⟩, h2, h3⟩
      · exact ⟨⟨n, a, b, h1⟩, fun r hr => h2 r (.inl hr), fun c hc r hr => h3 c (.inl hc) r (.inl hr)⟩
      · cases h1
    · rintro ⟨⟨n, a, b, h1⟩, h2, h3⟩
      refine ⟨⟨n, a, b, .inl h1⟩, fun r hr => ?_, fun c' hc' r hr => ?_⟩
      · rcases hr with hr | hr
        · exact h2 r hr
        · cases hr
      · rcases hr with hr | hr
        · rcases hc' with hc' | hc'
          · exact h3 c' hc' r hr
          · cases hc'; exact hca.2 r hr
        · cases hr

end Verif.Iam.Builder
