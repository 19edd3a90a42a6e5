import Verif.Iam.BuilderCalls

/-!
# The configuration builder — freeing, and histories
-/

namespace Verif.Iam.Builder
open Spec

variable {tr : Trace} {H : Heap}

theorem mem_snoc {call c : Call} {r : Ret} : (c, r) ∈ tr ++ [(call, Ret.unit)] ↔ (c, r) ∈ tr ∨ (c = call ∧ r = .unit) := by
  simp

theorem conf_not_desc (I : Inv H) {k h x : Nat} {n : Node} (hn : H.node h = some n) (hx : H.kindOf x = some .conf)
    (hne : x ≠ h) : x ∉ desc H k h := by
  intro hd
  obtain ⟨m, hm, e⟩ := kindOf_some hx
  refine hne (desc_top I hn hm ?_ hd)
  rw [e]; generalize kind n = k; cases k <;> decide

theorem rank2_not_desc (I : Inv H) {k h x : Nat} {n m : Node} (hn : H.node h = some n) (hm : H.node x = some m)
    (h2 : (kind m).rank = 2) (hr : (kind n).rank = 2) (hne : x ≠ h) : x ∉ desc H k h := by
  intro hd
  exact hne (desc_top I hn hm (by omega) hd)

theorem good_freePol (g : Good tr H) {p : Nat} (hp : H.kindOf p = some .pol)
    (ha : ∀ c, (Call.addPol c p, Ret.bool true) ∉ tr) :
    Good (tr ++ [(.freePol p, (step H (.freePol p)).2)]) (step H (.freePol p)).1 := by
  have hu := (unowned_pol g.inv g.j hp).2 ha
  obtain ⟨n, hn, hk⟩ := kindOf_some hp
  have go := freePol_gone g.inv hp (H1 := H) (fun _ _ => rfl) rfl
  have hself := desc_self (k := 2) hn
  simp only [step, (owned_false g.inv).2 hu]
  refine ⟨go.bad.trans g.bad, g.inv.gone hn hu go, g.j.free g.inv hn hu (by rw [hk]; decide) go rfl rfl ?_ ?_ ?_⟩
  · intro c
    rw [g.j.conf]
    constructor
    · intro h
      have h' : ConfAlive tr c := by simpa [ConfAlive] using h
      refine ⟨h', conf_not_desc g.inv hn ((g.j.conf c).2 h') ?_⟩
      rintro rfl
      have := (g.j.conf _).2 h'
      rw [hp] at this; cases this
    · rintro ⟨h, _⟩
      simpa [ConfAlive] using h
  · intro q
    have e : PolAlive (tr ++ [(.freePol p, .unit)]) q ↔ PolAlive tr q ∧ q ≠ p := by
      simp only [PolAlive, mem_snoc]
      constructor
      · rintro ⟨⟨n, a, b, h1 | h1⟩, h2, h3⟩
        · exact ⟨⟨⟨n, a, b, h1⟩, fun r hr => h2 r (.inl hr), fun c hc r hr => h3 c (.inl hc) r (.inl hr)⟩,
            fun e => h2 .unit (.inr ⟨by rw [e], rfl⟩)⟩
        · cases h1.1
      · rintro ⟨⟨⟨n, a, b, h1⟩, h2, h3⟩, hne⟩
        refine ⟨⟨n, a, b, .inl h1⟩, fun r hr => ?_, fun c hc r hr => ?_⟩
        · rcases hr with hr | hr
          · exact h2 r hr
          · cases hr.1; exact hne rfl
        · rcases hc with hc | hc
          · rcases hr with hr | hr
            · exact h3 c hc r hr
            · cases hr.1
          · cases hc.1
    rw [e, ← g.j.pol]
    constructor
    · rintro ⟨h1, h2⟩
      obtain ⟨m, hm, e⟩ := kindOf_some h1
      exact ⟨h1, rank2_not_desc g.inv hn hm (by rw [e]; rfl) (by rw [hk]; rfl) h2⟩
    · rintro ⟨h1, h2⟩
      exact ⟨h1, fun e => h2 (e ▸ hself)⟩
  · intro r
    rw [g.j.role]
    constructor
    · intro h
      have h' : RoleAlive tr r := by simpa [RoleAlive] using h
      have hk' := (g.j.role r).2 h'
      obtain ⟨m, hm, e⟩ := kindOf_some hk'
      refine ⟨h', rank2_not_desc g.inv hn hm (by rw [e]; rfl) (by rw [hk]; rfl) ?_⟩
      rintro rfl
      rw [hp] at hk'; cases hk'
    · rintro ⟨h, _⟩
      simpa [RoleAlive] using h

theorem good_freeRole (g : Good tr H) {p : Nat} (hp : H.kindOf p = some .role)
    (ha : ∀ c, (Call.addRole c p, Ret.bool true) ∉ tr) :
    Good (tr ++ [(.freeRole p, (step H (.freeRole p)).2)]) (step H (.freeRole p)).1 := by
  have hu := (unowned_role g.inv g.j hp).2 ha
  obtain ⟨n, hn, hk⟩ := kindOf_some hp
  have go := freeRole_gone g.inv hp (H1 := H) (fun _ _ => rfl) rfl
  have hself := desc_self (k := 2) hn
  simp only [step, (owned_false g.inv).2 hu]
  refine ⟨go.bad.trans g.bad, g.inv.gone hn hu go, g.j.free g.inv hn hu (by rw [hk]; decide) go rfl rfl ?_ ?_ ?_⟩
  · intro c
    rw [g.j.conf]
    constructor
    · intro h
      have h' : ConfAlive tr c := by simpa [ConfAlive] using h
      refine ⟨h', conf_not_desc g.inv hn ((g.j.conf c).2 h') ?_⟩
      rintro rfl
      have := (g.j.conf _).2 h'
      rw [hp] at this; cases this
    · rintro ⟨h, _⟩
      simpa [ConfAlive] using h
  · intro r
    rw [g.j.pol]
    constructor
    · intro h
      have h' : PolAlive tr r := by simpa [PolAlive] using h
      have hk' := (g.j.pol r).2 h'
      obtain ⟨m, hm, e⟩ := kindOf_some hk'
      refine ⟨h', rank2_not_desc g.inv hn hm (by rw [e]; rfl) (by rw [hk]; rfl) ?_⟩
      rintro rfl
      rw [hp] at hk'; cases hk'
    · rintro ⟨h, _⟩
      simpa [PolAlive] using h
  · intro q
    have e : RoleAlive (tr ++ [(.freeRole p, .unit)]) q ↔ RoleAlive tr q ∧ q ≠ p := by
      simp only [RoleAlive, mem_snoc]
      constructor
      · rintro ⟨⟨n, a, b, h1 | h1⟩, h2, h3⟩
        · exact ⟨⟨⟨n, a, b, h1⟩, fun r hr => h2 r (.inl hr), fun c hc r hr => h3 c (.inl hc) r (.inl hr)⟩,
            fun e => h2 .unit (.inr ⟨by rw [e], rfl⟩)⟩
        · cases h1.1
      · rintro ⟨⟨⟨n, a, b, h1⟩, h2, h3⟩, hne⟩
        refine ⟨⟨n, a, b, .inl h1⟩, fun r hr => ?_, fun c hc r hr => ?_⟩
        · rcases hr with hr | hr
          · exact h2 r hr
          · cases hr.1; exact hne rfl
        · rcases hc with hc | hc
          · rcases hr with hr | hr
            · exact h3 c hc r hr
            · cases hr.1
          · cases hc.1
    rw [e, ← g.j.role]
    constructor
    · rintro ⟨h1, h2⟩
      obtain ⟨m, hm, e⟩ := kindOf_some h1
      exact ⟨h1, rank2_not_desc g.inv hn hm (by rw [e]; rfl) (by rw [hk]; rfl) h2⟩
    · rintro ⟨h1, h2⟩
      exact ⟨h1, fun e => h2 (e ▸ hself)⟩

theorem good_freeConf (g : Good tr H) {c : Nat} (hp : H.kindOf c = some .conf) :
    Good (tr ++ [(.freeConf c, (step H (.freeConf c)).2)]) (step H (.freeConf c)).1 := by
  have hu := unowned_conf g.inv hp
  obtain ⟨n, hn, hk⟩ := kindOf_some hp
  have go := freeConf_gone g.inv hp
  have hself := desc_self (k := 3) hn
  refine ⟨go.bad.trans g.bad, g.inv.gone hn hu go, g.j.free g.inv hn hu (by rw [hk]; decide) go rfl rfl ?_ ?_ ?_⟩
  · intro q
    have e : ConfAlive (tr ++ [(.freeConf c, .unit)]) q ↔ ConfAlive tr q ∧ q ≠ c := by
      simp only [ConfAlive, mem_snoc]
      constructor
      · rintro ⟨⟨m, h1 | h1⟩, h2⟩
        · exact ⟨⟨⟨m, h1⟩, fun r hr => h2 r (.inl hr)⟩, fun e => h2 .unit (.inr ⟨by rw [e], rfl⟩)⟩
        · cases h1.1
      · rintro ⟨⟨⟨m, h1⟩, h2⟩, hne⟩
        refine ⟨⟨m, .inl h1⟩, fun r hr => ?_⟩
        rcases hr with hr | hr
        · exact h2 r hr
        · cases hr.1; exact hne rfl
    rw [e, ← g.j.conf]
    constructor
    · rintro ⟨h1, h2⟩
      exact ⟨h1, conf_not_desc g.inv hn h1 h2⟩
    · rintro ⟨h1, h2⟩
      exact ⟨h1, fun e => h2 (e ▸ hself)⟩
  · intro q
    have e : PolAlive (tr ++ [(.freeConf c, .unit)]) q ↔
        PolAlive tr q ∧ (Call.addPol c q, Ret.bool true) ∉ tr := by
      simp only [PolAlive, mem_snoc]
      constructor
      · rintro ⟨⟨n, a, b, h1 | h1⟩, h2, h3⟩
        · exact ⟨⟨⟨n, a, b, h1⟩, fun r hr => h2 r (.inl hr), fun c hc r hr => h3 c (.inl hc) r (.inl hr)⟩,
            fun e => h3 c (.inl e) .unit (.inr ⟨rfl, rfl⟩)⟩
        · cases h1.1
      · rintro ⟨⟨⟨n, a, b, h1⟩, h2, h3⟩, hne⟩
        refine ⟨⟨n, a, b, .inl h1⟩, fun r hr => ?_, fun c hc r hr => ?_⟩
        · rcases hr with hr | hr
          · exact h2 r hr
          · cases hr.1
        · rcases hc with hc | hc
          · rcases hr with hr | hr
            · exact h3 c hc r hr
            · cases hr.1; exact hne hc
          · cases hc.1
    rw [e, ← g.j.pol]
    refine and_congr_right fun hq => not_congr ?_
    obtain ⟨m, hm, e⟩ := kindOf_some hq
    rw [desc_mem g.inv hn hm (by rw [hk]; decide) (by rw [hk, e]; rfl)]
    constructor
    · intro h
      obtain ⟨n', hn', h'⟩ := kid_pol g.j hq h
      rw [hn] at hn'; cases hn'; exact h'
    · exact pol_kid g.inv g.j hq hn
  · intro q
    have e : RoleAlive (tr ++ [(.freeConf c, .unit)]) q ↔
        RoleAlive tr q ∧ (Call.addRole c q, Ret.bool true) ∉ tr := by
      simp only [RoleAlive, mem_snoc]
      constructor
      · rintro ⟨⟨n, a, b, h1 | h1⟩, h2, h3⟩
        · exact ⟨⟨⟨n, a, b, h1⟩, fun r hr => h2 r (.inl hr), fun c hc r hr => h3 c (.inl hc) r (.inl hr)⟩,
            fun e => h3 c (.inl e) .unit (.inr ⟨rfl, rfl⟩)⟩
        · cases h1.1
      · rintro ⟨⟨⟨n, a, b, h1⟩, h2, h3⟩, hne⟩
        refine ⟨⟨n, a, b, .inl h1⟩, fun r hr => ?_, fun c hc r hr => ?_⟩
        · rcases hr with hr | hr
          · exact h2 r hr
          · cases hr.1
        · rcases hc with hc | hc
          · rcases hr with hr | hr
            · exact h3 c hc r hr
            · cases hr.1; exact hne hc
          · cases hc.1
    rw [e, ← g.j.role]
    refine and_congr_right fun hq => not_congr ?_
    obtain ⟨m, hm, e⟩ := kindOf_some hq
    rw [desc_mem g.inv hn hm (by rw [hk]; decide) (by rw [hk, e]; rfl)]
    constructor
    · intro h
      obtain ⟨n', hn', h'⟩ := kid_role g.j hq h
      rw [hn] at hn'; cases hn'; exact h'
    · exact role_kid g.inv g.j hq hn

/-- Every call within the contract. -/
theorem good_step (g : Good tr H) (call : Call) (ha : Allowed tr call) :
    Good (tr ++ [(call, (step H call).2)]) (step H call).1 := by
  cases call with
  | newConf mem => exact good_newConf g mem
  | newPol name m1 m2 => exact good_newPol g name m1 m2
  | newRole name m1 m2 => exact good_newRole g name m1 m2
  | createStmt p e mem => exact good_createStmt g ((g.j.pol p).2 ha)
  | createCond s op key m1 m2 => exact good_createCond g ((StmtAlive_iff g.j s).2 ha)
  | addAction s v mem => exact good_addAction g ((StmtAlive_iff g.j s).2 ha)
  | addValue c v mem => exact good_addValue g ((CondAlive_iff g.j c).2 ha)
  | addRolePolicy r v mem => exact good_addRolePolicy g ((g.j.role r).2 ha)
  | addPol c p => exact good_addPol g ((g.j.conf c).2 ha.1) ((g.j.pol p).2 ha.2.1) ha.2.2
  | addRole c r => exact good_addRole g ((g.j.conf c).2 ha.1) ((g.j.role r).2 ha.2.1) ha.2.2
  | setUnpaired c r mem => exact good_setUnpaired g ((g.j.conf c).2 ha)
  | freePol p => exact good_freePol g ((g.j.pol p).2 ha.1) ha.2
  | freeRole r => exact good_freeRole g ((g.j.role r).2 ha.1) ha.2
  | freeConf c => exact good_freeConf g ((g.j.conf c).2 ha)

theorem run_snoc (cs : List Call) (c : Call) :
    run (cs ++ [c]) = ((step (run cs).1 c).1, (run cs).2 ++ [(c, (step (run cs).1 c).2)]) := by
  simp [run]

theorem Proper.init {tr : Trace} {e : Call × Ret} (h : Proper (tr ++ [e])) : Proper tr ∧ Allowed tr e.1 := by
  constructor
  · intro pre x post hx
    exact h pre x (post ++ [e]) (by rw [hx]; simp)
  · exact h tr e [] rfl

theorem snoc_ind {A : Type} {P : List A → Prop} (h0 : P []) (h1 : ∀ l a, P l → P (l ++ [a])) (l : List A) : P l := by
  suffices ∀ l : List A, P l.reverse by simpa using this l.reverse
  intro l
  induction l with
  | nil => exact h0
  | cons a l ih => rw [List.reverse_cons]; exact h1 _ _ ih

theorem good_run (cs : List Call) : Proper (run cs).2 → Good (run cs).2 (run cs).1 := by
  induction cs using snoc_ind with
  | h0 => intro _; exact Good.init
  | h1 cs c ih =>
    rw [run_snoc]
    intro h
    obtain ⟨h1, h2⟩ := Proper.init h
    exact good_step (ih h1) c h2

end Verif.Iam.Builder
