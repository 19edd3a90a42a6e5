import Verif.Iam.BuilderLemmas

/-!
# The configuration builder — one call
-/

namespace Verif.Iam.Builder
open Spec

/-- A call which makes and frees no structure. -/
theorem J.quiet {tr : Trace} {H H' : Heap} (j : J tr H) {call : Call} {ret : Ret} (hr : ∀ h, ret ≠ .handle (some h))
    (hk : ∀ x, H'.kindOf x = H.kindOf x) (hn : H'.next = H.next)
    (hm : ∀ h, target call = some h ∨ second call = some h → h < H.next)
    (hh : ret = .bool true → ∀ x, second call = some x →
      ∃ c m, target call = some c ∧ (Call.newConf m, Ret.handle (some c)) ∈ tr)
    (hb : ∀ h n, H'.node h = some n → ∃ m, H.node h = some m ∧
      ∀ made, expect tr made h = some m → expect (tr ++ [(call, ret)]) made h = some n)
    (hc : ∀ c, ConfAlive (tr ++ [(call, ret)]) c ↔ ConfAlive tr c)
    (hp : ∀ c, PolAlive (tr ++ [(call, ret)]) c ↔ PolAlive tr c)
    (hro : ∀ c, RoleAlive (tr ++ [(call, ret)]) c ↔ RoleAlive tr c) : J (tr ++ [(call, ret)]) H' := by
  have old : ∀ a h, (a, Ret.handle (some h)) ∈ tr ++ [(call, ret)] ↔ (a, Ret.handle (some h)) ∈ tr := by
    intro a h
    rw [List.mem_append, List.mem_singleton]
    constructor
    · rintro (h1 | h1)
      · exact h1
      · cases h1; exact absurd rfl (hr h)
    · exact .inl
  constructor
  · intro h n hx
    obtain ⟨m, hm, he⟩ := hb h n hx
    obtain ⟨made, h1, h2⟩ := j.born h m hm
    exact ⟨made, (old _ _).2 h1, he made h2⟩
  · intro a b h ha hb
    exact j.one a b h ((old _ _).1 ha) ((old _ _).1 hb)
  · intro c r hcr h hh
    rw [hn]
    rw [List.mem_append, List.mem_singleton] at hcr
    rcases hcr with h1 | h1
    · exact j.below c r h1 h hh
    · cases h1
      rcases hh with h2 | h2 | h2
      · exact hm h (.inl h2)
      · exact hm h (.inr h2)
      · exact absurd h2 (hr h)
  · intro a ha x hx
    rw [List.mem_append, List.mem_singleton] at ha
    rcases ha with h1 | h1
    · obtain ⟨c, m, h2, h3⟩ := j.hosts a h1 x hx
      exact ⟨c, m, h2, by simp [h3]⟩
    · cases h1
      obtain ⟨c, m, h2, h3⟩ := hh rfl x hx
      exact ⟨c, m, h2, by simp [h3]⟩
  · intro c; rw [hk, hc]; exact j.conf c
  · intro c; rw [hk, hp]; exact j.pol c
  · intro c; rw [hk, hro]; exact j.role c
  · intro s; rw [hk, j.stmt]; simp only [old, hk]
  · intro s; rw [hk, j.cond]; simp only [old, hk]

/-- A call which makes a structure. -/
theorem J.create {tr : Trace} {H H' : Heap} (I : Inv H) (j : J tr H) {call : Call} {n0 : Node}
    (hk : ∀ x, H'.kindOf x = if x = H.next then some (kind n0) else H.kindOf x) (hn : H'.next = H.next + 1)
    (hm : ∀ h, target call = some h ∨ second call = some h → h < H.next)
    (hnew : H'.node H.next = some n0) (he : expect [] call H.next = some n0)
    (hb : ∀ h n, h ≠ H.next → H'.node h = some n → ∃ m, H.node h = some m ∧
      ∀ made, expect tr made h = some m → expect (tr ++ [(call, .handle (some H.next))]) made h = some n)
    (hconf : ∀ c, ConfAlive (tr ++ [(call, .handle (some H.next))]) c ↔ ConfAlive tr c ∨ (c = H.next ∧ kind n0 = .conf))
    (hpol : ∀ c, PolAlive (tr ++ [(call, .handle (some H.next))]) c ↔ PolAlive tr c ∨ (c = H.next ∧ kind n0 = .pol))
    (hrole : ∀ c, RoleAlive (tr ++ [(call, .handle (some H.next))]) c ↔ RoleAlive tr c ∨ (c = H.next ∧ kind n0 = .role))
    (hstmt : kind n0 = .stmt ↔ ∃ p e m, call = .createStmt p e m)
    (hstmt' : ∀ p e m, call = .createStmt p e m → H.kindOf p = some .pol)
    (hcond : kind n0 = .cond ↔ ∃ s op key m1 m2, call = .createCond s op key m1 m2)
    (hcond' : ∀ s op key m1 m2, call = .createCond s op key m1 m2 → H.kindOf s = some .stmt) :
    J (tr ++ [(call, .handle (some H.next))]) H' := by
  have fr : ∀ a, (a, Ret.handle (some H.next)) ∉ tr := by
    intro a ha
    have := j.below _ _ ha H.next (.inr (.inr rfl))
    omega
  have hkn : H.kindOf H.next = none := by simp [Heap.kindOf, I.fresh]
  have hkind : ∀ x k, H'.kindOf x = some k ↔ H.kindOf x = some k ∨ (x = H.next ∧ kind n0 = k) := by
    intro x k
    rw [hk]
    by_cases e : x = H.next
    · subst e; rw [if_pos rfl, hkn]; simp
    · rw [if_neg e]; simp [e]
  constructor
  · intro h n hx
    by_cases e : h = H.next
    · subst e
      rw [hnew] at hx; cases hx
      refine ⟨call, by simp, ?_⟩
      rw [expect_fresh ?_ call, he]
      intro e he' ht
      rw [List.mem_append, List.mem_singleton] at he'
      rcases he' with h1 | h1
      · have := j.below e.1 e.2 h1 _ (.inl ht); omega
      · subst h1; have := hm _ (.inl ht); omega
    · obtain ⟨m, hm, he⟩ := hb h n e hx
      obtain ⟨made, h1, h2⟩ := j.born h m hm
      exact ⟨made, by simp [h1], he made h2⟩
  · intro a b h ha hb
    rw [List.mem_append, List.mem_singleton] at ha hb
    rcases ha with h1 | h1 <;> rcases hb with h2 | h2
    · exact j.one a b h h1 h2
    · cases h2; exact absurd h1 (fr a)
    · cases h1; exact absurd h2 (fr b)
    · cases h1; cases h2; rfl
  · intro c r hcr h hh
    rw [hn]
    rw [List.mem_append, List.mem_singleton] at hcr
    rcases hcr with h1 | h1
    · have := j.below c r h1 h hh; omega
    · cases h1
      rcases hh with h2 | h2 | h2
      · have := hm h (.inl h2); omega
      · have := hm h (.inr h2); omega
      · cases h2; omega
  · intro a ha x hx
    rw [List.mem_append, List.mem_singleton] at ha
    rcases ha with h1 | h1
    · obtain ⟨c, m, h2, h3⟩ := j.hosts a h1 x hx
      exact ⟨c, m, h2, by simp [h3]⟩
    · cases h1
  · intro c; rw [hkind, hconf, j.conf]
  · intro c; rw [hkind, hpol, j.pol]
  · intro c; rw [hkind, hrole, j.role]
  · intro s
    rw [hkind, j.stmt]
    constructor
    · rintro (⟨p, e, m, h1, h2⟩ | ⟨h1, h2⟩)
      · exact ⟨p, e, m, by simp [h1], (hkind _ _).2 (.inl h2)⟩
      · obtain ⟨p, e, m, rfl⟩ := hstmt.1 h2
        exact ⟨p, e, m, by simp [h1], (hkind _ _).2 (.inl (hstmt' _ _ _ rfl))⟩
    · rintro ⟨p, e, m, h1, h2⟩
      rw [List.mem_append, List.mem_singleton] at h1
      rcases h1 with h1 | h1
      · refine .inl ⟨p, e, m, h1, ?_⟩
        rcases (hkind _ _).1 h2 with h3 | h3
        · exact h3
        · have := j.below _ _ h1 p (.inl rfl); omega
      · cases h1
        exact .inr ⟨rfl, hstmt.2 ⟨_, _, _, rfl⟩⟩
  · intro s
    rw [hkind, j.cond]
    constructor
    · rintro (⟨p, e, m, m1, m2, h1, h2⟩ | ⟨h1, h2⟩)
      · exact ⟨p, e, m, m1, m2, by simp [h1], (hkind _ _).2 (.inl h2)⟩
      · obtain ⟨p, e, m, m1, m2, rfl⟩ := hcond.1 h2
        exact ⟨p, e, m, m1, m2, by simp [h1], (hkind _ _).2 (.inl (hcond' _ _ _ _ _ rfl))⟩
    · rintro ⟨p, e, m, m1, m2, h1, h2⟩
      rw [List.mem_append, List.mem_singleton] at h1
      rcases h1 with h1 | h1
      · refine .inl ⟨p, e, m, m1, m2, h1, ?_⟩
        rcases (hkind _ _).1 h2 with h3 | h3
        · exact h3
        · have := j.below _ _ h1 p (.inl rfl); omega
      · cases h1
        exact .inr ⟨rfl, hcond.2 ⟨_, _, _, _, _, rfl⟩⟩

theorem J.entry {tr : Trace} {H : Heap} (j : J tr H) {call : Call} {h : Nat} {n : Node}
    (hm : (call, Ret.handle (some h)) ∈ tr) (hn : H.node h = some n) : expect tr call h = some n := by
  obtain ⟨made, h1, h2⟩ := j.born h n hn
  rw [j.one _ _ _ hm h1]; exact h2

/-- Children in the heap are those the calls made. -/
theorem J.stmt_kid {tr : Trace} {H : Heap} (j : J tr H) {p s : Nat} {e : Effect} {m : Bool} {n : Node}
    (hm : (Call.createStmt p e m, Ret.handle (some s)) ∈ tr) (hn : H.node p = some n) (hk : kind n = .pol) :
    s ∈ kids n := by
  obtain ⟨made, h1, h2⟩ := j.born p n hn
  cases made <;> simp only [expect, Option.some.injEq, reduceCtorEq] at h2
  all_goals subst h2
  all_goals first | (cases hk; done) | exact mem_stmtsOf.2 ⟨e, m, hm⟩

theorem J.cond_kid {tr : Trace} {H : Heap} (j : J tr H) {s c : Nat} {op : Op} {key : String} {m1 m2 : Bool} {n : Node}
    (hm : (Call.createCond s op key m1 m2, Ret.handle (some c)) ∈ tr) (hn : H.node s = some n) (hk : kind n = .stmt) :
    c ∈ kids n := by
  obtain ⟨made, h1, h2⟩ := j.born s n hn
  cases made <;> simp only [expect, Option.some.injEq, reduceCtorEq] at h2
  all_goals subst h2
  all_goals first | (cases hk; done) | exact mem_condsOf.2 ⟨op, key, m1, m2, hm⟩

theorem desc_kid {H : Heap} (I : Inv H) {k h x : Nat} {n m : Node} (hn : H.node h = some n) (hm : H.node x = some m)
    (hx : x ∈ desc H k h) : x = h ∨ x ∈ kids n ∨ (kind m).rank + 2 ≤ (kind n).rank := by
  cases k with
  | zero => cases hx
  | succ k =>
    rw [desc_some hn, List.mem_append, List.mem_flatMap] at hx
    rcases hx with ⟨d, hd, hx⟩ | hx
    · obtain ⟨nd, hnd, hr⟩ := I.kid hn hd
      cases k with
      | zero => cases hx
      | succ k =>
        rw [desc_some hnd, List.mem_append, List.mem_flatMap] at hx
        rcases hx with ⟨e, he, hx⟩ | hx
        · obtain ⟨ne, hne, hr'⟩ := I.kid hnd he
          obtain ⟨q, hq, hrq⟩ := desc_rank I hne hx
          rw [hm] at hq; cases hq
          exact .inr (.inr (by omega))
        · rw [List.mem_singleton] at hx; subst hx; exact .inr (.inl hd)
    · exact .inl (List.mem_singleton.1 hx)

/-- A call which frees a tree. -/
theorem J.free {tr : Trace} {H H' : Heap} (I : Inv H) (j : J tr H) {call : Call} {h : Nat} {n : Node} {k : Nat}
    (hn : H.node h = some n) (hu : Unowned H h) (hk : (kind n).rank < k) (g : Gone H H' (desc H k h))
    (ht : target call = some h) (hs : second call = none)
    (hc : ∀ c, ConfAlive (tr ++ [(call, .unit)]) c ↔ H.kindOf c = some .conf ∧ c ∉ desc H k h)
    (hp : ∀ c, PolAlive (tr ++ [(call, .unit)]) c ↔ H.kindOf c = some .pol ∧ c ∉ desc H k h)
    (hro : ∀ c, RoleAlive (tr ++ [(call, .unit)]) c ↔ H.kindOf c = some .role ∧ c ∉ desc H k h) :
    J (tr ++ [(call, .unit)]) H' := by
  have old : ∀ a h, (a, Ret.handle (some h)) ∈ tr ++ [(call, Ret.unit)] ↔ (a, Ret.handle (some h)) ∈ tr := by
    intro a h
    rw [List.mem_append, List.mem_singleton]
    constructor
    · rintro (h1 | h1)
      · exact h1
      · cases h1
    · exact .inl
  have hself : h ∈ desc H k h := by
    obtain ⟨i, rfl⟩ : ∃ i, k = i + 1 := ⟨k - 1, by omega⟩
    exact desc_self hn
  have hkind : ∀ x kk, H'.kindOf x = some kk ↔ H.kindOf x = some kk ∧ x ∉ desc H k h := by
    intro x kk
    unfold Heap.kindOf
    rw [g.node]
    by_cases e : x ∈ desc H k h <;> simp [e]
  have both : ∀ a c m, H.node a = some m → c ∈ kids m → (c ∈ desc H k h ↔ a ∈ desc H k h) := by
    intro a c m ha hcm
    constructor
    · intro hd
      rcases desc_up I hn ha hcm hd with e | e
      · subst e; exact absurd hcm (hu _ _ ha)
      · exact e
    · exact desc_down I hn hk ha hcm
  constructor
  · intro x m hx
    rw [g.node] at hx
    by_cases e : x ∈ desc H k h
    · rw [if_pos e] at hx; cases hx
    · rw [if_neg e] at hx
      obtain ⟨made, h1, h2⟩ := j.born x m hx
      refine ⟨made, (old _ _).2 h1, ?_⟩
      rw [expect_skip, h2]
      rw [ht]
      intro e'
      cases e'
      exact e hself
  · intro a b x ha hb
    exact j.one a b x ((old _ _).1 ha) ((old _ _).1 hb)
  · intro c r hcr x hh
    rw [g.next]
    rw [List.mem_append, List.mem_singleton] at hcr
    rcases hcr with h1 | h1
    · exact j.below c r h1 x hh
    · cases h1
      rcases hh with h2 | h2 | h2
      · rw [ht] at h2; cases h2; exact I.low _ _ hn
      · rw [hs] at h2; cases h2
      · cases h2
  · intro a ha x hx
    rw [List.mem_append, List.mem_singleton] at ha
    rcases ha with h1 | h1
    · obtain ⟨c, m, h2, h3⟩ := j.hosts a h1 x hx
      exact ⟨c, m, h2, by simp [h3]⟩
    · cases h1
  · intro c; rw [hkind, hc]
  · intro c; rw [hkind, hp]
  · intro c; rw [hkind, hro]
  · intro s
    rw [hkind, j.stmt]
    constructor
    · rintro ⟨⟨p, e, m, h1, h2⟩, h3⟩
      obtain ⟨np, hnp, hkp⟩ := kindOf_some h2
      exact ⟨p, e, m, (old _ _).2 h1, (hkind _ _).2 ⟨h2, fun h4 => h3 ((both _ _ _ hnp (j.stmt_kid h1 hnp hkp)).2 h4)⟩⟩
    · rintro ⟨p, e, m, h1, h2⟩
      obtain ⟨h2, h3⟩ := (hkind _ _).1 h2
      have h1 := (old _ _).1 h1
      obtain ⟨np, hnp, hkp⟩ := kindOf_some h2
      exact ⟨⟨p, e, m, h1, h2⟩, fun h4 => h3 ((both _ _ _ hnp (j.stmt_kid h1 hnp hkp)).1 h4)⟩
  · intro s
    rw [hkind, j.cond]
    constructor
    · rintro ⟨⟨p, e, m, m1, m2, h1, h2⟩, h3⟩
      obtain ⟨np, hnp, hkp⟩ := kindOf_some h2
      exact ⟨p, e, m, m1, m2, (old _ _).2 h1,
        (hkind _ _).2 ⟨h2, fun h4 => h3 ((both _ _ _ hnp (j.cond_kid h1 hnp hkp)).2 h4)⟩⟩
    · rintro ⟨p, e, m, m1, m2, h1, h2⟩
      obtain ⟨h2, h3⟩ := (hkind _ _).1 h2
      have h1 := (old _ _).1 h1
      obtain ⟨np, hnp, hkp⟩ := kindOf_some h2
      exact ⟨⟨p, e, m, m1, m2, h1, h2⟩, fun h4 => h3 ((both _ _ _ hnp (j.cond_kid h1 hnp hkp)).1 h4)⟩

end Verif.Iam.Builder
