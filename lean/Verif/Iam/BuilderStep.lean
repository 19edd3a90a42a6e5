import Verif.Iam.BuilderTrace

/-!
# The configuration builder — every call keeps the invariants
-/

namespace Verif.Iam.Builder
open Spec

/-- What holds after calls within the contract. -/
structure Good (tr : Trace) (H : Heap) : Prop where
  bad : H.bad = false
  inv : Inv H
  j : J tr H

theorem Good.init : Good [] Heap.init := ⟨rfl, Inv.init, J.init⟩

theorem StmtAlive_iff {tr : Trace} {H : Heap} (j : J tr H) (s : Nat) : H.kindOf s = some .stmt ↔ StmtAlive tr s := by
  rw [j.stmt]; simp only [StmtAlive, j.pol]

theorem CondAlive_iff {tr : Trace} {H : Heap} (j : J tr H) (s : Nat) : H.kindOf s = some .cond ↔ CondAlive tr s := by
  rw [j.cond]; simp only [CondAlive, StmtAlive_iff j]

/-- A call which says nothing about the life of roots. -/
def plain : Call → Bool
  | .createStmt .. | .createCond .. | .addAction .. | .addValue .. | .addRolePolicy .. | .setUnpaired .. => true
  | _ => false

theorem plain_conf {tr : Trace} {call : Call} {ret : Ret} (hp : plain call = true) (c : Nat) :
    ConfAlive (tr ++ [(call, ret)]) c ↔ ConfAlive tr c := by
  cases call <;> first | cases hp; done | simp [ConfAlive]

theorem plain_pol {tr : Trace} {call : Call} {ret : Ret} (hp : plain call = true) (c : Nat) :
    PolAlive (tr ++ [(call, ret)]) c ↔ PolAlive tr c := by
  cases call <;> first | cases hp; done | simp [PolAlive]

theorem plain_role {tr : Trace} {call : Call} {ret : Ret} (hp : plain call = true) (c : Nat) :
    RoleAlive (tr ++ [(call, ret)]) c ↔ RoleAlive tr c := by
  cases call <;> first | cases hp; done | simp [RoleAlive]

theorem target_low {H : Heap} (I : Inv H) {h : Nat} {n : Node} (hn : H.node h = some n) {call : Call}
    (ht : target call = some h) (hs : second call = none) (x : Nat) (hx : target call = some x ∨ second call = some x) :
    x < H.next := by
  rcases hx with h1 | h1
  · rw [ht] at h1; cases h1; exact I.low _ _ hn
  · rw [hs] at h1; cases h1

/-- A plain call changes one node. -/
theorem Good.put {tr : Trace} {H : Heap} (g : Good tr H) {call : Call} {ret : Ret} {h : Nat} {n n' : Node} {k : Int}
    (hp : plain call = true) (ht : target call = some h) (hs : second call = none)
    (hr : ∀ h, ret ≠ .handle (some h)) (hn : H.node h = some n)
    (hk : kind n' = kind n) (hb : blocks (some n') = blocks (some n) + k) (hx : kidKinds n' = kidKinds n)
    (he : ∀ made, expect tr made h = some n → expect (tr ++ [(call, ret)]) made h = some n') :
    Good (tr ++ [(call, ret)]) (H.put h n' k) := by
  refine ⟨g.bad, g.inv.put hn hk hb ?_ (fun x hxm => .inl (hx ▸ hxm)),
    g.j.quiet hr (fun x => put_kindOf hn hk) rfl (target_low g.inv hn ht hs) (fun _ x hx => by rw [hs] at hx; cases hx) ?_ (plain_conf hp) (plain_pol hp)
      (plain_role hp)⟩
  · rw [kids_eq, hx, ← kids_eq]; exact g.inv.nodup _ _ hn
  · intro x m hm
    rw [put_node] at hm
    by_cases e : x = h
    · subst e; rw [if_pos rfl] at hm; cases hm; exact ⟨n, hn, he⟩
    · rw [if_neg e] at hm
      refine ⟨m, hm, fun made hmade => ?_⟩
      rw [expect_skip, hmade]
      rw [ht]; intro e'; cases e'; exact e rfl

/-- A call which fails and changes nothing. -/
theorem Good.same {tr : Trace} {H : Heap} (g : Good tr H) {call : Call}
    (hm : ∀ h, target call = some h ∨ second call = some h → h < H.next)
    (he : ∀ made h, expect (tr ++ [(call, .handle none)]) made h = expect tr made h)
    (hc : ∀ c, ConfAlive (tr ++ [(call, .handle none)]) c ↔ ConfAlive tr c)
    (hp : ∀ c, PolAlive (tr ++ [(call, .handle none)]) c ↔ PolAlive tr c)
    (hro : ∀ c, RoleAlive (tr ++ [(call, .handle none)]) c ↔ RoleAlive tr c) : Good (tr ++ [(call, .handle none)]) H :=
  ⟨g.bad, g.inv, g.j.quiet nofun (fun _ => rfl) rfl hm nofun (fun h n hn => ⟨n, hn, fun made hm => by rw [he]; exact hm⟩)
    hc hp hro⟩

theorem make_kindOf (H : Heap) (n : Node) (k : Int) (x : Nat) :
    (H.make n k).1.kindOf x = if x = H.next then some (kind n) else H.kindOf x := by
  unfold Heap.kindOf
  rw [make_node]
  by_cases e : x = H.next <;> simp [e]

/-- A root is made. -/
theorem Good.root {tr : Trace} {H : Heap} (g : Good tr H) {call : Call} {n : Node} {k : Int} (hkk : kidKinds n = [])
    (hb : blocks (some n) = k) (ht : target call = none) (hs : second call = none)
    (he : expect [] call H.next = some n)
    (hconf : ∀ c, ConfAlive (tr ++ [(call, .handle (some H.next))]) c ↔ ConfAlive tr c ∨ (c = H.next ∧ kind n = .conf))
    (hpol : ∀ c, PolAlive (tr ++ [(call, .handle (some H.next))]) c ↔ PolAlive tr c ∨ (c = H.next ∧ kind n = .pol))
    (hrole : ∀ c, RoleAlive (tr ++ [(call, .handle (some H.next))]) c ↔ RoleAlive tr c ∨ (c = H.next ∧ kind n = .role))
    (hstmt : kind n ≠ .stmt) (hcond : kind n ≠ .cond) :
    Good (tr ++ [(call, .handle (some H.next))]) (H.make n k).1 := by
  refine ⟨g.bad, g.inv.make hkk hb, g.j.create g.inv (make_kindOf H n k) rfl ?_ (by rw [make_node, if_pos rfl]) he ?_
    hconf hpol hrole ⟨fun h => absurd h hstmt, ?_⟩ ?_ ⟨fun h => absurd h hcond, ?_⟩ ?_⟩
  · intro h hh; rw [ht, hs] at hh; rcases hh with h1 | h1 <;> cases h1
  · intro h m hne hm
    rw [make_node, if_neg hne] at hm
    refine ⟨m, hm, fun made hmade => ?_⟩
    rw [expect_skip, hmade]
    rw [ht]; nofun
  · rintro ⟨p, e, m, rfl⟩; cases ht
  · rintro p e m rfl; cases ht
  · rintro ⟨p, e, m, m1, m2, rfl⟩; cases ht
  · rintro p e m m1 m2 rfl; cases ht

/-- A node is made in another one. -/
theorem Good.child {tr : Trace} {H : Heap} (g : Good tr H) {call : Call} {h : Nat} {n n' n0 : Node} {k : Int}
    (hp : plain call = true) (ht : target call = some h) (hs : second call = none) (hn : H.node h = some n)
    (hkk : kidKinds n0 = []) (hb : blocks (some n0) = k) (he : expect [] call H.next = some n0)
    (hk : kind n' = kind n) (hb' : blocks (some n') = blocks (some n))
    (hkids : kidKinds n' = kidKinds n ++ [(H.next, kind n0)])
    (hx : ∀ made, expect tr made h = some n → expect (tr ++ [(call, .handle (some H.next))]) made h = some n')
    (hroot : kind n0 = .stmt ∨ kind n0 = .cond)
    (hstmt : kind n0 = .stmt ↔ ∃ p e m, call = .createStmt p e m)
    (hstmt' : ∀ p e m, call = .createStmt p e m → H.kindOf p = some .pol)
    (hcond : kind n0 = .cond ↔ ∃ s op key m1 m2, call = .createCond s op key m1 m2)
    (hcond' : ∀ s op key m1 m2, call = .createCond s op key m1 m2 → H.kindOf s = some .stmt) :
    Good (tr ++ [(call, .handle (some H.next))]) ((H.make n0 k).1.put h n' 0) := by
  have hne : h ≠ H.next := fun e => by have := g.inv.low _ _ hn; omega
  have hn1 : (H.make n0 k).1.node h = some n := by rw [make_node, if_neg hne, hn]
  have I1 := g.inv.make hkk hb
  have hkids' : kids n' = kids n ++ [H.next] := by rw [kids_eq, kids_eq, hkids]; simp
  refine ⟨g.bad, I1.put hn1 hk (by omega) ?_ ?_, g.j.create g.inv (n0 := n0) ?_ rfl ?_ ?_ he ?_ ?_ ?_ ?_ hstmt hstmt'
    hcond hcond'⟩
  · rw [hkids']
    refine List.nodup_append.2 ⟨g.inv.nodup _ _ hn, by simp, ?_⟩
    intro a ha b hb' e
    rw [List.mem_singleton] at hb'
    subst e; subst hb'
    exact g.inv.fresh_unowned _ _ hn ha
  · intro x hxm
    rw [hkids, List.mem_append, List.mem_singleton] at hxm
    rcases hxm with h1 | h1
    · exact .inl h1
    · subst h1
      refine .inr ⟨by rw [make_kindOf, if_pos rfl], ?_⟩
      intro a m hm hc
      rw [make_node] at hm
      by_cases e : a = H.next
      · rw [if_pos e] at hm; cases hm
        rw [kids_eq, hkk] at hc; cases hc
      · rw [if_neg e] at hm
        exact g.inv.fresh_unowned _ _ hm hc
  · intro x
    rw [put_kindOf hn1 hk, make_kindOf]
  · exact target_low g.inv hn ht hs
  · rw [put_node, if_neg (Ne.symm hne), make_node, if_pos rfl]
  · intro x m hxn hm
    rw [put_node] at hm
    by_cases e : x = h
    · subst e; rw [if_pos rfl] at hm; cases hm; exact ⟨n, hn, hx⟩
    · rw [if_neg e, make_node, if_neg hxn] at hm
      refine ⟨m, hm, fun made hmade => ?_⟩
      rw [expect_skip, hmade]
      rw [ht]; intro e'; cases e'; exact e rfl
  · intro c; rw [plain_conf hp]; constructor
    · exact .inl
    · rintro (h1 | ⟨_, h1⟩)
      · exact h1
      · rw [h1] at hroot; rcases hroot with h2 | h2 <;> cases h2
  · intro c; rw [plain_pol hp]; constructor
    · exact .inl
    · rintro (h1 | ⟨_, h1⟩)
      · exact h1
      · rw [h1] at hroot; rcases hroot with h2 | h2 <;> cases h2
  · intro c; rw [plain_role hp]; constructor
    · exact .inl
    · rintro (h1 | ⟨_, h1⟩)
      · exact h1
      · rw [h1] at hroot; rcases hroot with h2 | h2 <;> cases h2

/-- A root is added to a configuration. -/
theorem Good.add {tr : Trace} {H : Heap} (g : Good tr H) {call : Call} {h c : Nat} {n n' m : Node}
    (ht : target call = some h) (hs : second call = some c) (hn : H.node h = some n) (hm : H.node c = some m)
    (hu : Unowned H c)
    (hk : kind n' = kind n) (hb' : blocks (some n') = blocks (some n))
    (hkids : (kidKinds n').Perm ((c, kind m) :: kidKinds n))
    (hx : ∀ made, expect tr made h = some n → expect (tr ++ [(call, .bool true)]) made h = some n')
    (hh : ∃ m, (Call.newConf m, Ret.handle (some h)) ∈ tr)
    (hconf : ∀ c, ConfAlive (tr ++ [(call, .bool true)]) c ↔ ConfAlive tr c)
    (hpol : ∀ c, PolAlive (tr ++ [(call, .bool true)]) c ↔ PolAlive tr c)
    (hrole : ∀ c, RoleAlive (tr ++ [(call, .bool true)]) c ↔ RoleAlive tr c) :
    Good (tr ++ [(call, .bool true)]) (H.put h n' 0) := by
  refine ⟨g.bad, g.inv.put hn hk (by omega) ?_ ?_, g.j.quiet nofun (fun x => put_kindOf hn hk) rfl ?_
    (fun _ _ _ => ⟨h, hh.choose, ht, hh.choose_spec⟩) ?_ hconf hpol hrole⟩
  · have hp : (kids n').Perm (c :: kids n) := by
      rw [kids_eq, kids_eq]; exact hkids.map (·.1)
    rw [hp.nodup_iff, List.nodup_cons]
    exact ⟨hu _ _ hn, g.inv.nodup _ _ hn⟩
  · intro x hxm
    rcases List.mem_cons.1 (hkids.mem_iff.1 hxm) with e | e
    · subst e; exact .inr ⟨by simp [Heap.kindOf, hm], hu⟩
    · exact .inl e
  · intro x hxm
    rw [ht, hs] at hxm
    rcases hxm with e | e
    · cases e; exact g.inv.low _ _ hn
    · cases e; exact g.inv.low _ _ hm
  · intro x m hm
    rw [put_node] at hm
    by_cases e : x = h
    · subst e; rw [if_pos rfl] at hm; cases hm; exact ⟨n, hn, hx⟩
    · rw [if_neg e] at hm
      refine ⟨m, hm, fun made hmade => ?_⟩
      rw [expect_skip, hmade]
      rw [ht]; intro e'; cases e'; exact e rfl

theorem unowned_conf {H : Heap} (I : Inv H) {c : Nat} (hk : H.kindOf c = some .conf) : Unowned H c := by
  intro a n hn hc
  obtain ⟨m, hm, hr⟩ := I.kid hn hc
  obtain ⟨m', hm', e⟩ := kindOf_some hk
  rw [hm] at hm'; cases hm'
  rw [e] at hr
  cases n <;> simp [kind, Kind.rank] at hr

/-- The configurations of the heap hold what was added to them. -/
theorem J.conf_lists {tr : Trace} {H : Heap} (j : J tr H) {c : Nat} {roles pols : List Nat} {u : Option String}
    (hn : H.node c = some (.conf roles pols u)) : roles = rolesOf tr c ∧ pols = polsOf tr c ∧ u = unpaired tr c := by
  obtain ⟨made, h1, h2⟩ := j.born _ _ hn
  cases made <;> simp [expect] at h2
  exact ⟨h2.1.symm, h2.2.1.symm, h2.2.2.symm⟩

theorem pol_kid {tr : Trace} {H : Heap} (I : Inv H) (j : J tr H) {p a : Nat} {n : Node} (hk : H.kindOf p = some .pol)
    (hn : H.node a = some n) (hc : p ∈ kids n) : (Call.addPol a p, Ret.bool true) ∈ tr := by
  obtain ⟨k, hkk⟩ := mem_kids.1 hc
  have ht := I.typed _ _ hn _ hkk
  rw [hk] at ht; cases ht
  cases n <;> simp [kidKinds] at hkk
  exact mem_polsOf.1 ((j.conf_lists hn).2.1 ▸ hkk)

theorem role_kid {tr : Trace} {H : Heap} (I : Inv H) (j : J tr H) {p a : Nat} {n : Node} (hk : H.kindOf p = some .role)
    (hn : H.node a = some n) (hc : p ∈ kids n) : (Call.addRole a p, Ret.bool true) ∈ tr := by
  obtain ⟨k, hkk⟩ := mem_kids.1 hc
  have ht := I.typed _ _ hn _ hkk
  rw [hk] at ht; cases ht
  cases n <;> simp [kidKinds] at hkk
  exact mem_rolesOf.1 ((j.conf_lists hn).1 ▸ hkk)

theorem kid_pol {tr : Trace} {H : Heap} (j : J tr H) {p c : Nat} (hk : H.kindOf p = some .pol)
    (ha : (Call.addPol c p, Ret.bool true) ∈ tr) : ∃ n, H.node c = some n ∧ p ∈ kids n := by
  obtain ⟨c', m, h1, h2⟩ := j.hosts _ ha p rfl
  cases h1
  have hca : H.kindOf c = some .conf := (j.conf c).2 ⟨⟨m, h2⟩, ((j.pol p).1 hk).2.2 c ha⟩
  obtain ⟨n, hn, e⟩ := kindOf_some hca
  cases n <;> try cases e
  exact ⟨_, hn, by simp only [kids, List.mem_append]; exact .inr ((j.conf_lists hn).2.1 ▸ mem_polsOf.2 ha)⟩

theorem kid_role {tr : Trace} {H : Heap} (j : J tr H) {p c : Nat} (hk : H.kindOf p = some .role)
    (ha : (Call.addRole c p, Ret.bool true) ∈ tr) : ∃ n, H.node c = some n ∧ p ∈ kids n := by
  obtain ⟨c', m, h1, h2⟩ := j.hosts _ ha p rfl
  cases h1
  have hca : H.kindOf c = some .conf := (j.conf c).2 ⟨⟨m, h2⟩, ((j.role p).1 hk).2.2 c ha⟩
  obtain ⟨n, hn, e⟩ := kindOf_some hca
  cases n <;> try cases e
  exact ⟨_, hn, by simp only [kids, List.mem_append]; exact .inl ((j.conf_lists hn).1 ▸ mem_rolesOf.2 ha)⟩

theorem unowned_pol {tr : Trace} {H : Heap} (I : Inv H) (j : J tr H) {p : Nat} (hk : H.kindOf p = some .pol) :
    Unowned H p ↔ ∀ c, (Call.addPol c p, Ret.bool true) ∉ tr := by
  constructor
  · intro hu c ha
    obtain ⟨n, hn, hc⟩ := kid_pol j hk ha
    exact hu _ _ hn hc
  · intro h a n hn hc
    exact h a (pol_kid I j hk hn hc)

theorem unowned_role {tr : Trace} {H : Heap} (I : Inv H) (j : J tr H) {p : Nat} (hk : H.kindOf p = some .role) :
    Unowned H p ↔ ∀ c, (Call.addRole c p, Ret.bool true) ∉ tr := by
  constructor
  · intro hu c ha
    obtain ⟨n, hn, hc⟩ := kid_role j hk ha
    exact hu _ _ hn hc
  · intro h a n hn hc
    exact h a (role_kid I j hk hn hc)

/-- Only the root of a tree has its height. -/
theorem desc_top {H : Heap} (I : Inv H) {k h x : Nat} {n m : Node} (hn : H.node h = some n) (hm : H.node x = some m)
    (hr : (kind n).rank ≤ (kind m).rank) (hx : x ∈ desc H k h) : x = h := by
  rcases desc_kid I hn hm hx with e | e | e
  · exact e
  · obtain ⟨q, hq, hrq⟩ := I.kid hn e
    rw [hm] at hq; cases hq; omega
  · omega

theorem desc_mem {H : Heap} (I : Inv H) {k h x : Nat} {n m : Node} (hn : H.node h = some n) (hm : H.node x = some m)
    (hk : (kind n).rank < k) (hr : (kind m).rank + 1 = (kind n).rank) : x ∈ desc H k h ↔ x ∈ kids n := by
  constructor
  · intro hx
    rcases desc_kid I hn hm hx with e | e | e
    · subst e; rw [hn] at hm; cases hm; omega
    · exact e
    · omega
  · intro hx
    refine desc_down I hn hk hn hx ?_
    obtain ⟨j, rfl⟩ : ∃ j, k = j + 1 := ⟨k - 1, by omega⟩
    exact desc_self hn

end Verif.Iam.Builder
