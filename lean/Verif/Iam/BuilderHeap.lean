import Verif.Iam.BuilderSpec

/-!
# The configuration builder — the heap stays a forest
-/

namespace Verif.Iam.Builder

inductive Kind | cond | stmt | pol | role | conf
  deriving DecidableEq

def kind : Node → Kind
  | .cond .. => .cond
  | .stmt .. => .stmt
  | .pol .. => .pol
  | .role .. => .role
  | .conf .. => .conf

def Kind.rank : Kind → Nat
  | .cond => 0
  | .stmt => 1
  | .pol => 2
  | .role => 2
  | .conf => 3

def Heap.kindOf (H : Heap) (h : Nat) : Option Kind := (H.node h).map kind

/-- The nodes in the lists of a node, with the kind they are taken for. -/
def kidKinds : Node → List (Nat × Kind)
  | .stmt _ _ conds => conds.map (·, .cond)
  | .pol _ stmts => stmts.map (·, .stmt)
  | .conf roles pols _ => roles.map (·, .role) ++ pols.map (·, .pol)
  | _ => []

theorem kids_eq (n : Node) : kids n = (kidKinds n).map (·.1) := by
  cases n <;> simp [kids, kidKinds, Function.comp_def]

theorem mem_kids {n : Node} {c : Nat} : c ∈ kids n ↔ ∃ k, (c, k) ∈ kidKinds n := by
  rw [kids_eq]; simp

theorem kid_rank {n : Node} {x : Nat × Kind} (h : x ∈ kidKinds n) : x.2.rank + 1 = (kind n).rank := by
  cases n <;> simp only [kidKinds, List.mem_append, List.mem_map, List.not_mem_nil] at h
  · obtain ⟨_, _, rfl⟩ := h; rfl
  · obtain ⟨_, _, rfl⟩ := h; rfl
  · rcases h with ⟨_, _, rfl⟩ | ⟨_, _, rfl⟩ <;> rfl

/-- The blocks a node has. -/
def blocks : Option Node → Int
  | none => 0
  | some (.cond _ key values) => values.length + one key.isSome + 1
  | some (.stmt _ actions _) => actions.length + 1
  | some (.pol _ _) => 2
  | some (.role _ policies) => policies.length + 1 + 1
  | some (.conf _ _ unpaired) => one unpaired.isSome + 1

def total (f : Nat → Int) : Nat → Int
  | 0 => 0
  | n + 1 => total f n + f n

theorem total_congr {f g : Nat → Int} {n : Nat} (h : ∀ x, x < n → f x = g x) : total f n = total g n := by
  induction n with
  | zero => rfl
  | succ n ih => rw [total, total, ih (fun x hx => h x (by omega)), h n (by omega)]

theorem total_update {f g : Nat → Int} {n a : Nat} (ha : a < n) (h : ∀ x, x ≠ a → f x = g x) :
    total f n = total g n - g a + f a := by
  induction n with
  | zero => omega
  | succ n ih =>
    by_cases e : a = n
    · subst e
      rw [total, total, total_congr (fun x hx => h x (by omega))]
      omega
    · rw [total, total, ih (by omega), h n (by omega)]
      omega

/-- All blocks in use belong to a node. -/
def Bal (H : Heap) : Prop := H.live = total (fun h => blocks (H.node h)) H.next

def Unowned (H : Heap) (c : Nat) : Prop := ∀ a n, H.node a = some n → c ∉ kids n

structure Inv (H : Heap) : Prop where
  low : ∀ h n, H.node h = some n → h < H.next
  typed : ∀ a n, H.node a = some n → ∀ x ∈ kidKinds n, H.kindOf x.1 = some x.2
  nodup : ∀ a n, H.node a = some n → (kids n).Nodup
  uniq : ∀ a n b m, H.node a = some n → H.node b = some m → ∀ c, c ∈ kids n → c ∈ kids m → a = b
  bal : Bal H

theorem Inv.init : Inv Heap.init := ⟨nofun, nofun, nofun, nofun, rfl⟩

theorem Inv.kid {H : Heap} (I : Inv H) {a c : Nat} {n : Node} (h : H.node a = some n) (hc : c ∈ kids n) :
    ∃ m, H.node c = some m ∧ (kind m).rank + 1 = (kind n).rank := by
  obtain ⟨k, hk⟩ := mem_kids.1 hc
  have ht := I.typed a n h _ hk
  have hr := kid_rank hk
  simp only [Heap.kindOf, Option.map_eq_some_iff] at ht
  obtain ⟨m, hm, he⟩ := ht
  exact ⟨m, hm, by rw [he]; exact hr⟩

theorem Inv.fresh {H : Heap} (I : Inv H) : H.node H.next = none := by
  cases h : H.node H.next with
  | none => rfl
  | some n => exact absurd (I.low _ _ h) (by omega)

theorem Inv.fresh_unowned {H : Heap} (I : Inv H) : Unowned H H.next := by
  intro a n h hc
  obtain ⟨m, hm, _⟩ := I.kid h hc
  rw [I.fresh] at hm
  cases hm

theorem owned_false {H : Heap} (I : Inv H) {c : Nat} : H.owned c = false ↔ Unowned H c := by
  unfold Heap.owned Unowned
  rw [List.any_eq_false]
  constructor
  · intro h a n hn hc
    have := h a (List.mem_range.2 (I.low a n hn))
    rw [hn] at this
    simp [hc] at this
  · intro h a _
    cases hn : H.node a with
    | none => simp
    | some n => simpa using h a n hn

theorem put_node (H : Heap) (h x : Nat) (n : Node) (k : Int) :
    (H.put h n k).node x = if x = h then some n else H.node x := rfl

theorem put_kindOf {H : Heap} {h x : Nat} {n n' : Node} {k : Int} (hn : H.node h = some n) (hk : kind n' = kind n) :
    (H.put h n' k).kindOf x = H.kindOf x := by
  unfold Heap.kindOf
  rw [put_node]
  by_cases e : x = h
  · subst e; rw [if_pos rfl, hn]; simp [hk]
  · rw [if_neg e]

/-- A change of one node. -/
theorem Inv.put {H : Heap} (I : Inv H) {h : Nat} {n n' : Node} {k : Int} (hn : H.node h = some n)
    (hk : kind n' = kind n) (hb : blocks (some n') = blocks (some n) + k) (hd : (kids n').Nodup)
    (hx : ∀ x ∈ kidKinds n', x ∈ kidKinds n ∨ (H.kindOf x.1 = some x.2 ∧ Unowned H x.1)) :
    Inv (H.put h n' k) := by
  have hx' : ∀ c ∈ kids n', c ∈ kids n ∨ Unowned H c := by
    intro c hc
    obtain ⟨kk, hkk⟩ := mem_kids.1 hc
    rcases hx _ hkk with h1 | h1
    · exact .inl (mem_kids.2 ⟨kk, h1⟩)
    · exact .inr h1.2
  refine ⟨?_, ?_, ?_, ?_, ?_⟩
  · intro x m hm
    rw [put_node] at hm
    by_cases e : x = h
    · subst e; exact I.low _ _ hn
    · rw [if_neg e] at hm; exact I.low _ _ hm
  · intro a m hm x hxm
    rw [put_kindOf hn hk]
    rw [put_node] at hm
    by_cases e : a = h
    · rw [if_pos e] at hm; cases hm
      rcases hx x hxm with h1 | h1
      · exact I.typed _ _ hn _ h1
      · exact h1.1
    · rw [if_neg e] at hm; exact I.typed _ _ hm _ hxm
  · intro a m hm
    rw [put_node] at hm
    by_cases e : a = h
    · rw [if_pos e] at hm; cases hm; exact hd
    · rw [if_neg e] at hm; exact I.nodup _ _ hm
  · intro a m b m' hm hm' c hc hc'
    rw [put_node] at hm hm'
    by_cases e : a = h <;> by_cases e' : b = h
    · rw [e, e']
    · rw [if_pos e] at hm; cases hm
      rw [if_neg e'] at hm'
      rcases hx' c hc with h1 | h1
      · rw [e]; exact I.uniq _ _ _ _ hn hm' c h1 hc'
      · exact absurd hc' (h1 _ _ hm')
    · rw [if_neg e] at hm
      rw [if_pos e'] at hm'; cases hm'
      rcases hx' c hc' with h1 | h1
      · rw [e']; exact I.uniq _ _ _ _ hm hn c hc h1
      · exact absurd hc (h1 _ _ hm)
    · rw [if_neg e] at hm; rw [if_neg e'] at hm'
      exact I.uniq _ _ _ _ hm hm' c hc hc'
  · show H.live + k = total (fun x => blocks ((H.put h n' k).node x)) H.next
    rw [total_update (g := fun x => blocks (H.node x)) (I.low _ _ hn)
      (fun x hx => by simp only [put_node, if_neg hx]), ← I.bal]
    simp only [put_node, if_pos, hn, hb]
    omega

theorem make_node (H : Heap) (n : Node) (k : Int) (x : Nat) :
    (H.make n k).1.node x = if x = H.next then some n else H.node x := rfl

/-- A new node. -/
theorem Inv.make {H : Heap} (I : Inv H) {n : Node} {k : Int} (hk : kidKinds n = []) (hb : blocks (some n) = k) :
    Inv (H.make n k).1 := by
  have hkids : kids n = [] := by rw [kids_eq, hk]; rfl
  refine ⟨?_, ?_, ?_, ?_, ?_⟩
  · intro x m hm
    rw [make_node] at hm
    show x < H.next + 1
    by_cases e : x = H.next
    · omega
    · rw [if_neg e] at hm; have := I.low _ _ hm; omega
  · intro a m hm x hx
    rw [make_node] at hm
    by_cases e : a = H.next
    · rw [if_pos e] at hm; cases hm; rw [hk] at hx; cases hx
    · rw [if_neg e] at hm
      have ht := I.typed _ _ hm _ hx
      have hne : x.1 ≠ H.next := by
        intro e'
        rw [e'] at ht
        simp [Heap.kindOf, I.fresh] at ht
      unfold Heap.kindOf at ht ⊢
      rw [make_node, if_neg hne]
      exact ht
  · intro a m hm
    rw [make_node] at hm
    by_cases e : a = H.next
    · rw [if_pos e] at hm; cases hm; rw [hkids]; exact .nil
    · rw [if_neg e] at hm; exact I.nodup _ _ hm
  · intro a m b m' hm hm' c hc hc'
    rw [make_node] at hm hm'
    by_cases e : a = H.next
    · rw [if_pos e] at hm; cases hm; rw [hkids] at hc; cases hc
    · by_cases e' : b = H.next
      · rw [if_pos e'] at hm'; cases hm'; rw [hkids] at hc'; cases hc'
      · rw [if_neg e] at hm; rw [if_neg e'] at hm'; exact I.uniq _ _ _ _ hm hm' c hc hc'
  · show H.live + k = total (fun x => blocks ((H.make n k).1.node x)) (H.next + 1)
    rw [total, total_congr (g := fun x => blocks (H.node x))
      (fun x hx => by simp only [make_node, if_neg (show x ≠ H.next by omega)]), ← I.bal]
    simp only [make_node, if_pos, hb]

/-! ### Freeing -/

/-- From one heap to the other exactly the nodes of the list went away, with their blocks. -/
structure Gone (H H' : Heap) (L : List Nat) : Prop where
  node : ∀ x, H'.node x = if x ∈ L then none else H.node x
  next : H'.next = H.next
  bad : H'.bad = H.bad
  bal : Bal H → Bal H'

theorem Gone.refl (H : Heap) : Gone H H [] := ⟨fun _ => by simp, rfl, rfl, id⟩

theorem Gone.trans {H H' H'' : Heap} {L M : List Nat} (a : Gone H H' L) (b : Gone H' H'' M) : Gone H H'' (L ++ M) := by
  refine ⟨fun x => ?_, b.next.trans a.next, b.bad.trans a.bad, fun h => b.bal (a.bal h)⟩
  rw [b.node, a.node]
  by_cases h1 : x ∈ L <;> by_cases h2 : x ∈ M <;> simp [h1, h2]

theorem Gone.del {H : Heap} {h : Nat} {n : Node} {k : Int} (hn : H.node h = some n) (hl : h < H.next)
    (hb : blocks (some n) = k) : Gone H (H.del h k) [h] := by
  refine ⟨fun x => by simp [Heap.del], rfl, rfl, fun B => ?_⟩
  show H.live - k = total (fun x => blocks ((H.del h k).node x)) H.next
  rw [total_update (g := fun x => blocks (H.node x)) hl (fun x hx => by simp only [Heap.del, if_neg hx]), ← B]
  have h0 : blocks none = 0 := rfl
  simp only [Heap.del, if_pos, hn, hb, h0]
  omega

/-- A node and everything below it, in the order in which it is freed. -/
def desc (H : Heap) : Nat → Nat → List Nat
  | 0, _ => []
  | k + 1, h =>
    match H.node h with
    | some n => (kids n).flatMap (desc H k) ++ [h]
    | none => []

theorem desc_some {H : Heap} {k h : Nat} {n : Node} (hn : H.node h = some n) :
    desc H (k + 1) h = (kids n).flatMap (desc H k) ++ [h] := by
  rw [desc, hn]

theorem desc_rank {H : Heap} (I : Inv H) {k h x : Nat} {n : Node} (hn : H.node h = some n) (hx : x ∈ desc H k h) :
    ∃ m, H.node x = some m ∧ (kind m).rank ≤ (kind n).rank := by
  induction k generalizing h n with
  | zero => cases hx
  | succ k ih =>
    rw [desc_some hn, List.mem_append, List.mem_flatMap] at hx
    rcases hx with ⟨c, hc, hx⟩ | hx
    · obtain ⟨m, hm, hr⟩ := I.kid hn hc
      obtain ⟨m', hm', hr'⟩ := ih hm hx
      exact ⟨m', hm', by omega⟩
    · rw [List.mem_singleton] at hx; subst hx; exact ⟨n, hn, Nat.le_refl _⟩

/-- Nodes at the same height have nothing in common. -/
theorem desc_disjoint {H : Heap} (I : Inv H) {k a b x : Nat} {n m : Node} (ha : H.node a = some n)
    (hb : H.node b = some m) (hr : (kind n).rank = (kind m).rank) (hxa : x ∈ desc H k a) (hxb : x ∈ desc H k b) :
    a = b := by
  induction k generalizing a b n m with
  | zero => cases hxa
  | succ k ih =>
    rw [desc_some ha, List.mem_append, List.mem_flatMap] at hxa
    rw [desc_some hb, List.mem_append, List.mem_flatMap] at hxb
    rcases hxa with ⟨c, hc, hxa⟩ | hxa <;> rcases hxb with ⟨d, hd, hxb⟩ | hxb
    · obtain ⟨nc, hnc, hrc⟩ := I.kid ha hc
      obtain ⟨nd, hnd, hrd⟩ := I.kid hb hd
      have := ih hnc hnd (by omega) hxa hxb
      subst this
      exact I.uniq _ _ _ _ ha hb _ hc hd
    · rw [List.mem_singleton] at hxb; subst hxb
      obtain ⟨nc, hnc, hrc⟩ := I.kid ha hc
      obtain ⟨q, hq, hrq⟩ := desc_rank I hnc hxa
      rw [hb] at hq; cases hq; omega
    · rw [List.mem_singleton] at hxa; subst hxa
      obtain ⟨nd, hnd, hrd⟩ := I.kid hb hd
      obtain ⟨q, hq, hrq⟩ := desc_rank I hnd hxb
      rw [ha] at hq; cases hq; omega
    · rw [List.mem_singleton] at hxa hxb; rw [← hxa, ← hxb]

/-- What is freed below a node goes away as a whole. -/
theorem desc_up {H : Heap} (I : Inv H) {k h a c : Nat} {n m : Node} (hn : H.node h = some n) (ha : H.node a = some m)
    (hc : c ∈ kids m) (hx : c ∈ desc H k h) : c = h ∨ a ∈ desc H k h := by
  induction k generalizing h n with
  | zero => cases hx
  | succ k ih =>
    rw [desc_some hn, List.mem_append, List.mem_flatMap] at hx
    rcases hx with ⟨d, hd, hx⟩ | hx
    · obtain ⟨nd, hnd, _⟩ := I.kid hn hd
      right
      rw [desc_some hn, List.mem_append, List.mem_flatMap]
      rcases ih hnd hx with e | e
      · subst e
        have := I.uniq _ _ _ _ ha hn _ hc hd
        right; rw [this]; exact List.mem_singleton.2 rfl
      · exact .inl ⟨d, hd, e⟩
    · exact .inl (List.mem_singleton.1 hx)

theorem desc_down {H : Heap} (I : Inv H) {k h a c : Nat} {n m : Node} (hn : H.node h = some n)
    (hk : (kind n).rank < k) (ha : H.node a = some m) (hc : c ∈ kids m) (hx : a ∈ desc H k h) : c ∈ desc H k h := by
  induction k generalizing h n with
  | zero => cases hx
  | succ k ih =>
    rw [desc_some hn, List.mem_append, List.mem_flatMap] at hx ⊢
    rcases hx with ⟨d, hd, hx⟩ | hx
    · obtain ⟨nd, hnd, hr⟩ := I.kid hn hd
      exact .inl ⟨d, hd, ih hnd (by omega) hx⟩
    · rw [List.mem_singleton] at hx; subst hx
      rw [hn] at ha; cases ha
      obtain ⟨nc, hnc, hr⟩ := I.kid hn hc
      refine .inl ⟨c, hc, ?_⟩
      obtain ⟨j, rfl⟩ : ∃ j, k = j + 1 := ⟨k - 1, by omega⟩
      rw [desc_some hnc]
      simp

theorem desc_self {H : Heap} {k h : Nat} {n : Node} (hn : H.node h = some n) : h ∈ desc H (k + 1) h := by
  rw [desc_some hn]; simp

/-- Freeing a list of nodes at the same height, on a heap where some others are gone. -/
theorem Gone.fold {H : Heap} (I : Inv H) {f : Heap → Nat → Heap} {k r : Nat} {cs : List Nat} (hd : cs.Nodup)
    (hr : ∀ c ∈ cs, ∃ m, H.node c = some m ∧ (kind m).rank = r)
    (hf : ∀ c ∈ cs, ∀ H1, (∀ h ∈ desc H k c, H1.node h = H.node h) → H1.next = H.next →
      Gone H1 (f H1 c) (desc H k c))
    {H1 : Heap} (h1 : ∀ h ∈ cs.flatMap (desc H k), H1.node h = H.node h) (hn : H1.next = H.next) :
    Gone H1 (cs.foldl f H1) (cs.flatMap (desc H k)) := by
  induction cs generalizing H1 with
  | nil => exact Gone.refl _
  | cons c cs ih =>
    rw [List.foldl_cons, List.flatMap_cons]
    have g := hf c (by simp) H1 (fun h hh => h1 h (by simp [hh])) hn
    refine g.trans (ih (List.nodup_cons.1 hd).2 (fun d hd => hr d (by simp [hd]))
      (fun d hd => hf d (by simp [hd])) ?_ (g.next.trans hn))
    intro h hh
    rw [g.node, if_neg, h1 h (by rw [List.flatMap_cons, List.mem_append]; exact .inr hh)]
    intro hc
    obtain ⟨d, hdm, hx⟩ := List.mem_flatMap.1 hh
    obtain ⟨m, hm, e⟩ := hr c (by simp)
    obtain ⟨m', hm', e'⟩ := hr d (by simp [hdm])
    have := desc_disjoint I hm hm' (by omega) hc hx
    subst this
    exact (List.nodup_cons.1 hd).1 hdm

/-- The children of a node are freed, and then the node. -/
theorem Gone.parent {H : Heap} (I : Inv H) {h k : Nat} {n : Node} (hn : H.node h = some n) {H1 H2 : Heap}
    (h1 : ∀ x ∈ desc H (k + 1) h, H1.node x = H.node x) (hx : H1.next = H.next)
    (g : Gone H1 H2 ((kids n).flatMap (desc H k))) {b : Int} (hb : blocks (some n) = b) :
    Gone H1 (H2.del h b) (desc H (k + 1) h) := by
  rw [desc_some hn]
  refine g.trans (Gone.del (n := n) ?_ ?_ hb)
  · rw [g.node, if_neg, h1 h (desc_self hn), hn]
    intro hc
    obtain ⟨c, hc, hx⟩ := List.mem_flatMap.1 hc
    obtain ⟨m, hm, hr⟩ := I.kid hn hc
    obtain ⟨q, hq, hrq⟩ := desc_rank I hm hx
    rw [hn] at hq; cases hq; omega
  · rw [g.next, hx]; exact I.low _ _ hn

theorem kindOf_some {H : Heap} {h : Nat} {k : Kind} (hk : H.kindOf h = some k) : ∃ n, H.node h = some n ∧ kind n = k := by
  simpa [Heap.kindOf] using hk

theorem freeCond_gone {H : Heap} (I : Inv H) {c : Nat} (hk : H.kindOf c = some .cond) {H1 : Heap}
    (h1 : ∀ x ∈ desc H 1 c, H1.node x = H.node x) (hx : H1.next = H.next) : Gone H1 (freeCond H1 c) (desc H 1 c) := by
  obtain ⟨n, hn, e⟩ := kindOf_some hk
  cases n <;> try cases e
  have hn1 := (h1 c (desc_self hn)).trans hn
  unfold freeCond
  rw [hn1]
  exact Gone.parent I hn h1 hx (Gone.refl H1) rfl

theorem freeStmt_gone {H : Heap} (I : Inv H) {s : Nat} (hk : H.kindOf s = some .stmt) {H1 : Heap}
    (h1 : ∀ x ∈ desc H 2 s, H1.node x = H.node x) (hx : H1.next = H.next) : Gone H1 (freeStmt H1 s) (desc H 2 s) := by
  obtain ⟨n, hn, e⟩ := kindOf_some hk
  cases n <;> try cases e
  rename_i effect actions conds
  have hn1 := (h1 s (desc_self hn)).trans hn
  have ht : ∀ c ∈ conds, H.kindOf c = some .cond := fun c hc => I.typed _ _ hn (c, .cond) (by simp [kidKinds, hc])
  unfold freeStmt
  rw [hn1]
  refine Gone.parent I hn h1 hx (Gone.fold I (r := 0) (I.nodup _ _ hn) ?_ ?_ ?_ hx) rfl
  · intro c hc
    obtain ⟨m, hm, e⟩ := kindOf_some (ht c hc)
    exact ⟨m, hm, by rw [e]; rfl⟩
  · intro c hc H2 h2 hx2
    exact freeCond_gone I (ht c hc) h2 hx2
  · intro x hx
    exact h1 x (by rw [desc_some hn, List.mem_append]; exact .inl hx)

theorem freePol_gone {H : Heap} (I : Inv H) {p : Nat} (hk : H.kindOf p = some .pol) {H1 : Heap}
    (h1 : ∀ x ∈ desc H 3 p, H1.node x = H.node x) (hx : H1.next = H.next) : Gone H1 (freePol H1 p) (desc H 3 p) := by
  obtain ⟨n, hn, e⟩ := kindOf_some hk
  cases n <;> try cases e
  rename_i id stmts
  have hn1 := (h1 p (desc_self hn)).trans hn
  have ht : ∀ c ∈ stmts, H.kindOf c = some .stmt := fun c hc => I.typed _ _ hn (c, .stmt) (by simp [kidKinds, hc])
  unfold freePol
  rw [hn1]
  refine Gone.parent I hn h1 hx (Gone.fold I (r := 1) (I.nodup _ _ hn) ?_ ?_ ?_ hx) rfl
  · intro c hc
    obtain ⟨m, hm, e⟩ := kindOf_some (ht c hc)
    exact ⟨m, hm, by rw [e]; rfl⟩
  · intro c hc H2 h2 hx2
    exact freeStmt_gone I (ht c hc) h2 hx2
  · intro x hx
    exact h1 x (by rw [desc_some hn, List.mem_append]; exact .inl hx)

theorem freeRole_gone {H : Heap} (I : Inv H) {r : Nat} (hk : H.kindOf r = some .role) {H1 : Heap}
    (h1 : ∀ x ∈ desc H 3 r, H1.node x = H.node x) (hx : H1.next = H.next) : Gone H1 (freeRole H1 r) (desc H 3 r) := by
  obtain ⟨n, hn, e⟩ := kindOf_some hk
  cases n <;> try cases e
  have hn1 := (h1 r (desc_self hn)).trans hn
  unfold freeRole
  rw [hn1]
  exact Gone.parent I hn h1 hx (Gone.refl H1) rfl

theorem freeConf_gone {H : Heap} (I : Inv H) {c : Nat} (hk : H.kindOf c = some .conf) :
    Gone H (freeConf H c) (desc H 4 c) := by
  obtain ⟨n, hn, e⟩ := kindOf_some hk
  cases n <;> try cases e
  rename_i roles pols unpaired
  have htr : ∀ r ∈ roles, H.kindOf r = some .role := fun r hr => I.typed _ _ hn (r, .role) (by simp [kidKinds, hr])
  have htp : ∀ r ∈ pols, H.kindOf r = some .pol := fun r hr => I.typed _ _ hn (r, .pol) (by simp [kidKinds, hr])
  have hd : (roles ++ pols).Nodup := I.nodup _ _ hn
  have hrank : ∀ x ∈ roles ++ pols, ∃ m, H.node x = some m ∧ (kind m).rank = 2 := by
    intro x hx
    rcases List.mem_append.1 hx with h | h
    · obtain ⟨m, hm, e⟩ := kindOf_some (htr x h); exact ⟨m, hm, by rw [e]; rfl⟩
    · obtain ⟨m, hm, e⟩ := kindOf_some (htp x h); exact ⟨m, hm, by rw [e]; rfl⟩
  unfold freeConf
  rw [hn]
  refine Gone.parent I hn (fun _ _ => rfl) rfl ?_ rfl
  show Gone H _ ((roles ++ pols).flatMap (desc H 3))
  rw [List.flatMap_append]
  have g1 : Gone H (roles.foldl freeRole H) (roles.flatMap (desc H 3)) :=
    Gone.fold I (r := 2) (List.nodup_append.1 hd).1 (fun c hc => hrank c (by simp [hc]))
      (fun c hc H2 h2 hx2 => freeRole_gone I (htr c hc) h2 hx2) (fun _ _ => rfl) rfl
  refine g1.trans (Gone.fold I (r := 2) (List.nodup_append.1 hd).2.1 (fun c hc => hrank c (by simp [hc]))
      (fun c hc H2 h2 hx2 => freePol_gone I (htp c hc) h2 hx2) ?_ g1.next)
  intro x hx
  rw [g1.node, if_neg]
  intro hx'
  obtain ⟨p, hp, hxp⟩ := List.mem_flatMap.1 hx
  obtain ⟨r, hr, hxr⟩ := List.mem_flatMap.1 hx'
  obtain ⟨m, hm, e⟩ := hrank p (by simp [hp])
  obtain ⟨m', hm', e'⟩ := hrank r (by simp [hr])
  have := desc_disjoint I hm hm' (by omega) hxp hxr
  subst this
  exact (List.nodup_append.1 hd).2.2 _ hr _ hp rfl

/-- A tree which nobody owns goes away: what is left is a forest. -/
theorem Inv.gone {H H' : Heap} (I : Inv H) {k h : Nat} {n : Node} (hn : H.node h = some n) (hu : Unowned H h)
    (g : Gone H H' (desc H k h)) : Inv H' := by
  have old : ∀ x m, H'.node x = some m → H.node x = some m ∧ x ∉ desc H k h := by
    intro x m hm
    rw [g.node] at hm
    by_cases e : x ∈ desc H k h
    · rw [if_pos e] at hm; cases hm
    · rw [if_neg e] at hm; exact ⟨hm, e⟩
  refine ⟨?_, ?_, ?_, ?_, g.bal I.bal⟩
  · intro x m hm; rw [g.next]; exact I.low _ _ (old _ _ hm).1
  · intro a m hm x hx
    obtain ⟨ha, hna⟩ := old _ _ hm
    have ht := I.typed _ _ ha _ hx
    unfold Heap.kindOf at ht ⊢
    rw [g.node, if_neg]
    · exact ht
    · intro hc
      rcases desc_up I hn ha (mem_kids.2 ⟨x.2, hx⟩) hc with e | e
      · exact hu _ _ ha (e ▸ mem_kids.2 ⟨x.2, hx⟩)
      · exact hna e
  · intro a m hm; exact I.nodup _ _ (old _ _ hm).1
  · intro a m b m' hm hm'; exact I.uniq _ _ _ _ (old _ _ hm).1 (old _ _ hm').1

end Verif.Iam.Builder
