import Verif.Alloc.TinyAllocLemmas

/-!
# The invariant of the fixed memory allocator
-/

namespace Verif.TinyAlloc

/-- The blocks tile the memory from the first address to the top. -/
structure Tiled (c : Cfg) (top : Nat) (l : List Block) : Prop where
  apart : l.Pairwise Disj
  within : ∀ b ∈ l, c.first ≤ b.addr ∧ 0 < b.size ∧ b.fin ≤ top ∧ c.align ∣ b.addr ∧ c.align ∣ b.size
  cover : ∀ x, c.first ≤ x → x < top → Cov l x
  top : c.first ≤ top ∧ top ≤ c.limit ∧ c.align ∣ top

theorem Tiled.perm {c top l m} (h : Tiled c top l) (p : l.Perm m) : Tiled c top m where
  apart := (p.pairwise_iff (fun h => h.symm)).1 h.apart
  within b hb := h.within b (p.mem_iff.2 hb)
  cover x h1 h2 := by
    obtain ⟨b, hb, h3⟩ := h.cover x h1 h2
    exact ⟨b, p.mem_iff.1 hb, h3⟩
  top := h.top

theorem Tiled.push {c top l n} (h : Tiled c top l) (hn : 0 < n) (ha : c.align ∣ n) (hl : top + n ≤ c.limit) :
    Tiled c (top + n) (⟨top, n⟩ :: l) where
  apart := List.pairwise_cons.2 ⟨fun b hb => Or.inr (h.within b hb).2.2.1, h.apart⟩
  within b hb := by
    have := h.top
    rcases List.mem_cons.1 hb with rfl | hb
    · exact ⟨by simp only; omega, hn, Nat.le_refl _, by simp only; exact h.top.2.2, ha⟩
    · obtain ⟨h1, h2, h3, h4⟩ := h.within b hb
      exact ⟨h1, h2, by omega, h4⟩
  cover x h1 h2 := by
    by_cases hx : x < top
    · obtain ⟨b, hb, h3⟩ := h.cover x h1 hx
      exact ⟨b, by simp [hb], h3⟩
    · exact ⟨⟨top, n⟩, by simp, by simp only; omega, h2⟩
  top := by
    have := h.top
    exact ⟨by omega, hl, (Nat.dvd_add_iff_right h.top.2.2).1 ha⟩

theorem Tiled.split {c top l} {p : Block} {n m} (h : Tiled c top (p :: l)) (hp : p.size = n + m) (hn : 0 < n) (hm : 0 < m)
    (ha : c.align ∣ n) : Tiled c top (⟨p.addr + n, m⟩ :: ⟨p.addr, n⟩ :: l) where
  apart := by
    have h1 := List.pairwise_cons.1 h.apart
    refine List.pairwise_cons.2 ⟨fun b hb => ?_, List.pairwise_cons.2 ⟨fun b hb => ?_, h1.2⟩⟩
    · rcases List.mem_cons.1 hb with rfl | hb
      · exact Or.inr (Nat.le_refl _)
      · have := h1.1 b hb
        unfold Disj Block.fin at *
        simp only
        omega
    · have := h1.1 b hb
      unfold Disj Block.fin at *
      simp only
      omega
  within b hb := by
    have hw := h.within p (by simp)
    have hdm : c.align ∣ m := by
      rw [hp] at hw
      exact (Nat.dvd_add_iff_right ha).2 hw.2.2.2.2
    unfold Block.fin at *
    rcases List.mem_cons.1 hb with rfl | hb
    · exact ⟨by simp only; omega, hm, by simp only; omega, (Nat.dvd_add_iff_right hw.2.2.2.1).1 ha, hdm⟩
    · rcases List.mem_cons.1 hb with rfl | hb
      · exact ⟨hw.1, hn, by simp only; omega, hw.2.2.2.1, ha⟩
      · exact h.within b (by simp [hb])
  cover x h1 h2 := by
    obtain ⟨b, hb, h3, h4⟩ := h.cover x h1 h2
    rcases List.mem_cons.1 hb with rfl | hb
    · unfold Block.fin at h4
      by_cases hx : x < b.addr + n
      · exact ⟨⟨b.addr, n⟩, by simp, h3, hx⟩
      · exact ⟨⟨b.addr + n, m⟩, by simp, by simp only; omega, by simp only [Block.fin]; omega⟩
    · exact ⟨b, by simp [hb], h3, h4⟩
  top := h.top

theorem Tiled.resize {c top l} {p : Block} {n} (h : Tiled c top (p :: l)) (hp : top ≤ p.fin) (hn : 0 < n)
    (ha : c.align ∣ n) (hl : p.addr + n ≤ c.limit) : Tiled c (p.addr + n) (⟨p.addr, n⟩ :: l) := by
  have h1 := List.pairwise_cons.1 h.apart
  have hw := h.within p (by simp)
  have hb : ∀ b ∈ l, b.fin ≤ p.addr := fun b hb => by
    have h2 := h1.1 b hb
    have h3 := h.within b (by simp [hb])
    unfold Disj Block.fin at *
    omega
  refine ⟨List.pairwise_cons.2 ⟨fun b hb' => Or.inr (hb b hb'), h1.2⟩, fun b hb' => ?_, fun x hx1 hx2 => ?_, ?_⟩
  · rcases List.mem_cons.1 hb' with rfl | hb'
    · exact ⟨hw.1, hn, Nat.le_refl _, hw.2.2.2.1, ha⟩
    · have h3 := h.within b (by simp [hb'])
      have := hb b hb'
      exact ⟨h3.1, h3.2.1, by omega, h3.2.2.2⟩
  · by_cases hx : p.addr ≤ x
    · exact ⟨⟨p.addr, n⟩, by simp, hx, hx2⟩
    · obtain ⟨b, hb', h3, h4⟩ := h.cover x hx1 (by unfold Block.fin at *; omega)
      rcases List.mem_cons.1 hb' with rfl | hb'
      · exact absurd h3 hx
      · exact ⟨b, by simp [hb'], h3, h4⟩
  · exact ⟨by omega, hl, (Nat.dvd_add_iff_right hw.2.2.2.1).1 ha⟩

theorem closed_within (c : Cfg) (top : Nat) : Closed (fun b => c.first ≤ b.addr ∧ 0 < b.size ∧ b.fin ≤ top ∧
    c.align ∣ b.addr ∧ c.align ∣ b.size) := by
  intro x y hx hy _ _ he
  unfold Block.fin at *
  exact ⟨hx.1, by simp only; omega, by simp only; omega, hx.2.2.2.1, Nat.dvd_add hx.2.2.2.2 hy.2.2.2.2⟩

theorem closed_disj (b : Block) (hb : 0 < b.size) : Closed (fun x => Disj x b) := by
  intro x y hx hy _ _ he
  unfold Disj Block.fin at *
  simp only
  omega

theorem Tiled.compact {c top l m} (h : Tiled c top (l ++ m)) (hs : Sorted l) (hw : c.limit < W) :
    Tiled c top ((compact l).1 ++ m) ∧ Gapped (compact l).1 := by
  have hi : ∀ b ∈ l, _ := fun b hb => h.within b (by simp [hb])
  have ht := h.top
  have ⟨f1, f2, f3, f4, f5⟩ := compact_facts hs (fun b hb => (hi b hb).2.1)
    (fun b hb => by have := (hi b hb).2.2.1; omega)
  have ha := List.pairwise_append.1 h.apart
  refine ⟨⟨List.pairwise_append.2 ⟨?_, ha.2.1, fun a ha' b hb => ?_⟩, fun b hb => ?_, fun x h1 h2 => ?_, h.top⟩, f1⟩
  · exact f1.imp (fun h => Or.inl (Nat.le_of_lt h))
  · exact f5 _ (closed_disj b (h.within b (by simp [hb])).2.1) (fun y hy => ha.2.2 y hy b hb) a ha'
  · rcases List.mem_append.1 hb with hb | hb
    · exact f5 _ (closed_within c top) hi b hb
    · exact h.within b (by simp [hb])
  · obtain ⟨b, hb, h3⟩ := h.cover x h1 h2
    rcases List.mem_append.1 hb with hb | hb
    · obtain ⟨b', hb', h4⟩ := f2 x ⟨b, hb, h3⟩
      exact ⟨b', by simp [hb'], h4⟩
    · exact ⟨b, by simp [hb], h3⟩

/-- The invariant. -/
structure Inv (c : Cfg) (h : Heap) : Prop where
  tiled : Tiled c h.top (h.free ++ h.used)
  gapped : Gapped h.free
  count : h.free.length + h.used.length + h.fresh = c.blocks

theorem init_inv {c : Cfg} (hc : c.Ok) : Inv c (init c) where
  tiled :=
    { apart := List.Pairwise.nil
      within := fun b hb => by simp [init] at hb
      cover := fun x h1 h2 => by simp [init] at h2; omega
      top := ⟨Nat.le_refl _, hc.room, hc.first⟩ }
  gapped := List.Pairwise.nil
  count := by simp [init]

theorem insert_perm (b : Block) (l) : (insertBlock b l).Perm (b :: l) := by
  induction l with
  | nil => exact .refl _
  | cons p l ih =>
    unfold insertBlock
    split
    · exact .refl _
    · exact (ih.cons p).trans (.swap ..)

theorem giveBack_inv {c : Cfg} (hc : c.Ok) {h : Heap} {b : Block} (ht : Tiled c h.top (b :: (h.free ++ h.used)))
    (hg : Gapped h.free) (hn : h.free.length + h.used.length + h.fresh + 1 = c.blocks) :
    Inv c (giveBack h b) ∧ (giveBack h b).used = h.used ∧ (giveBack h b).top = h.top := by
  have ha := List.pairwise_cons.1 ht.apart
  have hs : Sorted (insertBlock b h.free) := sorted_insert hg.sorted (fun x hx => ha.1 x (by simp [hx]))
    (ht.within b (by simp)).2.1 (fun x hx => (ht.within x (by simp [hx])).2.1)
  have ht' : Tiled c h.top (insertBlock b h.free ++ h.used) := ht.perm ((insert_perm b h.free).symm.append_right h.used)
  have ⟨h1, h2⟩ := ht'.compact hs hc.limit
  have hw : ∀ x ∈ insertBlock b h.free, x.fin < W := fun x hx => by
    have := (ht'.within x (by simp [hx])).2.2.1
    have := ht.top
    have := hc.limit
    omega
  have h3 := (compact_facts hs (fun x hx => (ht'.within x (by simp [hx])).2.1) hw).2.2.1
  rw [length_insert] at h3
  refine ⟨⟨h1, h2, ?_⟩, rfl, rfl⟩
  unfold giveBack
  simp only
  omega

theorem unlink_some {p : Nat} {l : List Block} {b r} (h : unlink p l = some (b, r)) :
    ∃ l1 l2, l = l1 ++ b :: l2 ∧ r = l1 ++ l2 ∧ b.addr = p ∧ ∀ x ∈ l1, x.addr ≠ p := by
  induction l generalizing r with
  | nil => simp [unlink] at h
  | cons y l ih =>
    unfold unlink at h
    split at h
    · rename_i he
      cases h
      exact ⟨[], l, rfl, rfl, he.symm, by simp⟩
    · rename_i he
      cases hu : unlink p l with
      | none => simp [hu] at h
      | some q =>
        obtain ⟨x, s⟩ := q
        simp [hu] at h
        obtain ⟨rfl, rfl⟩ := h
        obtain ⟨l1, l2, e1, e2, e3, e4⟩ := ih hu
        exact ⟨y :: l1, l2, by simp [e1], by simp [e2], e3, fun z hz => by
          rcases List.mem_cons.1 hz with rfl | hz
          · exact Ne.symm he
          · exact e4 z hz⟩

theorem unlink_none {p : Nat} {l : List Block} : unlink p l = none ↔ ∀ b ∈ l, b.addr ≠ p := by
  induction l with
  | nil => simp [unlink]
  | cons y l ih =>
    unfold unlink
    split
    · rename_i he
      simp [he]
    · rename_i he
      cases hu : unlink p l with
      | none => simp; exact ⟨Ne.symm he, ih.1 hu⟩
      | some q =>
        simp
        intro _
        have := mt ih.2 (by simp [hu])
        simpa using this

theorem taFree_inv {c : Cfg} (hc : c.Ok) {h : Heap} (hi : Inv c h) (p : Nat) :
    Inv c (taFree h p).1 ∧
      (((taFree h p).2 = false ∧ (taFree h p).1 = h ∧ ∀ b ∈ h.used, b.addr ≠ p) ∨
       ((taFree h p).2 = true ∧ ∃ l1 b l2, h.used = l1 ++ b :: l2 ∧ (taFree h p).1.used = l1 ++ l2 ∧ b.addr = p ∧
          ∀ x ∈ l1 ++ l2, x.addr ≠ p)) := by
  unfold taFree
  split
  · rename_i hu
    exact ⟨hi, Or.inl ⟨rfl, rfl, unlink_none.1 hu⟩⟩
  · rename_i b used hu
    obtain ⟨l1, l2, e1, e2, e3, e4⟩ := unlink_some hu
    have hp : (h.free ++ h.used).Perm (b :: (h.free ++ used)) := by
      rw [e1, e2]
      exact (List.perm_middle.append_left h.free).trans List.perm_middle
    have ht := hi.tiled.perm hp
    have hg := giveBack_inv hc (h := { h with used := used }) ht hi.gapped (by
      have := hi.count
      rw [e1] at this
      rw [e2]
      simp at this ⊢
      omega)
    refine ⟨hg.1, Or.inr ⟨rfl, l1, b, l2, e1, by rw [hg.2.1, e2], e3, fun x hx => ?_⟩⟩
    have hd := (List.pairwise_cons.1 ht.apart).1 x (by rw [e2]; simp at hx ⊢; grind)
    have hb := ht.within b (by simp)
    have hx' := ht.within x (by rw [e2]; simp at hx ⊢; grind)
    unfold Disj Block.fin at *
    omega

theorem pick_some {c : Cfg} {top num : Nat} {l : List Block} {p r} (h : pick c top num l = some (p, r)) :
    l.Perm (p :: r) ∧ r.Sublist l ∧ (isTop c top num p = true ∨ num ≤ p.size) := by
  induction l generalizing r with
  | nil => simp [pick] at h
  | cons y l ih =>
    unfold pick at h
    split at h
    · rename_i he
      cases h
      exact ⟨.refl _, List.sublist_cons_self .., by simpa using he⟩
    · cases hu : pick c top num l with
      | none => simp [hu] at h
      | some q =>
        obtain ⟨x, s⟩ := q
        simp [hu] at h
        obtain ⟨rfl, rfl⟩ := h
        have ⟨i1, i2, i3⟩ := ih hu
        exact ⟨(i1.cons y).trans (.swap ..), i2.cons_cons y, i3⟩

theorem pick_none {c : Cfg} {top num : Nat} {l : List Block} (h : pick c top num l = none) :
    ∀ p ∈ l, isTop c top num p = false ∧ p.size < num := by
  induction l with
  | nil => simp
  | cons y l ih =>
    unfold pick at h
    split at h
    · cases h
    · rename_i he
      cases hu : pick c top num l with
      | none =>
        intro p hp
        rcases List.mem_cons.1 hp with rfl | hp
        · simpa using he
        · exact ih hu p hp
      | some q => simp [hu] at h

theorem taAlloc_inv {c : Cfg} (hc : c.Ok) {h : Heap} (hi : Inv c h) {n : Nat} (hn : Fits c n) {h' p}
    (ha : taAlloc c h n = some (h', p)) :
    Inv c h' ∧ ∃ s, n ≤ s ∧ h'.used = ⟨p, s⟩ :: h.used := by
  have hr := roundUp_facts hc hn
  have hlim := hc.limit
  unfold taAlloc at ha
  simp only at ha
  generalize roundUp c n = num at *
  cases hpk : pick c h.top num h.free with
  | none =>
    rw [hpk] at ha
    simp only [takeTop] at ha
    split at ha
    · rename_i h0
      have ht := hi.tiled.top
      cases ha
      rw [add_small (by omega)] at h0 ⊢
      refine ⟨⟨?_, hi.gapped, ?_⟩, num, hr.1, rfl⟩
      · exact (hi.tiled.push hr.2.2.2.1 hr.2.2.1 h0.2).perm List.perm_middle.symm
      · have := hi.count
        simp only [List.length_cons]
        omega
    · cases ha
  | some q =>
    obtain ⟨b, free⟩ := q
    rw [hpk] at ha
    obtain ⟨p1, p2, p3⟩ := pick_some hpk
    have ht : Tiled c h.top (b :: (free ++ h.used)) := hi.tiled.perm (p1.append_right h.used)
    have hw := ht.within b (by simp)
    have hlen := p1.length_eq
    have hcnt := hi.count
    have htop := ht.top
    have hg : Gapped free := List.Pairwise.sublist p2 hi.gapped
    simp only [List.length_cons] at hlen
    unfold takeFree at ha
    simp only at ha
    split at ha
    · rename_i hT
      unfold isTop at hT
      simp only [Bool.and_eq_true, decide_eq_true_eq] at hT
      rw [add_small (show b.addr + b.size < W by unfold Block.fin at hw; omega),
        add_small (show b.addr + num < W by unfold Block.fin at hw; omega)] at hT
      cases ha
      rw [add_small (show b.addr + num < W by unfold Block.fin at hw; omega)]
      refine ⟨⟨?_, hg, ?_⟩, num, hr.1, rfl⟩
      · exact (ht.resize hT.1 hr.2.2.2.1 hr.2.2.1 hT.2).perm List.perm_middle.symm
      · simp only [List.length_cons]; omega
    · rename_i hT
      have hs : num ≤ b.size := by
        rcases p3 with h | h
        · exact absurd h hT
        · exact h
      have hbw : b.size < W := by unfold Block.fin at hw; omega
      split at ha
      · rename_i h0
        rw [sub_small hs hbw, add_small (show b.addr + num < W by unfold Block.fin at hw; omega)] at ha
        rw [sub_small hs hbw] at h0
        have hth := hc.thresh
        cases ha
        have ht2 := ht.split (n := num) (m := b.size - num) (by omega) hr.2.2.2.1 (by omega) hr.2.2.1
        have ht3 : Tiled c h.top (⟨b.addr + num, b.size - num⟩ :: (free ++ ⟨b.addr, num⟩ :: h.used)) :=
          ht2.perm (.cons _ List.perm_middle.symm)
        have hgb := giveBack_inv hc
          (h := { h with free := free, used := ⟨b.addr, num⟩ :: h.used, fresh := h.fresh - 1 }) ht3 hg
          (by simp only [List.length_cons]; omega)
        exact ⟨hgb.1, num, hr.1, hgb.2.1⟩
      · cases ha
        refine ⟨⟨ht.perm List.perm_middle.symm, hg, ?_⟩, b.size, by omega, rfl⟩
        simp only [List.length_cons]
        omega

/-- The memory is used before it runs out: a failing request for which a descriptor is left does not fit anywhere. -/
theorem taAlloc_none {c : Cfg} (hc : c.Ok) {h : Heap} (hi : Inv c h) {n : Nat} (hn : Fits c n)
    (ha : taAlloc c h n = none) (a : Nat) (h1 : c.first ≤ a)
    (h2 : a + roundUp c n ≤ c.limit) (h3 : h.fresh = 0 → a < h.top) :
    ∃ b ∈ h.used, b.addr < a + roundUp c n ∧ a < b.fin := by
  have hr := roundUp_facts hc hn
  have hlim := hc.limit
  have htop := hi.tiled.top
  unfold taAlloc at ha
  simp only at ha
  generalize roundUp c n = num at *
  cases hpk : pick c h.top num h.free with
  | some q => rw [hpk] at ha; cases ha
  | none =>
    rw [hpk] at ha
    have hno := pick_none hpk
    apply Classical.byContradiction
    intro hcon
    have hcov : ∀ x, a ≤ x → x < a + num → x < h.top → ∃ f ∈ h.free, f.addr ≤ x ∧ x < f.fin := fun x x1 x2 x3 => by
      obtain ⟨b, hb, hb1, hb2⟩ := hi.tiled.cover x (by omega) x3
      rcases List.mem_append.1 hb with hb | hb
      · exact ⟨b, hb, hb1, hb2⟩
      · exact absurd ⟨b, hb, by omega, by omega⟩ hcon
    by_cases hat : a < h.top
    · obtain ⟨f, hf, hf1, hf2⟩ := hcov a (Nat.le_refl _) (by omega) hat
      have hw := hi.tiled.within f (by simp [hf])
      have hn1 := hno f hf
      have hend : f.fin < a + num := by unfold Block.fin at *; omega
      by_cases hft : f.fin < h.top
      · obtain ⟨g, hg, hg1, hg2⟩ := hcov f.fin (by omega) hend hft
        have hne : f ≠ g := fun e => by subst e; omega
        have : Disj f g ∧ f.fin ≠ g.addr := by
          obtain ⟨i, hi', rfl⟩ := List.getElem_of_mem hf
          obtain ⟨j, hj, rfl⟩ := List.getElem_of_mem hg
          have hp := List.pairwise_iff_getElem.1 hi.gapped
          rcases Nat.lt_trichotomy i j with h | h | h
          · have := hp i j hi' hj h
            exact ⟨Or.inl (by omega), by omega⟩
          · subst h; exact absurd rfl hne
          · have := hp j i hj hi' h
            exact ⟨Or.inr (by omega), by omega⟩
        unfold Disj at this
        omega
      · have hT := hn1.1
        unfold isTop at hT
        unfold Block.fin at *
        rw [add_small (by omega), add_small (by omega)] at hT
        simp at hT
        have := hT (by omega)
        omega
    · have hfr : h.fresh ≠ 0 := fun e => hat (h3 e)
      simp only [takeTop] at ha
      rw [add_small (by omega)] at ha
      split at ha
      · cases ha
      · rename_i hx
        exact hx ⟨hfr, by omega⟩

end Verif.TinyAlloc
