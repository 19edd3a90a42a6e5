import Verif.Api.ConnFpLemmas

/-!
# Fingerprints of connections — every call does what the specification says
-/

namespace Verif.Api.ConnFp

open Verif.Util.Hex Spec

/-- What the application knows of a connection. -/
def view (c : Conn) : Rec :=
  { virt := c.virt, cli := c.cfp.map spell, dev := c.dfp.map spell, loc := if c.virt then false else c.isLocal }

/-- Blocks that belong to a connection. Those of client connections are not counted. -/
def weight (c : Conn) : Nat := if c.virt then 3 + size c.cfp + size c.dfp else 0

def total (w : W) : Nat := (w.conns.map weight).sum

structure Inv (w : W) : Prop where
  ok : w.bad = false
  below : ∀ c ∈ w.conns, c.ref ≤ w.last
  nodup : (w.conns.map (·.ref)).Nodup
  dev : ∀ fp, w.device = some fp → fp.length = 32
  fps : ∀ c ∈ w.conns, ∀ fp, (c.cfp = some fp ∨ c.dfp = some fp) → fp.length = 32

structure Rel (w : W) (s : S) : Prop where
  last : w.last = s.last
  who : ∀ r, (find w r).map view = s.who r
  key : w.device.map spell = s.key

theorem find_mem {w : W} {r : Nat} {c : Conn} (h : find w r = some c) : c ∈ w.conns ∧ c.ref = r := by
  unfold find at h
  exact ⟨List.mem_of_find?_eq_some h, by simpa using List.find?_some h⟩

theorem find_above {w : W} (h : Inv w) {r : Nat} (hr : w.last < r) : find w r = none := by
  cases e : find w r with
  | none => rfl
  | some c =>
    obtain ⟨h1, h2⟩ := find_mem e
    have := h.below c h1
    omega

theorem find_put (w : W) (c : Conn) (r : Nat) :
    find (w.put c) r = if r = c.ref then (find w r).map fun _ => c else find w r := by
  unfold find W.put
  simp only
  induction w.conns with
  | nil => simp
  | cons k ks ih =>
    simp only [List.map_cons, List.find?_cons]
    by_cases hk : k.ref = c.ref
    · rw [if_pos hk]
      by_cases hr : r = c.ref
      · subst hr; simp [hk]
      · have h1 : ¬ c.ref = r := fun e => hr e.symm
        have h2 : ¬ k.ref = r := by rw [hk]; exact h1
        simp only [h1, h2, hr, decide_false, if_false] at ih ⊢
        exact ih
    · rw [if_neg hk]
      by_cases hr : k.ref = r
      · have : ¬ r = c.ref := by rw [← hr]; exact hk
        simp [hr, this]
      · simp only [hr, decide_false]
        exact ih

theorem find_filter (w : W) (x : Nat) (f : Nat) (r : Nat) :
    find { w with conns := w.conns.filter (fun k => k.ref ≠ x), freed := f } r = if r = x then none else find w r := by
  unfold find
  simp only
  induction w.conns with
  | nil => simp
  | cons k ks ih =>
    by_cases hk : k.ref = x
    · rw [List.filter_cons_of_neg (by simp [hk]), ih]
      by_cases hr : r = x
      · simp [hr]
      · rw [if_neg hr, if_neg hr, List.find?_cons_of_neg (by simp [hk]; exact fun e => hr e.symm)]
    · rw [List.filter_cons_of_pos (by simp [hk])]
      by_cases hr : k.ref = r
      · have : ¬ r = x := by rw [← hr]; exact hk
        rw [if_neg this, List.find?_cons_of_pos (by simp [hr]), List.find?_cons_of_pos (by simp [hr])]
      · rw [List.find?_cons_of_neg (by simp [hr]), ih, List.find?_cons_of_neg (by simp [hr])]

theorem find_append (w : W) (h : Inv w) (c : Conn) (hc : w.last < c.ref) (l m : Nat) (r : Nat) :
    find { w with conns := w.conns ++ [c], last := l, made := m } r = if r = c.ref then some c else find w r := by
  have key : find { w with conns := w.conns ++ [c], last := l, made := m } r =
      (find w r).or (if c.ref = r then some c else none) := by
    simp only [find, List.find?_append]
    congr 1
    by_cases e : c.ref = r <;> simp [e]
  rw [key]
  by_cases hr : r = c.ref
  · subst hr
    rw [find_above h hc]; simp
  · rw [if_neg hr, if_neg fun e => hr e.symm]; simp

/-! ### Memory -/

theorem sum_filter (l : List Conn) (hn : (l.map (·.ref)).Nodup) (c : Conn) (hc : c ∈ l) :
    ((l.filter fun k => k.ref ≠ c.ref).map weight).sum + weight c = (l.map weight).sum := by
  induction l with
  | nil => cases hc
  | cons k ks ih =>
    rw [List.map_cons, List.nodup_cons] at hn
    rcases List.mem_cons.1 hc with rfl | hc
    · rw [List.filter_cons_of_neg (by simp)]
      have : ks.filter (fun k => k.ref ≠ c.ref) = ks := by
        rw [List.filter_eq_self]
        intro x hx
        simp only [decide_eq_true_eq]
        exact fun e => hn.1 (e ▸ List.mem_map_of_mem hx)
      rw [this, List.map_cons, List.sum_cons]; omega
    · have hne : k.ref ≠ c.ref := fun e => hn.1 (e ▸ List.mem_map_of_mem hc)
      rw [List.filter_cons_of_pos (by simp [hne]), List.map_cons, List.sum_cons, List.map_cons, List.sum_cons]
      have := ih hn.2 hc
      omega

theorem sum_put (l : List Conn) (hn : (l.map (·.ref)).Nodup) (c d : Conn) (hc : c ∈ l) (hd : d.ref = c.ref) :
    ((l.map fun k => if k.ref = d.ref then d else k).map weight).sum + weight c = (l.map weight).sum + weight d := by
  induction l with
  | nil => cases hc
  | cons k ks ih =>
    rw [List.map_cons, List.nodup_cons] at hn
    rcases List.mem_cons.1 hc with rfl | hc
    · have : ks.map (fun k => if k.ref = d.ref then d else k) = ks := by
        conv => rhs; rw [← List.map_id ks]
        refine List.map_congr_left fun x hx => ?_
        have : x.ref ≠ d.ref := fun e => hn.1 (by rw [← hd, ← e]; exact List.mem_map_of_mem hx)
        simp [this]
      simp only [List.map_cons, List.sum_cons, this, if_pos hd.symm]; omega
    · have hne : k.ref ≠ d.ref := fun e => hn.1 (by rw [e, hd]; exact List.mem_map_of_mem hc)
      simp only [List.map_cons, List.sum_cons, if_neg hne]
      have := ih hn.2 hc
      omega

theorem total_filter {w : W} (hn : (w.conns.map (·.ref)).Nodup) {c : Conn} (hc : c ∈ w.conns) (f : Nat) :
    total { w with conns := w.conns.filter (fun k => k.ref ≠ c.ref), freed := f } + weight c = total w :=
  sum_filter w.conns hn c hc

theorem total_put {w : W} (hn : (w.conns.map (·.ref)).Nodup) {c d : Conn} (hc : c ∈ w.conns) (hd : d.ref = c.ref) (m f : Nat) :
    total { w.put d with made := m, freed := f } + weight c = total w + weight d :=
  sum_put w.conns hn c d hc hd

theorem refs_put (w : W) (c : Conn) : (w.put c).conns.map (·.ref) = w.conns.map (·.ref) := by
  simp only [W.put, List.map_map]
  refine List.map_congr_left fun k _ => ?_
  simp only [Function.comp]
  split <;> simp_all

theorem mem_put {w : W} {c k : Conn} (h : k ∈ (w.put c).conns) : k = c ∨ k ∈ w.conns := by
  simp only [W.put, List.mem_map] at h
  obtain ⟨x, hx, rfl⟩ := h
  split
  · exact .inl rfl
  · exact .inr hx

theorem Inv.put {w : W} (h : Inv w) {c d : Conn} (hc : c ∈ w.conns) (hd : d.ref = c.ref)
    (hf : ∀ fp, (d.cfp = some fp ∨ d.dfp = some fp) → fp.length = 32) (m f : Nat) :
    Inv { w.put d with made := m, freed := f } := by
  refine ⟨h.ok, ?_, ?_, h.dev, ?_⟩
  · intro k hk
    rcases mem_put hk with rfl | hk
    · rw [hd]; exact h.below c hc
    · exact h.below k hk
  · have := refs_put w d
    simp only at this ⊢
    rw [this]; exact h.nodup
  · intro k hk
    rcases mem_put hk with rfl | hk
    · exact hf
    · exact h.fps k hk

theorem Inv.append {w : W} (h : Inv w) {c : Conn} (hc : c.ref = w.last + 1)
    (hf : ∀ fp, (c.cfp = some fp ∨ c.dfp = some fp) → fp.length = 32) (m f : Nat) :
    Inv { w with conns := w.conns ++ [c], last := w.last + 1, made := m, freed := f } := by
  refine ⟨h.ok, ?_, ?_, h.dev, ?_⟩
  · intro k hk
    rcases List.mem_append.1 hk with hk | hk
    · have := h.below k hk; simp only; omega
    · rw [List.mem_singleton.1 hk, hc]; exact Nat.le_refl _
  · simp only [List.map_append, List.map_cons, List.map_nil]
    rw [List.nodup_append]
    refine ⟨h.nodup, by simp, ?_⟩
    intro a ha b hb
    obtain ⟨k, hk, rfl⟩ := List.mem_map.1 ha
    rw [List.mem_singleton.1 hb, hc]
    have := h.below k hk
    omega
  · intro k hk
    rcases List.mem_append.1 hk with hk | hk
    · exact h.fps k hk
    · rw [List.mem_singleton.1 hk]; exact hf

theorem Inv.filter {w : W} (h : Inv w) (x : Nat) (m f : Nat) :
    Inv { w with conns := w.conns.filter (fun k => k.ref ≠ x), made := m, freed := f } := by
  refine ⟨h.ok, fun k hk => h.below k (List.mem_filter.1 hk).1, ?_, h.dev, fun k hk => h.fps k (List.mem_filter.1 hk).1⟩
  exact h.nodup.sublist (List.Sublist.map _ List.filter_sublist)

theorem Inv.count {w : W} (h : Inv w) (m f l : Nat) (hl : w.last ≤ l) : Inv { w with made := m, freed := f, last := l } :=
  ⟨h.ok, fun k hk => Nat.le_trans (h.below k hk) hl, h.nodup, h.dev, h.fps⟩

/-- What a call has to do. -/
structure Done (w : W) (s : S) (c : Call) : Prop where
  inv : Inv (step w c).1
  rel : Rel (step w c).1 (Spec.step s c).1
  outs : (step w c).2.map see = (Spec.step s c).2
  mem : (step w c).1.made + w.freed + total w + returned [c] =
    (step w c).1.freed + w.made + total (step w c).1 + handed (step w c).2

theorem Done.quiet {w : W} {s : S} {c : Call} (hi : Inv w) (hr : Rel w s) (k : Nat) (os : List Out)
    (hw : step w c = ({ w with made := w.made + k, freed := w.freed + k }, os))
    (hs : Spec.step s c = (s, os.map see)) (hn : returned [c] = 0) (hh : handed os = 0) : Done w s c := by
  constructor
  · rw [hw]; exact hi.count _ _ w.last (Nat.le_refl _)
  · rw [hw, hs]; exact ⟨hr.last, hr.who, hr.key⟩
  · rw [hw, hs]
  · rw [hw, hn]; simp only [hh, total]; omega

theorem filter_fresh {w : W} (h : Inv w) (c : Conn) (hc : w.last < c.ref) :
    (w.conns ++ [c]).filter (fun k => k.ref ≠ c.ref) = w.conns := by
  rw [List.filter_append]
  have : w.conns.filter (fun k => k.ref ≠ c.ref) = w.conns := by
    rw [List.filter_eq_self]
    intro x hx
    have := h.below x hx
    simp only [decide_eq_true_eq]; omega
  rw [this]; simp

theorem done_vnew {w : W} {s : S} (hi : Inv w) (hr : Rel w s) (m1 m2 m3 : Bool) : Done w s (.vnew m1 m2 m3) := by
  have hnone : s.who (w.last + 1) = none := by rw [← hr.who, find_above hi (Nat.lt_succ_self _)]; rfl
  by_cases h12 : (m1 && m2) = true
  · obtain ⟨rfl, rfl⟩ : m1 = true ∧ m2 = true := by simpa using h12
    cases m3 with
    | true =>
      constructor
      · exact hi.append (c := { ref := w.last + 1, virt := true }) rfl (by simp) _ _
      · refine ⟨by simp [step, vnew, Spec.step, S.set, hr.last], ?_, hr.key⟩
        intro r
        have := find_append w hi { ref := w.last + 1, virt := true } (Nat.lt_succ_self _) (w.last + 1)
          (w.made + 1 + 1 + 1) r
        simp only [step, vnew, Bool.and_self, if_true, Bool.toNat_true, Spec.step, S.set, ← hr.last] at this ⊢
        rw [this]
        by_cases e : r = w.last + 1
        · rw [if_pos e, if_pos e]; rfl
        · rw [if_neg e, if_neg e]; exact hr.who r
      · simp [step, vnew, Spec.step, see, hr.last]
      · simp only [step, vnew, Bool.and_self, if_true, Bool.toNat_true, total, List.map_append, List.sum_append,
          List.map_cons, List.map_nil, weight, size, List.sum_cons, List.sum_nil]
        simp [returned, handed]; omega
    | false =>
      have hff := filter_fresh hi { ref := w.last + 1, virt := true } (Nat.lt_succ_self _)
      have hw : step w (.vnew true true false) =
          ({ w with made := w.made + 2, freed := w.freed + 2, last := w.last + 1 },
            [.event (w.last + 1) false, .event (w.last + 1) true, .made none]) := by
        simp only [step, vnew, destroy, Bool.and_self, if_true, Bool.toNat_true, Bool.false_eq_true, if_false, size]
        simp only at hff
        rw [hff]
        simp
      constructor
      · rw [hw]; exact hi.count _ _ _ (Nat.le_succ _)
      · rw [hw]; exact ⟨by simp [Spec.step, hr.last], hr.who, hr.key⟩
      · rw [hw]; simp [Spec.step, see, hr.last]
      · rw [hw]; simp [total, returned, handed]; omega
  · have hw : step w (.vnew m1 m2 m3) =
        ({ w with made := w.made + (m1.toNat + m2.toNat), freed := w.freed + (m1.toNat + m2.toNat) }, [.made none]) := by
      simp only [step, vnew, h12, Bool.false_eq_true, if_false, Nat.add_assoc]
    refine Done.quiet hi hr (m1.toNat + m2.toNat) [.made none] hw ?_ rfl rfl
    simp [Spec.step, h12, see]

theorem Rel.find {w : W} {s : S} (h : Rel w s) {r : Nat} {x : Rec} (hx : s.who r = some x) :
    ∃ c, find w r = some c ∧ view c = x := by
  have := h.who r
  rw [hx] at this
  cases e : ConnFp.find w r with
  | none => rw [e] at this; cases this
  | some c => rw [e] at this; injection this with this; exact ⟨c, rfl, this⟩

theorem isVirt_find {w : W} {s : S} (h : Rel w s) {r : Nat} (hv : isVirt s r = true) :
    ∃ c, find w r = some c ∧ c.virt = true ∧ s.who r = some (view c) := by
  unfold isVirt at hv
  cases e : s.who r with
  | none => simp [e] at hv
  | some x =>
    obtain ⟨c, hc, rfl⟩ := h.find e
    rw [e] at hv
    exact ⟨c, hc, hv, rfl⟩

theorem isVirtual_eq {w : W} {s : S} (h : Rel w s) (r : Nat) : isVirtual w r = isVirt s r := by
  unfold isVirtual isVirt
  rw [← h.who r]
  cases find w r <;> rfl

theorem done_vfree {w : W} {s : S} (hi : Inv w) (hr : Rel w s) (ref : Nat) (hf : isVirt s ref) : Done w s (.vfree ref) := by
  obtain ⟨c, hc, hv, hw⟩ := isVirt_find hr hf
  obtain ⟨hm, rfl⟩ := find_mem hc
  have hs : step w (.vfree c.ref) = ({ w with conns := w.conns.filter (fun k => k.ref ≠ c.ref), freed := w.freed + size c.cfp + size c.dfp + 2 + 1 }, [.event c.ref true]) := by
    simp [step, vfree, hc, hv, destroy]
  constructor
  · rw [hs]; exact hi.filter _ _ _
  · rw [hs]
    refine ⟨hr.last, fun r => ?_, hr.key⟩
    rw [find_filter]
    simp only [Spec.step, S.set]
    split
    · rfl
    · exact hr.who r
  · rw [hs]; rfl
  · rw [hs]
    have := total_filter hi.nodup hm (w.freed + size c.cfp + size c.dfp + 2 + 1)
    simp only [weight, hv, if_true] at this
    show w.made + w.freed + total w + 0 = w.freed + size c.cfp + size c.dfp + 2 + 1 + w.made +
      total { w with conns := w.conns.filter (fun k => k.ref ≠ c.ref), freed := w.freed + size c.cfp + size c.dfp + 2 + 1 } + 0
    omega

theorem view_setFp (c : Conn) (s : Side) (v : Option Bytes) : view (c.setFp s v) = (view c).set s (v.map spell) := by
  cases s <;> rfl

theorem setFp_ref (c : Conn) (s : Side) (v : Option Bytes) : (c.setFp s v).ref = c.ref := by cases s <;> rfl

theorem setFp_fps {c : Conn} {s : Side} {v : Option Bytes} (h : ∀ fp, (c.cfp = some fp ∨ c.dfp = some fp) → fp.length = 32)
    (hv : ∀ fp, v = some fp → fp.length = 32) : ∀ fp, ((c.setFp s v).cfp = some fp ∨ (c.setFp s v).dfp = some fp) → fp.length = 32 := by
  intro fp
  cases s with
  | client => rintro (e | e); exact hv fp e; exact h fp (.inr e)
  | device => rintro (e | e); exact h fp (.inl e); exact hv fp e

theorem weight_setFp (c : Conn) (s : Side) (v : Option Bytes) (hv : c.virt = true) :
    weight (c.setFp s v) + size (c.fp s) = weight c + size v := by
  cases s <;> simp [weight, hv, Conn.setFp, Conn.fp] <;> omega

theorem rel_put {w : W} {s : S} (hr : Rel w s) {c d : Conn} (hc : find w c.ref = some c) (hd : d.ref = c.ref) (m f : Nat) :
    Rel { w.put d with made := m, freed := f } (s.set c.ref (some (view d))) := by
  refine ⟨hr.last, fun r => ?_, hr.key⟩
  have : find { w.put d with made := m, freed := f } r = find (w.put d) r := rfl
  rw [this, find_put, hd]
  simp only [S.set]
  by_cases e : r = c.ref
  · subst e; simp [hc]
  · rw [if_neg e, if_neg e]; exact hr.who r

theorem done_vset {w : W} {s : S} (hi : Inv w) (hr : Rel w s) (ref : Nat) (side : Side) (text : Bytes) (m2 : Bool)
    (hf : isVirt s ref) (hl : text.length < 2 ^ 64 - 1) : Done w s (.vset ref side text true m2) := by
  obtain ⟨c, hc, hv, hw⟩ := isVirt_find hr hf
  obtain ⟨hm, rfl⟩ := find_mem hc
  by_cases hd : side = .device ∧ text.length ≠ 64
  · refine Done.quiet hi hr 0 [.ret .invalidArgument] ?_ ?_ rfl rfl
    · simp [step, vset, hc, hv, hd]
    · have : accepted side text = false := by simp [accepted, hd.1, hd.2]
      simp [Spec.step, hw, this, see]
  · obtain ⟨ha, hub⟩ := accepted_spec side text hl fun e => Classical.byContradiction fun hn => hd ⟨e, hn⟩
    cases hx : hexToData text 32 with
    | ub => exact absurd hx hub
    | reject =>
      refine Done.quiet hi hr 1 [.ret .invalidArgument] ?_ ?_ rfl rfl
      · simp [step, vset, hc, hv, hd, hx]
      · have : accepted side text = false := by
          cases e : accepted side text with
          | false => rfl
          | true => obtain ⟨fp, hfp⟩ := ha.1 e; rw [hx] at hfp; cases hfp
        simp [Spec.step, hw, this, see]
    | ok fp =>
      have hacc : accepted side text = true := ha.2 ⟨fp, hx⟩
      obtain ⟨hcan, hlen⟩ := canon_spec text fp hl hx
      cases m2 with
      | true =>
        have hs : step w (.vset c.ref side text true true) =
            ({ w.put (c.setFp side (some fp)) with made := w.made + 1 + 1, freed := w.freed + size (c.fp side) + 1 }, [.ret .ok]) := by
          simp [step, vset, hc, hv, hd, hx, coreSet, W.put]
        have hss : Spec.step s (.vset c.ref side text true true) =
            (s.set c.ref (some (view (c.setFp side (some fp)))), [.ret .ok]) := by
          simp [Spec.step, hw, hacc, view_setFp, hcan]
        constructor
        · rw [hs]
          exact hi.put hm (setFp_ref ..) (setFp_fps (hi.fps c hm) fun x hx => by injection hx with hx; subst hx; exact hlen) _ _
        · rw [hs, hss]; exact rel_put hr hc (setFp_ref ..) _ _
        · rw [hs, hss]; rfl
        · rw [hs]
          have h1 := total_put hi.nodup (d := c.setFp side (some fp)) hm (setFp_ref ..) (w.made + 1 + 1) (w.freed + size (c.fp side) + 1)
          have h2 := weight_setFp c side (some fp) hv
          have h3 : size (some fp) = 1 := rfl
          show w.made + 1 + 1 + w.freed + total w + 0 = w.freed + size (c.fp side) + 1 + w.made +
            total { w.put (c.setFp side (some fp)) with made := w.made + 1 + 1, freed := w.freed + size (c.fp side) + 1 } + 0
          omega
      | false =>
        have hs : step w (.vset c.ref side text true false) =
            ({ w.put (c.setFp side none) with made := w.made + 1, freed := w.freed + size (c.fp side) + 1 }, [.ret .outOfMemory]) := by
          simp [step, vset, hc, hv, hd, hx, coreSet, W.put]
        have hss : Spec.step s (.vset c.ref side text true false) =
            (s.set c.ref (some (view (c.setFp side none))), [.ret .outOfMemory]) := by
          simp [Spec.step, hw, hacc, view_setFp]
        constructor
        · rw [hs]
          exact hi.put hm (setFp_ref ..) (setFp_fps (hi.fps c hm) (by simp)) _ _
        · rw [hs, hss]; exact rel_put hr hc (setFp_ref ..) _ _
        · rw [hs, hss]; rfl
        · rw [hs]
          have h1 := total_put hi.nodup (d := c.setFp side none) hm (setFp_ref ..) (w.made + 1) (w.freed + size (c.fp side) + 1)
          have h2 := weight_setFp c side none hv
          have h3 : size (none : Option Bytes) = 0 := rfl
          show w.made + 1 + w.freed + total w + 0 = w.freed + size (c.fp side) + 1 + w.made +
            total { w.put (c.setFp side none) with made := w.made + 1, freed := w.freed + size (c.fp side) + 1 } + 0
          omega

/-- A text is told. -/
theorem done_tell {w : W} {s : S} (hi : Inv w) (hr : Rel w s) (c : Call) (fp : Bytes) (short mem : Bool) (hl : fp.length = 32)
    (hw : step w c = ((toHex w fp (shown short) mem).1, [.str .ok (toHex w fp (shown short) mem).2])) (e : Ec)
    (hs : Spec.step s c = (s, [tell (some (spell fp)) e short mem])) (hn : returned [c] = 0) : Done w s c := by
  have ht := toHex_spec w fp (shown short) (by cases short <;> simp [shown, hl]) mem
  rw [ht] at hw
  constructor
  · rw [hw]; exact hi.count _ w.freed w.last (Nat.le_refl _)
  · rw [hw, hs]; exact ⟨hr.last, hr.who, hr.key⟩
  · rw [hw, hs]
    cases mem with
    | false => rfl
    | true => simp [see, tell, cstring_shown]
  · rw [hw, hn]
    cases mem <;> simp [total, handed] <;> omega

theorem done_cliFp {w : W} {s : S} (hi : Inv w) (hr : Rel w s) (ref : Nat) (short mem : Bool) : Done w s (.cliFp ref short mem) := by
  cases hc : find w ref with
  | none =>
    have : s.who ref = none := by rw [← hr.who, hc]; rfl
    exact Done.quiet hi hr 0 [.str .invalidConnection none] (by simp [step, cliFp, hc])
      (by simp [Spec.step, this, tell, see]) rfl rfl
  | some c =>
    have hw : s.who ref = some (view c) := by rw [← hr.who, hc]; rfl
    cases hf : c.cfp with
    | none =>
      exact Done.quiet hi hr 0 [.str .invalidConnection none] (by simp [step, cliFp, hc, hf])
        (by simp [Spec.step, hw, view, hf, tell, see]) rfl rfl
    | some fp =>
      exact done_tell hi hr _ fp short mem (hi.fps c (find_mem hc).1 fp (.inl hf)) (by simp [step, cliFp, hc, hf])
        .invalidConnection (by simp [Spec.step, hw, view, hf]) rfl

theorem devFp_none {w : W} {s : S} (hi : Inv w) (hr : Rel w s) (c : Call) (short mem : Bool)
    (hw : step w c = devFp w (shown short) mem) (hs : Spec.step s c = (s, [tell s.key .invalidState short mem]))
    (hn : returned [c] = 0) : Done w s c := by
  have h0 : w.device = none → devFp w (shown short) mem = (w, [.str .invalidState none]) := by
    intro e; simp [devFp, e]
  cases hd : w.device with
  | none =>
    have : s.key = none := by rw [← hr.key, hd]; rfl
    exact Done.quiet hi hr 0 [.str .invalidState none] (by rw [hw, h0 hd]; rfl) (by simp [hs, this, tell, see]) hn rfl
  | some fp =>
    have : s.key = some (spell fp) := by rw [← hr.key, hd]; rfl
    exact done_tell hi hr c fp short mem (hi.dev fp hd) (by simp [hw, devFp, hd]) .invalidState (by rw [hs, this]) hn

theorem done_connDev {w : W} {s : S} (hi : Inv w) (hr : Rel w s) (ref : Nat) (mem : Bool)
    (hg : ∀ r, s.who ref = some r → r.virt = true → r.dev = none) : Done w s (.connDev ref mem) := by
  by_cases hv : isVirt s ref = true
  · obtain ⟨c, hc, hcv, hw⟩ := isVirt_find hr hv
    have hn : c.dfp = none := by simpa [view] using hg _ hw (by simp [view, hcv])
    exact Done.quiet hi hr 0 [.str .invalidConnection none]
      (by simp [step, connDev, isVirtual_eq hr, hv, hc, hn])
      (by simp [Spec.step, hw, view, hcv, hn, tell, see]) rfl rfl
  · have hv' : isVirt s ref = false := by simpa using hv
    refine devFp_none hi hr _ false mem ?_ ?_ rfl
    · simp [step, connDev, isVirtual_eq hr, hv', shown]
    · cases e : s.who ref with
      | none => simp [Spec.step, e]
      | some x => simp [isVirt, e] at hv'; simp [Spec.step, e, hv']

theorem done_client {w : W} {s : S} (hi : Inv w) (hr : Rel w s) (fp : Option Bytes) (l : Bool)
    (hf : ∀ x, fp = some x → x.length = 32) : Done w s (.client fp l) := by
  constructor
  · exact hi.append (c := { ref := w.last + 1, virt := false, cfp := fp, isLocal := l }) rfl
      (by rintro x (e | e); exact hf x e; cases e) w.made w.freed
  · refine ⟨by simp [step, Spec.step, S.set, hr.last], fun r => ?_, hr.key⟩
    have := find_append w hi { ref := w.last + 1, virt := false, cfp := fp, isLocal := l } (Nat.lt_succ_self _) (w.last + 1) w.made r
    simp only [step, Spec.step, S.set, ← hr.last] at this ⊢
    rw [this]
    by_cases e : r = w.last + 1
    · rw [if_pos e, if_pos e]; rfl
    · rw [if_neg e, if_neg e]; exact hr.who r
  · simp [step, Spec.step, see, hr.last]
  · simp [step, total, weight, returned, handed]; omega

theorem done_channel {w : W} {s : S} (hi : Inv w) (hr : Rel w s) (ref : Nat) (l : Bool) : Done w s (.channel ref l) := by
  cases hc : find w ref with
  | none =>
    have : s.who ref = none := by rw [← hr.who, hc]; rfl
    exact Done.quiet hi hr 0 [] (by simp [step, hc]) (by simp [Spec.step, this]) rfl rfl
  | some c =>
    obtain ⟨hm, rfl⟩ := find_mem hc
    have hw : s.who c.ref = some (view c) := by rw [← hr.who, hc]; rfl
    have hs : step w (.channel c.ref l) = (w.put { c with isLocal := l }, []) := by simp [step, hc]
    have hss : Spec.step s (.channel c.ref l) = (s.set c.ref (some (view { c with isLocal := l })), []) := by
      simp only [Spec.step, hw]
      cases hv : c.virt <;> simp [view, hv]
    constructor
    · rw [hs]; exact hi.put (d := { c with isLocal := l }) hm rfl (hi.fps c hm) w.made w.freed
    · rw [hs, hss]; exact rel_put (d := { c with isLocal := l }) hr hc rfl w.made w.freed
    · rw [hs, hss]; rfl
    · rw [hs]
      have h1 := total_put hi.nodup (d := { c with isLocal := l }) hm rfl w.made w.freed
      have h2 : weight { c with isLocal := l } = weight c := rfl
      show w.made + w.freed + total w + 0 = w.freed + w.made + total (w.put { c with isLocal := l }) + 0
      have h3 : total { w.put { c with isLocal := l } with made := w.made, freed := w.freed } = total (w.put { c with isLocal := l }) := rfl
      omega

theorem done_gone {w : W} {s : S} (hi : Inv w) (hr : Rel w s) (ref : Nat) (hf : ∃ r, s.who ref = some r ∧ r.virt = false) :
    Done w s (.gone ref) := by
  obtain ⟨x, hx, hv⟩ := hf
  obtain ⟨c, hc, rfl⟩ := hr.find hx
  obtain ⟨hm, rfl⟩ := find_mem hc
  constructor
  · exact hi.filter _ w.made w.freed
  · refine ⟨hr.last, fun r => ?_, hr.key⟩
    have := find_filter w c.ref w.freed r
    simp only [step, Spec.step, S.set] at this ⊢
    rw [this]
    split
    · rfl
    · exact hr.who r
  · rfl
  · have := total_filter hi.nodup hm w.freed
    have hz : weight c = 0 := by simp only [view] at hv; simp [weight, hv]
    show w.made + w.freed + total w + 0 = w.freed + w.made +
      total { w with conns := w.conns.filter (fun k => k.ref ≠ c.ref), freed := w.freed } + 0
    omega

theorem done {w : W} {s : S} (hi : Inv w) (hr : Rel w s) (c : Call) (hf : fine s c) (hg : good s c) : Done w s c := by
  cases c with
  | vnew m1 m2 m3 => exact done_vnew hi hr m1 m2 m3
  | vfree ref => exact done_vfree hi hr ref hf
  | vclose ref f => exact Done.quiet hi hr 0 [] rfl rfl rfl rfl
  | vset ref side text m1 m2 => cases hg; exact done_vset hi hr ref side text m2 hf.1 hf.2
  | isVirtual ref => exact Done.quiet hi hr 0 [.bool (isVirtual w ref)] rfl (by simp [Spec.step, isVirtual_eq hr, see]) rfl rfl
  | isLocal ref =>
    refine Done.quiet hi hr 0 [.bool (isLocal w ref)] rfl ?_ rfl rfl
    have : isLocal w ref = (match s.who ref with | some r => r.loc | none => false) := by
      unfold isLocal
      rw [← hr.who ref]
      cases find w ref <;> rfl
    simp only [Spec.step, List.map_cons, List.map_nil, see, this]
    rfl
  | cliFp ref short mem => exact done_cliFp hi hr ref short mem
  | devFp short mem => exact devFp_none hi hr _ short mem rfl rfl rfl
  | connDev ref mem => exact done_connDev hi hr ref mem hg
  | strFree =>
    exact ⟨hi.count w.made (w.freed + 1) w.last (Nat.le_refl _), ⟨hr.last, hr.who, hr.key⟩, rfl,
      by simp [step, total, returned, handed]; omega⟩
  | key fp =>
    refine ⟨⟨hi.ok, hi.below, hi.nodup, ?_, hi.fps⟩, ⟨hr.last, hr.who, rfl⟩, rfl, by simp [step, total, returned, handed]; omega⟩
    intro x hx
    injection hx with hx; subst hx; exact hf
  | client fp l => exact done_client hi hr fp l hf
  | channel ref l => exact done_channel hi hr ref l
  | gone ref => exact done_gone hi hr ref hf

theorem run_spec (cs : List Call) : ∀ w s, Inv w → Rel w s → Fine s cs → Good s cs →
    Inv (run w cs).1 ∧ Rel (run w cs).1 (Spec.run s cs).1 ∧ (run w cs).2.map see = (Spec.run s cs).2 ∧
    (run w cs).1.made + w.freed + total w + returned cs = (run w cs).1.freed + w.made + total (run w cs).1 + handed (run w cs).2 := by
  induction cs with
  | nil => intro w s hi hr _ _; exact ⟨hi, hr, rfl, by simp [run, returned, handed]; omega⟩
  | cons c cs ih =>
    intro w s hi hr hf hg
    obtain ⟨d1, d2, d3, d4⟩ := done hi hr c hf.1 hg.1
    obtain ⟨i1, i2, i3, i4⟩ := ih _ _ d1 d2 hf.2 hg.2
    refine ⟨i1, i2, by simp only [run, Spec.run, List.map_append, d3, i3], ?_⟩
    have e1 : returned (c :: cs) = returned [c] + returned cs := by
      rw [show c :: cs = [c] ++ cs from rfl]; simp only [returned, List.countP_append]
    have e2 : handed (run w (c :: cs)).2 = handed (step w c).2 + handed (run (step w c).1 cs).2 := by
      simp only [run, handed, List.countP_append]
    rw [e1, e2]
    simp only [run] at i4 ⊢
    omega

theorem inv_init : Inv {} := ⟨rfl, by simp, by simp, by simp, by simp⟩
theorem rel_init : Rel {} {} := ⟨rfl, fun _ => rfl, rfl⟩

end Verif.Api.ConnFp
