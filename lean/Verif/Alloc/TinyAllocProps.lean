import Verif.Alloc.TinyAllocInv

/-!
# C54: the fixed memory allocator is an ideal memory

The theorems are about every program which uses the allocator with sane sizes and touches only memory it owns; the two
`violated` theorems show what happens with sizes the allocator does not check.
-/

namespace Verif.TinyAlloc

open Spec (Obj Op Res)

/-- The allocator, the memory, and what the program has been given and not yet returned: address and requested size. -/
structure St where
  heap : Heap
  mem : Mem
  live : List (Nat × Nat)

/-- The start of a program: the memory holds anything. -/
def start (c : Cfg) (m : Mem) : St := ⟨init c, m, []⟩

/-- One operation of a program. -/
def exec (c : Cfg) (s : St) : Op → St × Res
  | .alloc n =>
    match taAlloc c s.heap n with
    | none => (s, .ptr none)
    | some (h, p) => (⟨h, s.mem, (p, n) :: s.live⟩, .ptr (some p))
  | .calloc n m =>
    match taCalloc c s.heap s.mem n m with
    | none => (s, .ptr none)
    | some (h, mem, p) => (⟨h, mem, (p, n * m) :: s.live⟩, .ptr (some p))
  | .free p =>
    let r := taFree s.heap p
    (⟨r.1, s.mem, if r.2 then s.live.filter (fun o => o.1 ≠ p) else s.live⟩, .bool r.2)
  | .write p i v => ({ s with mem := put s.mem (add p i) v }, .none)
  | .read p i => (s, .byte (s.mem (add p i)))

/-- A run of a program. -/
def runOps (c : Cfg) : St → List Op → St × List Res
  | s, [] => (s, [])
  | s, op :: ops => ((runOps c (exec c s op).1 ops).1, (exec c s op).2 :: (runOps c (exec c s op).1 ops).2)

/-- The objects the program owns, with what the memory holds for them. -/
def St.view (s : St) : List Obj := s.live.map fun o => ⟨o.1, (List.range o.2).map fun i => s.mem (o.1 + i)⟩

/-- The program does only what is allowed. -/
def Disciplined (c : Cfg) : St → List Op → Prop
  | _, [] => True
  | s, op :: ops => Spec.Allowed c.limit c.align s.view op ∧ Disciplined c (exec c s op).1 ops

/-! ## Helper lemmas -/

/-- Every object is backed by a used block, in the same order. -/
def Backed : List Block → List (Nat × Nat) → Prop
  | [], [] => True
  | b :: bs, o :: os => b.addr = o.1 ∧ o.2 ≤ b.size ∧ 0 < o.2 ∧ Backed bs os
  | _, _ => False

theorem Backed.mem {bs os} (h : Backed bs os) {o} (ho : o ∈ os) : ∃ b ∈ bs, b.addr = o.1 ∧ o.2 ≤ b.size ∧ 0 < o.2 := by
  induction os generalizing bs with
  | nil => cases ho
  | cons x os ih =>
    cases bs with
    | nil => exact h.elim
    | cons b bs =>
      rcases List.mem_cons.1 ho with rfl | ho
      · exact ⟨b, by simp, h.1, h.2.1, h.2.2.1⟩
      · obtain ⟨b', h1, h2⟩ := ih h.2.2.2 ho
        exact ⟨b', by simp [h1], h2⟩

theorem Backed.addrs {bs os} (h : Backed bs os) : bs.map Block.addr = os.map Prod.fst := by
  induction os generalizing bs with
  | nil => cases bs with
    | nil => rfl
    | cons => exact h.elim
  | cons o os ih => cases bs with
    | nil => exact h.elim
    | cons b bs => simp [h.1, ih h.2.2.2]

theorem Backed.apart {bs os} (h : Backed bs os) (hp : bs.Pairwise Disj) :
    os.Pairwise (fun a b => a.1 + a.2 ≤ b.1 ∨ b.1 + b.2 ≤ a.1) := by
  induction os generalizing bs with
  | nil => exact List.Pairwise.nil
  | cons o os ih => cases bs with
    | nil => exact h.elim
    | cons b bs =>
      have hp := List.pairwise_cons.1 hp
      refine List.pairwise_cons.2 ⟨fun x hx => ?_, ih h.2.2.2 hp.2⟩
      obtain ⟨b', h1, h2, h3, h4⟩ := h.2.2.2.mem hx
      have := hp.1 b' h1
      have h0 := h.1
      have h0' := h.2.1
      unfold Disj Block.fin at this
      omega

theorem Backed.filter {l1 b l2 os p} (h : Backed (l1 ++ b :: l2) os) (hb : b.addr = p)
    (hx : ∀ x ∈ l1 ++ l2, x.addr ≠ p) : Backed (l1 ++ l2) (os.filter (fun o => o.1 ≠ p)) := by
  induction l1 generalizing os with
  | nil =>
    cases os with
    | nil => exact h.elim
    | cons o os =>
      have hno : ∀ x ∈ os, x.1 ≠ p := fun x hx' => by
        obtain ⟨b', h1, h2, _⟩ := h.2.2.2.mem hx'
        rw [← h2]
        exact hx b' (by simpa using h1)
      have : (o :: os).filter (fun o => o.1 ≠ p) = os := by
        rw [List.filter_cons_of_neg (by simp [← hb, h.1])]
        exact List.filter_eq_self.2 (fun x hx' => by simpa using hno x hx')
      rw [this]
      exact h.2.2.2
  | cons y l1 ih =>
    cases os with
    | nil => exact h.elim
    | cons o os =>
      have hy := hx y (by simp)
      rw [List.filter_cons_of_pos (by have := h.1; simp; rw [← this]; exact hy)]
      exact ⟨h.1, h.2.1, h.2.2.1, ih h.2.2.2 (fun x hx' => hx x (by simp at hx' ⊢; grind))⟩

structure Good (c : Cfg) (s : St) : Prop where
  inv : Inv c s.heap
  backed : Backed s.heap.used s.live

theorem clearBytes_eq (m : Mem) (p n : Nat) (h : p + n < W) (x : Nat) :
    clearBytes m p n x = if p ≤ x ∧ x < p + n then 0 else m x := by
  induction n generalizing m p with
  | zero => simp [clearBytes]; omega
  | succ n ih =>
    unfold clearBytes
    rw [add_small (by omega), ih _ _ (by omega)]
    unfold put
    grind

theorem clearWords_eq (m : Mem) (p n : Nat) (h : p + 8 * n < W) :
    (clearWords m p n).2 = p + 8 * n ∧ ∀ x, (clearWords m p n).1 x = if p ≤ x ∧ x < p + 8 * n then 0 else m x := by
  induction n generalizing m p with
  | zero => simp [clearWords]; omega
  | succ n ih =>
    unfold clearWords
    rw [add_small (by omega)]
    have ⟨h1, h2⟩ := ih (clearBytes m p 8) (p + 8) (by omega)
    refine ⟨by omega, fun x => ?_⟩
    rw [h2, clearBytes_eq _ _ _ (by omega)]
    grind

theorem memclear_eq (m : Mem) (p n : Nat) (h : p + n < W) (x : Nat) :
    memclear m p n x = if p ≤ x ∧ x < p + n then 0 else m x := by
  unfold memclear
  have e1 : n &&& sub 0 8 = n / 8 * 8 := and_high (k := 3) (by unfold W at h; omega) (by omega)
  have e2 : n &&& 7 = n % 8 := Nat.and_two_pow_sub_one_eq_mod n 3
  rw [e1, e2, Nat.mul_div_cancel _ (by omega)]
  have ⟨h1, h2⟩ := clearWords_eq m p (n / 8) (by omega)
  rw [h1, clearBytes_eq _ _ _ (by omega), h2]
  grind

theorem view_congr {l : List (Nat × Nat)} {m m' : Mem} (h : ∀ o ∈ l, ∀ i, i < o.2 → m (o.1 + i) = m' (o.1 + i)) :
    (l.map fun o => (⟨o.1, (List.range o.2).map fun i => m (o.1 + i)⟩ : Obj)) =
      l.map fun o => ⟨o.1, (List.range o.2).map fun i => m' (o.1 + i)⟩ := by
  apply List.map_congr_left
  intro o ho
  congr 1
  apply List.map_congr_left
  intro i hi
  exact h o ho i (List.mem_range.1 hi)

/-- The bounds of an object. -/
theorem Good.bounds {c s} (hg : Good c s) {o} (ho : o ∈ s.live) :
    c.first ≤ o.1 ∧ o.1 + o.2 ≤ c.limit ∧ c.align ∣ o.1 ∧ 0 < o.2 := by
  obtain ⟨b, hb, h1, h2, h3⟩ := hg.backed.mem ho
  have := hg.inv.tiled.within b (by simp [hb])
  have := hg.inv.tiled.top
  unfold Block.fin at *
  rw [← h1]
  omega

theorem Good.apart {c s} (hg : Good c s) : s.live.Pairwise (fun a b => a.1 + a.2 ≤ b.1 ∨ b.1 + b.2 ≤ a.1) :=
  hg.backed.apart (List.pairwise_append.1 hg.inv.tiled.apart).2.1

/-- A new object does not share an address with the others. -/
theorem Good.fresh {c s p n l} (hg : Good c s) (h : s.live = (p, n) :: l) :
    ∀ o ∈ l, o.1 ≠ p ∧ (∀ i, i < o.2 → o.1 + i < p ∨ p + n ≤ o.1 + i) := by
  intro o ho
  have h1 := hg.apart
  rw [h] at h1
  have h2 := (List.pairwise_cons.1 h1).1 o ho
  have h3 := (hg.bounds (o := o) (by rw [h]; simp [ho])).2.2.2
  have h4 := (hg.bounds (o := (p, n)) (by rw [h]; simp)).2.2.2
  simp only at h2 h4
  refine ⟨by omega, fun i hi => by omega⟩

theorem Good.write {c s p n} (hg : Good c s) (hm : (p, n) ∈ s.live) {i v : Nat} (hi : i < n) :
    (s.live.map fun o => (⟨o.1, (List.range o.2).map fun j => put s.mem (p + i) v (o.1 + j)⟩ : Obj)) =
      Spec.store p i v s.view := by
  unfold Spec.store St.view
  rw [List.map_map]
  apply List.map_congr_left
  intro o ho
  simp only [Function.comp]
  by_cases hp : o.1 = p
  · have hbp : o.2 = n := by
      apply Classical.byContradiction
      intro hne
      have h1 := hg.apart
      have hpos := (hg.bounds ho).2.2.2
      have hpos' := (hg.bounds hm).2.2.2
      have hne' : o ≠ (p, n) := fun e => hne (by rw [e])
      obtain ⟨a, ha, e1⟩ := List.getElem_of_mem ho
      obtain ⟨b, hb, e2⟩ := List.getElem_of_mem hm
      have hpw := List.pairwise_iff_getElem.1 h1
      simp only at hpos'
      rcases Nat.lt_trichotomy a b with h | h | h
      · have := hpw a b ha hb h
        rw [e1, e2] at this
        simp only at this
        omega
      · subst h; rw [e1] at e2; exact hne' e2
      · have := hpw b a hb ha h
        rw [e1, e2] at this
        simp only at this
        omega
    rw [if_pos hp]
    congr 1
    apply List.ext_getElem
    · simp
    · intro j h1 h2
      simp only [List.length_map, List.length_range] at h1
      simp only [List.getElem_map, List.getElem_range, List.getElem_set, put]
      grind
  · rw [if_neg hp]
    congr 1
    apply List.map_congr_left
    intro j hj
    have hj := List.mem_range.1 hj
    unfold put
    rw [if_neg]
    intro he
    have h1 := hg.apart
    obtain ⟨a, ha, e1⟩ := List.getElem_of_mem ho
    obtain ⟨b, hb, e2⟩ := List.getElem_of_mem hm
    have hpw := List.pairwise_iff_getElem.1 h1
    rcases Nat.lt_trichotomy a b with h | h | h
    · have := hpw a b ha hb h
      rw [e1, e2] at this
      simp only at this
      omega
    · subst h; rw [e1] at e2; exact hp (by rw [e2])
    · have := hpw b a hb ha h
      rw [e1, e2] at this
      simp only at this
      omega

/-- One step of a program is a step of the ideal memory. -/
theorem exec_step {c : Cfg} (hc : c.Ok) {s : St} (hg : Good c s) (op : Op) (ha : Spec.Allowed c.limit c.align s.view op) :
    Good c (exec c s op).1 ∧ Spec.Step s.view op (exec c s op).2 (exec c s op).1.view := by
  cases op with
  | alloc n =>
    simp only [exec]
    cases h : taAlloc c s.heap n with
    | none => exact ⟨hg, .allocFail _ _⟩
    | some q =>
      obtain ⟨h', p⟩ := q
      have hf : Fits c n := ha
      have ⟨hi, sz, h1, h2⟩ := taAlloc_inv hc hg.inv hf h
      have hg' : Good c ⟨h', s.mem, (p, n) :: s.live⟩ := ⟨hi, by
        simp only; rw [h2]; exact ⟨rfl, h1, hf.1, hg.backed⟩⟩
      refine ⟨hg', .alloc _ _ _ _ (fun o ho => ?_) (by simp)⟩
      obtain ⟨x, hx, rfl⟩ := List.mem_map.1 ho
      exact (hg'.fresh rfl x hx).1
  | calloc n m =>
    simp only [exec, taCalloc]
    have hf : Fits c (n * m) := ha
    have hmod : n * m % W = n * m := Nat.mod_eq_of_lt (by have := hf.2; have := hc.room; have := hc.pos; omega)
    simp only [hmod]
    cases h : taAlloc c s.heap (n * m) with
    | none => exact ⟨hg, .callocFail _ _ _⟩
    | some q =>
      obtain ⟨h', p⟩ := q
      have ⟨hi, sz, h1, h2⟩ := taAlloc_inv hc hg.inv hf h
      have hg' : Good c ⟨h', memclear s.mem p (n * m), (p, n * m) :: s.live⟩ := ⟨hi, by
        simp only; rw [h2]; exact ⟨rfl, h1, hf.1, hg.backed⟩⟩
      have hfr := hg'.fresh rfl
      have hb := hg'.bounds (o := (p, n * m)) (by simp)
      have hlim := hc.limit
      simp only at hb
      refine ⟨hg', ?_⟩
      have hv : (St.view ⟨h', memclear s.mem p (n * m), (p, n * m) :: s.live⟩) =
          ⟨p, List.replicate (n * m) 0⟩ :: s.view := by
        unfold St.view
        rw [List.map_cons]
        congr 1
        · congr 1
          apply List.ext_getElem
          · simp
          · intro j h1 h2
            simp only [List.length_map, List.length_range] at h1
            simp only [List.getElem_map, List.getElem_range, List.getElem_replicate]
            rw [memclear_eq _ _ _ (by omega), if_pos (by omega)]
        · apply view_congr
          intro o ho i hi'
          have := (hfr o ho).2 i hi'
          exact (memclear_eq _ _ _ (by omega) _).trans (if_neg (by omega))
      simp only
      rw [hv]
      refine .calloc _ _ _ _ (fun o ho => ?_)
      obtain ⟨x, hx, rfl⟩ := List.mem_map.1 ho
      exact (hfr x hx).1
  | free p =>
    simp only [exec]
    have ⟨hi, hcase⟩ := taFree_inv hc hg.inv p
    rcases hcase with ⟨h1, h2, h3⟩ | ⟨h1, l1, b, l2, e1, e2, e3, e4⟩
    · simp only [h1, h2]
      refine ⟨hg, .freeUnknown _ _ fun o ho => ?_⟩
      obtain ⟨x, hx, rfl⟩ := List.mem_map.1 ho
      obtain ⟨b, hb, h4, _⟩ := hg.backed.mem hx
      simp only
      rw [← h4]
      exact h3 b hb
    · simp only [h1, if_true]
      have hbk := hg.backed
      rw [e1] at hbk
      refine ⟨⟨hi, by simp only; rw [e2]; exact hbk.filter e3 e4⟩, ?_⟩
      have hv : (St.view ⟨(taFree s.heap p).1, s.mem, s.live.filter (fun o => o.1 ≠ p)⟩) =
          s.view.filter (fun o => o.ptr ≠ p) := by
        unfold St.view
        rw [List.filter_map]
        rfl
      rw [hv]
      refine .free _ _ ?_
      have : p ∈ s.live.map Prod.fst := by
        rw [← hg.backed.addrs, e1]
        simp [← e3]
      obtain ⟨x, hx, rfl⟩ := List.mem_map.1 this
      exact ⟨_, List.mem_map.2 ⟨x, hx, rfl⟩, rfl⟩
  | write p i v =>
    obtain ⟨o, ho, h1, h2⟩ := ha
    obtain ⟨x, hx, rfl⟩ := List.mem_map.1 ho
    simp only [List.length_map, List.length_range] at h1 h2
    subst h1
    have hb := hg.bounds hx
    have hlim := hc.limit
    simp only [exec]
    refine ⟨⟨hg.inv, hg.backed⟩, ?_⟩
    rw [add_small (by omega)]
    have hw := hg.write (v := v) hx h2
    unfold St.view at hw ⊢
    simp only
    rw [hw]
    exact .write _ _ _ _
  | read p i =>
    obtain ⟨o, ho, h1, h2⟩ := ha
    obtain ⟨x, hx, rfl⟩ := List.mem_map.1 ho
    simp only [List.length_map, List.length_range] at h1 h2
    subst h1
    have hb := hg.bounds hx
    have hlim := hc.limit
    simp only [exec]
    refine ⟨hg, .read _ _ _ _ ⟨_, ho, rfl, ?_⟩⟩
    rw [add_small (by omega)]
    simp [h2]

theorem runOps_good {c : Cfg} (hc : c.Ok) {s : St} (hg : Good c s) (ops : List Op) (hd : Disciplined c s ops) :
    Good c (runOps c s ops).1 ∧ Spec.Steps s.view ops (runOps c s ops).2 (runOps c s ops).1.view := by
  induction ops generalizing s with
  | nil => exact ⟨hg, .nil _⟩
  | cons op ops ih =>
    have ⟨h1, h2⟩ := exec_step hc hg op hd.1
    have ⟨h3, h4⟩ := ih h1 hd.2
    exact ⟨h3, .cons h2 h4⟩

theorem start_good {c : Cfg} (hc : c.Ok) (m : Mem) : Good c (start c m) := ⟨init_inv hc, trivial⟩

/-! ## The properties -/

/-- **C54** Whatever a program does, the allocator together with the memory is an ideal memory: objects are different, new
`ta_calloc` objects are zero, every object keeps what was written to it until it is returned, `ta_free` succeeds exactly for
the objects which have not been returned and changes nothing otherwise. -/
theorem C54_ideal_memory_partial {c : Cfg} (hc : c.Ok) (m : Mem) (ops : List Op) (hd : Disciplined c (start c m) ops) :
    Spec.Steps [] ops (runOps c (start c m) ops).2 (runOps c (start c m) ops).1.view :=
  (runOps_good hc (start_good hc m) ops hd).2

/-- **C54** At any time no two objects share a byte, all are inside the memory of the allocator and aligned, and none is at the
null address. -/
theorem C54_no_overlap_partial {c : Cfg} (hc : c.Ok) (m : Mem) (ops : List Op) (hd : Disciplined c (start c m) ops) :
    (runOps c (start c m) ops).1.view.Pairwise (fun a b => ¬ Spec.Overlap a b) ∧
      ∀ o ∈ (runOps c (start c m) ops).1.view,
        o.ptr ≠ 0 ∧ c.first ≤ o.ptr ∧ o.ptr + o.data.length ≤ c.limit ∧ c.align ∣ o.ptr := by
  have hg := (runOps_good hc (start_good hc m) ops hd).1
  refine ⟨?_, fun o ho => ?_⟩
  · unfold St.view
    rw [List.pairwise_map]
    refine hg.apart.imp fun h => ?_
    rintro ⟨x, h1, h2⟩
    simp only [List.length_map, List.length_range] at h1 h2
    omega
  · obtain ⟨x, hx, rfl⟩ := List.mem_map.1 ho
    have hb := hg.bounds hx
    have := hc.pos
    simp only [List.length_map, List.length_range]
    omega

/-- **C54** No descriptor is ever lost: `ta_check` holds at any time. -/
theorem C54_check_partial {c : Cfg} (hc : c.Ok) (m : Mem) (ops : List Op) (hd : Disciplined c (start c m) ops) :
    taCheck c (runOps c (start c m) ops).1.heap = true := by
  have hg := (runOps_good hc (start_good hc m) ops hd).1
  unfold taCheck
  simp [← hg.inv.count]

/-- **C54** Memory is really returned: a program which has returned everything can have any size that fitted at the start. -/
theorem C54_good_as_new_partial {c : Cfg} (hc : c.Ok) (m : Mem) (ops : List Op) (hd : Disciplined c (start c m) ops)
    (hall : (runOps c (start c m) ops).1.view = []) (n : Nat) (hn : Fits c n) (hr : c.first + roundUp c n ≤ c.limit) :
    ∃ h p, taAlloc c (runOps c (start c m) ops).1.heap n = some (h, p) := by
  have hg := (runOps_good hc (start_good hc m) ops hd).1
  generalize (runOps c (start c m) ops).1 = s at *
  have hu : s.heap.used = [] := by
    have hl : s.live = [] := by
      unfold St.view at hall
      simpa using hall
    have := hg.backed
    rw [hl] at this
    cases h : s.heap.used with
    | nil => rfl
    | cons b bs => rw [h] at this; exact this.elim
  cases h : taAlloc c s.heap n with
  | some q => exact ⟨q.1, q.2, rfl⟩
  | none =>
    exfalso
    by_cases hf : s.heap.fresh = 0 ∧ s.heap.top = c.first
    · have hfree : s.heap.free = [] := by
        cases hfr : s.heap.free with
        | nil => rfl
        | cons b bs =>
          have := hg.inv.tiled.within b (by simp [hfr])
          unfold Block.fin at this
          omega
      have := hg.inv.count
      have := hc.blocks
      rw [hfree, hu] at *
      simp only [List.length_nil] at *
      omega
    · have htop := hg.inv.tiled.top
      obtain ⟨b, hb, _⟩ := taAlloc_none hc hg.inv hn h c.first (Nat.le_refl _) hr (by omega)
      rw [hu] at hb
      cases hb

/-- **C54** A request is refused only if all descriptors are in use or no place is large enough: every place for the rounded
size touches a block in use. -/
theorem C54_refused_only_if_full_partial {c : Cfg} (hc : c.Ok) (m : Mem) (ops : List Op)
    (hd : Disciplined c (start c m) ops) (n : Nat) (hn : Fits c n)
    (hno : taAlloc c (runOps c (start c m) ops).1.heap n = none) :
    (runOps c (start c m) ops).1.heap.fresh = 0 ∨
      ∀ a, c.first ≤ a → a + roundUp c n ≤ c.limit →
        ∃ b ∈ (runOps c (start c m) ops).1.heap.used, b.addr < a + roundUp c n ∧ a < b.addr + b.size := by
  have hg := (runOps_good hc (start_good hc m) ops hd).1
  by_cases hf : (runOps c (start c m) ops).1.heap.fresh = 0
  · exact Or.inl hf
  · exact Or.inr fun a h1 h2 => taAlloc_none hc hg.inv hn hno a h1 h2 (fun e => absurd e hf)

/-- The configuration of the custom allocator example: 82000 bytes at address 0x10000, 512 descriptors of 24 bytes after the
heap structure of 32 bytes. -/
def exampleCfg : Cfg := ⟨0x10000 + 32 + 512 * 24, 0x10000 + 82000, 512, 16, 8⟩

example : exampleCfg.Ok :=
  ⟨⟨3, by decide, by decide⟩, by decide, by decide, by decide, by decide, by decide, by decide⟩

/-- A program: three objects, one returned and its place used again, partly. -/
def exampleOps : List Op :=
  [.calloc 1 100, .calloc 2 50, .write 0x13020 7 42, .free 0x13088, .calloc 1 13, .read 0x13020 7, .free 0x13020, .free 0x13020]

example : (runOps exampleCfg (start exampleCfg fun _ => 99) exampleOps).2 =
    [.ptr (some 0x13020), .ptr (some 0x13088), .none, .bool true, .ptr (some 0x13088), .byte 42, .bool true, .bool false] := by
  decide +kernel

/-- The hypotheses can be met. -/
example : Disciplined exampleCfg (start exampleCfg fun _ => 99) exampleOps := by
  refine ⟨?_, ?_, ?_, trivial, ?_, ?_, trivial, trivial, trivial⟩
  · exact ⟨by decide, by decide⟩
  · exact ⟨by decide, by decide⟩
  · show ∃ o ∈ _, _
    decide +kernel
  · exact ⟨by decide, by decide⟩
  · show ∃ o ∈ _, _
    decide +kernel

/-- **C54 is violated** for sizes which leave the range of `size_t`: `ta_calloc(2^32, 2^32)` hands out a block of no bytes
instead of refusing, and the next block has the same address. -/
theorem C54_calloc_overflow_violated :
    (runOps exampleCfg (start exampleCfg fun _ => 0) [.calloc (2 ^ 32) (2 ^ 32), .calloc 1 8]).2 =
      [.ptr (some 0x13020), .ptr (some 0x13020)] := by
  decide +kernel

/-- **C54 is violated** for large sizes: the rounding wraps around and `ta_alloc(SIZE_MAX)` succeeds. -/
theorem C54_alloc_overflow_violated :
    (runOps exampleCfg (start exampleCfg fun _ => 0) [.alloc (2 ^ 64 - 1)]).2 = [.ptr (some 0x13020)] := by
  decide +kernel

/-- **C54 is violated** for requests of no bytes: two objects get the same address, and returning the first, empty one returns
the second, which is then handed out again while it is still in use. -/
theorem C54_empty_violated :
    (runOps exampleCfg (start exampleCfg fun _ => 0)
      [.calloc 1 0, .calloc 1 8, .write 0x13020 0 42, .free 0x13020, .calloc 1 8, .read 0x13020 0]).2 =
      [.ptr (some 0x13020), .ptr (some 0x13020), .none, .bool true, .ptr (some 0x13020), .byte 0] := by
  decide +kernel

end Verif.TinyAlloc
