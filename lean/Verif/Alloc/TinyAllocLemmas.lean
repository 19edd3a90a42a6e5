import Verif.Alloc.TinyAllocSpec

/-!
# Lemmas about the fixed memory allocator
-/

namespace Verif.TinyAlloc

/-- The end of a block. -/
def Block.fin (b : Block) : Nat := b.addr + b.size

def Disj (a b : Block) : Prop := a.fin ≤ b.addr ∨ b.fin ≤ a.addr

theorem Disj.symm {a b : Block} (h : Disj a b) : Disj b a := Or.symm h

/-- A block of the list contains the address. -/
def Cov (l : List Block) (x : Nat) : Prop := ∃ b ∈ l, b.addr ≤ x ∧ x < b.fin

/-- Sorted, not overlapping. -/
def Sorted (l : List Block) : Prop := l.Pairwise (fun a b => a.fin ≤ b.addr)
/-- Sorted and nothing can be merged. -/
def Gapped (l : List Block) : Prop := l.Pairwise (fun a b => a.fin < b.addr)

theorem Gapped.sorted {l} (h : Gapped l) : Sorted l := h.imp (fun h => by omega)

theorem add_small {a b : Nat} (h : a + b < W) : add a b = a + b := Nat.mod_eq_of_lt h
theorem sub_small {a b : Nat} (h : b ≤ a) (ha : a < W) : sub a b = a - b := by
  unfold sub
  rw [show a + (W - b) = (a - b) + W by omega, Nat.add_mod_right, Nat.mod_eq_of_lt (by omega)]

/-! ## `insert_block` -/

theorem mem_insert {b x : Block} {l} : x ∈ insertBlock b l ↔ x = b ∨ x ∈ l := by
  induction l with
  | nil => simp [insertBlock]
  | cons p l ih =>
    unfold insertBlock
    split
    · simp
    · simp [ih]; grind

theorem length_insert (b : Block) (l) : (insertBlock b l).length = l.length + 1 := by
  induction l with
  | nil => rfl
  | cons p l ih => unfold insertBlock; split <;> simp [ih]

theorem sorted_insert {b : Block} {l} (h : Sorted l) (hd : ∀ x ∈ l, Disj b x) (hb : 0 < b.size)
    (hp : ∀ x ∈ l, 0 < x.size) : Sorted (insertBlock b l) := by
  induction l with
  | nil => simp [insertBlock, Sorted]
  | cons p l ih =>
    have hs := List.pairwise_cons.1 h
    have hdp := hd p (by simp)
    have hpp := hp p (by simp)
    unfold insertBlock
    split
    · rename_i hle
      refine List.pairwise_cons.2 ⟨fun x hx => ?_, h⟩
      have hbp : b.fin ≤ p.addr := by
        rcases hdp with h | h
        · exact h
        · unfold Block.fin at h; omega
      rcases List.mem_cons.1 hx with rfl | hx
      · exact hbp
      · have := hs.1 x hx
        unfold Block.fin at *
        omega
    · rename_i hle
      refine List.pairwise_cons.2 ⟨fun x hx => ?_, ih hs.2 (fun x hx => hd x (by simp [hx])) (fun x hx => hp x (by simp [hx]))⟩
      rcases mem_insert.1 hx with rfl | hx
      · rcases hdp with h | h
        · unfold Block.fin at h; omega
        · exact h
      · exact hs.1 x hx

/-! ## `compact` -/

/-- What `compact` does, one merge at a time. -/
def simple (x : Block) : List Block → List Block
  | [] => [x]
  | y :: l => if x.fin = y.addr then simple ⟨x.addr, x.size + y.size⟩ l else x :: simple y l

def simple' : List Block → List Block
  | [] => []
  | x :: l => simple x l

theorem run_simple {a : Nat} {prev : Block} {l : List Block} (ha : a ≤ prev.addr) (hs : Sorted (prev :: l))
    (hw : ∀ x ∈ prev :: l, x.fin < W) :
    simple ⟨a, prev.fin - a⟩ l = ⟨a, (run prev l).1.fin - a⟩ :: simple' (run prev l).2.1 ∧
      l.length = (run prev l).2.1.length + (run prev l).2.2 ∧
      (∀ x ∈ (run prev l).1 :: (run prev l).2.1, x ∈ prev :: l) ∧ Sorted (run prev l).2.1 ∧
      prev.addr ≤ (run prev l).1.addr ∧ ((run prev l).2.2 = 0 → (run prev l).1 = prev) := by
  induction l generalizing prev with
  | nil => simp [simple, run, simple', Sorted]
  | cons y l ih =>
    have hp := hw prev (by simp)
    unfold Block.fin at hp
    have h1 := List.pairwise_cons.1 hs
    have hy := h1.1 y (by simp)
    unfold run
    rw [add_small hp]
    split
    · rename_i he
      have ⟨i1, i2, i3, i4, i5, i6⟩ := ih (prev := y) (by omega) h1.2 (fun x hx => hw x (by simp at hx ⊢; grind))
      refine ⟨?_, ?_, ?_, i4, (show prev.addr ≤ (run y l).1.addr by omega), by simp⟩
      · unfold simple
        unfold Block.fin at *
        simp only
        rw [if_pos (by omega), ← i1]
        congr 2
        omega
      · simp only [List.length_cons]; omega
      · intro x hx
        have := i3 x hx
        simp at this ⊢
        grind
    · rename_i he
      refine ⟨?_, by simp, by simp, h1.2, Nat.le_refl _, by simp⟩
      conv => lhs; unfold simple
      unfold Block.fin at *
      simp only
      rw [if_neg (by omega)]
      rfl

theorem compactN_simple {n : Nat} {l : List Block} (hn : l.length ≤ n) (hs : Sorted l) (hw : ∀ x ∈ l, x.fin < W) :
    (compactN n l).1 = simple' l ∧ l.length = (compactN n l).1.length + (compactN n l).2 := by
  induction n generalizing l with
  | zero =>
    have : l = [] := List.length_eq_zero_iff.1 (by omega)
    subst this
    simp [compactN, simple']
  | succ n ih =>
    cases l with
    | nil => simp [compactN, simple']
    | cons p l =>
      have ⟨h1, h2, h3, h4, h5, h6⟩ := run_simple (Nat.le_refl p.addr) hs hw
      have hpw := hw p (by simp)
      have hlw := hw _ (h3 _ (List.mem_cons_self ..))
      simp only [List.length_cons] at hn
      have ⟨i1, i2⟩ := ih (l := (run p l).2.1) (by omega) h4 (fun x hx => hw x (h3 x (by simp [hx])))
      unfold compactN
      simp only [List.length_cons]
      refine ⟨?_, by omega⟩
      rw [i1]
      change _ = simple p l
      have e : (⟨p.addr, p.fin - p.addr⟩ : Block) = p := by cases p; simp [Block.fin]
      rw [e] at h1
      rw [h1]
      simp only [List.cons.injEq]
      refine ⟨?_, trivial⟩
      split
      · rename_i h0
        rw [h6 h0, e]
      · unfold Block.fin at *
        rw [sub_small h5 (by omega), add_small (by omega)]
        congr 1
        omega

/-- A property of blocks which merged blocks have. -/
def Closed (P : Block → Prop) : Prop :=
  ∀ x y : Block, P x → P y → 0 < x.size → 0 < y.size → x.fin = y.addr → P ⟨x.addr, x.size + y.size⟩

theorem simple_facts {x : Block} {l : List Block} (hs : Sorted (x :: l)) (hp : ∀ y ∈ x :: l, 0 < y.size) :
    Gapped (simple x l) ∧ (∀ a, Cov (x :: l) a → Cov (simple x l) a) ∧ (∀ y ∈ simple x l, 0 < y.size ∧ x.addr ≤ y.addr) ∧
      ∀ P, Closed P → (∀ y ∈ x :: l, P y) → ∀ y ∈ simple x l, P y := by
  induction l generalizing x with
  | nil => simp [simple, Gapped]; exact hp x (by simp)
  | cons y l ih =>
    have h1 := List.pairwise_cons.1 hs
    have h2 := List.pairwise_cons.1 h1.2
    have hy := h1.1 y (by simp)
    have hpx := hp x (by simp)
    have hpy := hp y (by simp)
    unfold simple
    split
    · rename_i he
      have ⟨i1, i2, i3, i4⟩ := ih (x := ⟨x.addr, x.size + y.size⟩)
        (List.pairwise_cons.2 ⟨fun z hz => by
          have := h2.1 z hz
          unfold Block.fin at *
          simp only
          omega, h2.2⟩)
        (fun z hz => by
          rcases List.mem_cons.1 hz with rfl | hz
          · simp only; omega
          · exact hp z (by simp [hz]))
      refine ⟨i1, fun a ha => i2 a ?_, i3, fun P hc hP => i4 P hc fun z hz => ?_⟩
      · obtain ⟨b, hb, hb1, hb2⟩ := ha
        unfold Block.fin at *
        rcases List.mem_cons.1 hb with rfl | hb
        · exact ⟨⟨b.addr, b.size + y.size⟩, by simp, hb1, by simp [Block.fin]; omega⟩
        · rcases List.mem_cons.1 hb with rfl | hb
          · exact ⟨⟨x.addr, x.size + b.size⟩, by simp, by simp only; omega, by simp [Block.fin]; omega⟩
          · exact ⟨b, by simp [hb], hb1, hb2⟩
      rcases List.mem_cons.1 hz with rfl | hz
      · exact hc x y (hP x (by simp)) (hP y (by simp)) hpx hpy he
      · exact hP z (by simp [hz])
    · rename_i he
      have ⟨i1, i2, i3, i4⟩ := ih (x := y) h1.2 (fun z hz => hp z (by simp at hz ⊢; grind))
      refine ⟨List.pairwise_cons.2 ⟨fun z hz => ?_, i1⟩, fun a ha => ?_, fun z hz => ?_, fun P hc hP z hz => ?_⟩
      · have := (i3 z hz).2
        omega
      · obtain ⟨b, hb, hb1⟩ := ha
        rcases List.mem_cons.1 hb with rfl | hb
        · exact ⟨b, by simp, hb1⟩
        · obtain ⟨b', h1, h2⟩ := i2 a ⟨b, hb, hb1⟩
          exact ⟨b', by simp [h1], h2⟩
      · rcases List.mem_cons.1 hz with rfl | hz
        · exact ⟨hpx, Nat.le_refl _⟩
        · have := i3 z hz
          unfold Block.fin at *
          omega
      · rcases List.mem_cons.1 hz with rfl | hz
        · exact hP _ (by simp)
        · exact i4 P hc (fun w hw => hP w (by simp at hw ⊢; grind)) z hz

theorem compact_facts {l : List Block} (hs : Sorted l) (hp : ∀ y ∈ l, 0 < y.size) (hw : ∀ x ∈ l, x.fin < W) :
    Gapped (compact l).1 ∧ (∀ a, Cov l a → Cov (compact l).1 a) ∧ l.length = (compact l).1.length + (compact l).2 ∧
      (∀ y ∈ (compact l).1, 0 < y.size) ∧ ∀ P, Closed P → (∀ y ∈ l, P y) → ∀ y ∈ (compact l).1, P y := by
  have ⟨h1, h2⟩ := compactN_simple (Nat.le_refl _) hs hw
  unfold compact
  rw [h1] at h2 ⊢
  cases l with
  | nil => simp [simple', Gapped] at h2 ⊢; exact h2
  | cons x l =>
    have ⟨i1, i2, i3, i4⟩ := simple_facts hs hp
    exact ⟨i1, i2, h2, fun y hy => (i3 y hy).1, i4⟩

/-! ## Rounding -/

theorem and_high {x k : Nat} (hx : x < 2 ^ 64) (hk : k ≤ 64) : x &&& (2 ^ 64 - 2 ^ k) = x / 2 ^ k * 2 ^ k := by
  apply Nat.eq_of_testBit_eq
  intro i
  have h : 2 ^ 64 - 2 ^ k = 2 ^ 64 - ((2 ^ k - 1) + 1) := by
    have : 0 < 2 ^ k := Nat.two_pow_pos k
    omega
  have hlt : 2 ^ k - 1 < 2 ^ 64 := by
    have := Nat.pow_le_pow_right (n := 2) (by omega) hk
    have : 0 < 2 ^ k := Nat.two_pow_pos k
    omega
  rw [Nat.testBit_and, h, Nat.testBit_two_pow_sub_succ hlt, Nat.testBit_two_pow_sub_one, Nat.testBit_mul_two_pow]
  by_cases hi : k ≤ i
  · simp only [hi, decide_true, Bool.true_and, Nat.testBit_div_two_pow, Nat.sub_add_cancel hi]
    by_cases h64 : i < 64
    · simp [h64]; omega
    · have : x.testBit i = false := Nat.testBit_lt_two_pow (Nat.lt_of_lt_of_le hx (Nat.pow_le_pow_right (by omega) (by omega)))
      simp [this]
  · simp [hi]; omega

/-- The configurations the theorems are about: the alignment is a power of two, the first address is aligned and inside the
memory, at least one descriptor, blocks are split only if something is left. -/
structure Cfg.Ok (c : Cfg) : Prop where
  align : ∃ k, k < 64 ∧ c.align = 2 ^ k
  first : c.align ∣ c.first
  pos : 0 < c.first
  room : c.first ≤ c.limit
  limit : c.limit < W
  blocks : 0 < c.blocks
  thresh : 0 < c.thresh

/-- The sizes the theorems are about. -/
def Fits (c : Cfg) (n : Nat) : Prop := 0 < n ∧ c.limit + n + c.align ≤ W

theorem roundUp_eq {c : Cfg} (hc : c.Ok) {n : Nat} (hn : Fits c n) :
    roundUp c n = (n + c.align - 1) / c.align * c.align := by
  obtain ⟨k, hk, ha⟩ := hc.align
  have h0 : 0 < 2 ^ k := Nat.two_pow_pos k
  have h1 := hn.1
  have h2 := hn.2
  have h3 := hc.pos
  have h4 := hc.room
  unfold roundUp
  rw [add_small (by omega), sub_small (by omega) (by omega)]
  have : sub 0 c.align = 2 ^ 64 - 2 ^ k := by
    unfold sub W
    rw [ha, Nat.zero_add, Nat.mod_eq_of_lt (by omega)]
  rw [this, and_high (by unfold W at h2; omega) (by omega), ha]

theorem roundUp_facts {c : Cfg} (hc : c.Ok) {n : Nat} (hn : Fits c n) :
    n ≤ roundUp c n ∧ roundUp c n < n + c.align ∧ c.align ∣ roundUp c n ∧ 0 < roundUp c n ∧ c.limit + roundUp c n < W := by
  have h := roundUp_eq hc hn
  obtain ⟨k, hk, ha⟩ := hc.align
  have h0 : 0 < c.align := by rw [ha]; exact Nat.two_pow_pos k
  have h1 := hn.1
  have h2 := hn.2
  have hd := Nat.div_add_mod (n + c.align - 1) c.align
  have hm := Nat.mod_lt (n + c.align - 1) h0
  rw [Nat.mul_comm] at hd
  rw [h]
  refine ⟨by omega, by omega, Nat.dvd_mul_left .., by omega, by omega⟩

end Verif.TinyAlloc
