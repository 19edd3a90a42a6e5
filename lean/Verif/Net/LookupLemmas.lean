import Verif.Net.LookupSpec

/-!
# Looking up a host name with the platform (lemmas)
-/

namespace Verif.Net.Lookup
open Spec

/-! ## What a lookup writes -/

/-- The memory with the addresses `as` written from the start, all of which fit. -/
structure Written (size : Nat) (as : List Ip) (m : Mem) : Prop where
  fits : as.length ≤ size
  inside : m.over = false
  cells : m.cells = as.map some ++ List.replicate (size - as.length) none

theorem Written.fresh (size : Nat) : Written size [] (Mem.fresh size) :=
  ⟨Nat.zero_le _, rfl, by simp [Mem.fresh]⟩

theorem Written.length {size as m} (h : Written size as m) : m.cells.length = size := by
  have := h.fits
  rw [h.cells]; simp; omega

theorem Written.put {size as m} (h : Written size as m) (hl : as.length < size) (a : Ip) :
    Written size (as ++ [a]) (m.put as.length a) := by
  have hlen := h.length
  have e : m.put as.length a = { m with cells := m.cells.set as.length (some a) } := by
    simp [Mem.put, hlen, hl]
  rw [e]
  refine ⟨by simp; omega, h.inside, ?_⟩
  show m.cells.set as.length (some a) = _
  rw [h.cells]
  obtain ⟨k, hk⟩ : ∃ k, size - as.length = k + 1 := ⟨size - as.length - 1, by omega⟩
  have hk' : size - (as ++ [a]).length = k := by simp; omega
  rw [hk, hk', List.replicate_succ, List.set_append_right _ _ (by simp)]
  simp

theorem Written.delivered {size as m} (h : Written size as m) :
    Delivered size as { m with count := as.length } := by
  have := h.fits
  refine ⟨h.inside, by simp; omega, ?_⟩
  show m.cells = _
  rw [h.cells, List.take_of_length_le h.fits]

@[simp] theorem put_count (m : Mem) (i : Nat) (a : Ip) : (m.put i a).count = m.count := by
  unfold Mem.put; split <;> rfl

theorem put_over {m : Mem} (i : Nat) (a : Ip) (h : m.over = true) : (m.put i a).over = true := by
  unfold Mem.put; split <;> simp [h]

@[simp] theorem put_length (m : Mem) (i : Nat) (a : Ip) : (m.put i a).cells.length = m.cells.length := by
  unfold Mem.put; split <;> simp

theorem addresses_cons (e : Entry) (es : List Entry) : addresses (e :: es) = addresses [e] ++ addresses es := by
  simp only [addresses]
  rw [← List.filterMap_append]; rfl

theorem levLoop_delivered (size : Nat) (es : List Entry) : ∀ (as : List Ip) (m : Mem), Written size as m →
    Delivered size (as ++ addresses es)
      { (levLoop size es as.length m).2 with count := (levLoop size es as.length m).1 } := by
  induction es with
  | nil =>
    intro as m h
    simpa [levLoop, addresses] using h.delivered
  | cons e es ih =>
    intro as m h
    by_cases hl : as.length < size
    · have w := h.put hl
      cases e with
      | inet b =>
        have := ih (as ++ [.v4 b]) _ (w _)
        simpa [levLoop, hl, addresses] using this
      | inet6 b =>
        have := ih (as ++ [.v6 b]) _ (w _)
        simpa [levLoop, hl, addresses] using this
      | other =>
        have := ih as _ h
        simpa [levLoop, hl, addresses] using this
    · have he : as.length = size := by have := h.fits; omega
      simp only [levLoop, hl, if_false]
      refine ⟨h.inside, by simp; omega, ?_⟩
      show m.cells = _
      rw [h.cells, List.take_append_of_le_length (by omega), List.take_of_length_le h.fits]
      simp [he]

theorem unixLoop_delivered (size : Nat) (es : List Entry) : ∀ (as : List Ip) (m : Mem), Written size as m →
    m.count = 0 → (as ++ addresses es).length ≤ size →
    Delivered size (as ++ addresses es)
      { (unixLoop size es as.length m).2 with count := (unixLoop size es as.length m).1 } := by
  induction es with
  | nil =>
    intro as m h _ _
    simpa [unixLoop, addresses] using h.delivered
  | cons e es ih =>
    intro as m h hc hl
    rw [addresses_cons] at hl ⊢
    cases e with
    | inet b =>
      have hl' : as.length < size := by simp [addresses] at hl; omega
      have h0 : 0 < size := by omega
      have := ih (as ++ [.v4 b]) _ (h.put hl' _) (by simpa using hc) (by simpa [addresses] using hl)
      simpa [unixLoop, hc, h0, addresses] using this
    | inet6 b =>
      have hl' : as.length < size := by simp [addresses] at hl; omega
      have h0 : 0 < size := by omega
      have := ih (as ++ [.v6 b]) _ (h.put hl' _) (by simpa using hc) (by simpa [addresses] using hl)
      simpa [unixLoop, hc, h0, addresses] using this
    | other =>
      have := ih as _ h hc (by simpa [addresses] using hl)
      by_cases h0 : 0 < size <;> simpa [unixLoop, hc, h0, addresses] using this

theorem unixLoop_over (size : Nat) (h0 : 0 < size) (es : List Entry) : ∀ (i : Nat) (m : Mem),
    m.count = 0 → m.cells.length = size →
    (m.over = true ∨ i ≤ size ∧ size < i + (addresses es).length) →
    (unixLoop size es i m).2.over = true := by
  induction es with
  | nil =>
    intro i m _ _ h
    rcases h with h | h
    · simpa [unixLoop] using h
    · simp [addresses] at h; omega
  | cons e es ih =>
    intro i m hc hl h
    rw [addresses_cons] at h
    have next : ∀ a : Ip, (m.over = true ∨ i ≤ size ∧ size < i + ((addresses es).length + 1)) →
        (unixLoop size es (i + 1) (m.put i a)).2.over = true := by
      intro a h
      refine ih (i + 1) _ (by simpa using hc) (by simpa using hl) ?_
      rcases h with h | h
      · exact .inl (put_over _ _ h)
      · by_cases hi : i < size
        · exact .inr (by omega)
        · exact .inl (by simp [Mem.put, hl, hi])
    cases e with
    | inet b =>
      simpa [unixLoop, hc, h0] using next (.v4 b) (by simpa [addresses] using h)
    | inet6 b =>
      simpa [unixLoop, hc, h0] using next (.v6 b) (by simpa [addresses] using h)
    | other =>
      simpa [unixLoop, hc, h0] using ih i m hc hl (by simpa [addresses] using h)

theorem unixLoop_count (size : Nat) (h0 : 0 < size) (es : List Entry) : ∀ (i : Nat) (m : Mem),
    m.count = 0 → (unixLoop size es i m).1 = i + (addresses es).length := by
  induction es with
  | nil => intro i m _; simp [unixLoop, addresses]
  | cons e es ih =>
    intro i m hc
    rw [addresses_cons]
    cases e with
    | inet b =>
      simp only [unixLoop, hc, h0, if_true]
      rw [ih _ _ (by simpa using hc)]
      simp [addresses]; omega
    | inet6 b =>
      simp only [unixLoop, hc, h0, if_true]
      rw [ih _ _ (by simpa using hc)]
      simp [addresses]; omega
    | other =>
      simp only [unixLoop, hc, h0, if_true]
      rw [ih _ _ hc]
      simp [addresses]

/-! ## The thread of the unix resolver -/

theorem run_snoc (s : St) (ops : List Op) (op : Op) : run s (ops ++ [op]) = (run s ops).step op := by
  simp [run]

theorem run_append (s : St) (a b : List Op) : run s (a ++ b) = run (run s a) b := by
  simp [run]

theorem snoc_ind {P : List Op → Prop} (nil : P []) (snoc : ∀ ops op, P ops → P (ops ++ [op])) :
    ∀ ops, P ops := by
  intro ops
  have : ∀ r : List Op, P r.reverse := by
    intro r
    induction r with
    | nil => exact nil
    | cons a r ih => simpa using snoc _ a ih
  simpa using this ops.reverse

/-- The lookup the thread is working at. -/
def Thread.held : Thread → List Nat
  | .resolving n => [n]
  | _ => []

/-- Lookups which have not been answered. -/
def St.open_ (s : St) : List Nat := s.inside ++ s.events ++ s.thread.held

theorem tellAll_eq (s : St) (ns : List Nat) :
    s.tellAll ns = { s with told := s.told ++ ns.map (·, Ec.stopped), ub := s.ub || (s.released && !ns.isEmpty) } := by
  induction ns generalizing s with
  | nil => simp [St.tellAll]
  | cons n ns ih =>
    rw [St.tellAll, ih]
    simp only [St.tell, List.map_cons, List.append_assoc, List.singleton_append, List.isEmpty_cons]
    congr 1
    cases s.ub <;> cases s.released <;> simp

@[simp] theorem answers_nil (n : Nat) : answers [] n = 0 := rfl

@[simp] theorem answers_append (a b : List (Nat × Ec)) (n : Nat) :
    answers (a ++ b) n = answers a n + answers b n := by simp [answers]

@[simp] theorem answers_one (k n : Nat) (ec : Ec) : answers [(k, ec)] n = if k = n then 1 else 0 := by
  by_cases h : k = n <;> simp [answers, h]

theorem answers_map (ns : List Nat) (ec : Ec) (n : Nat) : answers (ns.map (·, ec)) n = ns.count n := by
  induction ns with
  | nil => rfl
  | cons a ns ih =>
    have : (List.map (·, ec) (a :: ns)) = [(a, ec)] ++ ns.map (·, ec) := rfl
    rw [this, answers_append, ih, answers_one, List.count_cons]
    by_cases h : a = n <;> simp [h]; omega

/-- Every lookup begun is either open once and unanswered, or not open and answered once. -/
structure Inv (s : St) : Prop where
  one : ∀ n, s.open_.count n + answers s.told n = if n < s.asked then 1 else 0
  /-- the thread does not sleep over work unless somebody is about to wake it -/
  awake : s.thread = .waiting → s.owed = 0 → s.events = [] ∧ s.stopped = false
  exit : s.thread = .exited → s.stopped = true
  gone : s.gone = true → s.stopped = true ∧ s.thread = .exited

theorem Inv.init : Inv St.init :=
  ⟨by intro n; simp [St.init, St.open_, Thread.held], by simp [St.init], by simp [St.init], by simp [St.init]⟩

theorem Inv.step {s : St} (h : Inv s) (op : Op) : Inv (s.step op) := by
  cases op with
  | ask oom =>
    by_cases hg : s.gone = true
    · simp only [St.step, hg, if_true]
      exact ⟨h.one, h.awake, h.exit, fun _ => h.gone hg⟩
    simp only [St.step, hg]
    by_cases hs : s.stopped = true
    · refine ⟨fun n => ?_, ?_, ?_, ?_⟩
      · have := h.one n
        simp only [hs, St.tell, St.open_, answers_append, answers_one, if_true] at this ⊢
        by_cases e : s.asked = n
        · subst e; simp at this ⊢; omega
        · simp [e] at this ⊢
          by_cases hn : n < s.asked
          · simp [hn, Nat.lt_succ_of_lt hn] at this ⊢; exact this
          · have : ¬ n < s.asked + 1 := by omega
            simp_all
      · simpa [hs, St.tell] using h.awake
      · simp [hs, St.tell]
      · simpa [hs, St.tell] using h.gone
    · cases oom with
      | true =>
        refine ⟨fun n => ?_, ?_, ?_, ?_⟩
        · have := h.one n
          simp only [hs, St.tell, St.open_, answers_append, answers_one, if_true] at this ⊢
          by_cases e : s.asked = n
          · subst e; simp at this ⊢; omega
          · simp [e] at this ⊢
            by_cases hn : n < s.asked
            · simp [hn, Nat.lt_succ_of_lt hn] at this ⊢; exact this
            · have : ¬ n < s.asked + 1 := by omega
              simp_all
        · simpa [hs, St.tell] using h.awake
        · simpa [hs, St.tell] using h.exit
        · simpa [hs, St.tell] using h.gone
      | false =>
        refine ⟨fun n => ?_, ?_, ?_, ?_⟩
        · have := h.one n
          simp only [hs, St.open_, if_false, Bool.false_eq_true, List.count_append, List.count_singleton] at this ⊢
          by_cases e : s.asked = n
          · subst e; simp at this ⊢; omega
          · simp [e] at this ⊢
            by_cases hn : n < s.asked
            · simp [hn, Nat.lt_succ_of_lt hn] at this ⊢; exact this
            · have : ¬ n < s.asked + 1 := by omega
              simp_all
        · simpa [hs] using h.awake
        · simpa [hs] using h.exit
        · simpa [hs] using h.gone
  | append k =>
    by_cases hk : k ∈ s.inside
    · by_cases hg : s.gone = true
      · simp only [St.step, hg, hk, if_true]
        exact ⟨h.one, h.awake, h.exit, fun _ => h.gone hg⟩
      · simp only [St.step, hg, hk, if_true]
        refine ⟨fun n => ?_, ?_, ?_, ?_⟩
        · have := h.one n
          have hc : 0 < s.inside.count k := List.count_pos_iff.mpr hk
          simp only [St.open_, List.count_append, List.count_singleton] at this ⊢
          by_cases e : k = n
          · subst e
            have hs := List.count_erase_self (a := k) (l := s.inside)
            simp at this ⊢; omega
          · have hs : (s.inside.erase k).count n = s.inside.count n := List.count_erase_of_ne (Ne.symm e)
            simp [e] at this ⊢; omega
        · intro _ h0; simp at h0
        · simpa using h.exit
        · simpa [hg] using h.gone
    · simpa only [St.step, hk, if_false] using h
  | signal =>
    by_cases ho : 0 < s.owed
    · simp only [St.step, ho, if_true]
      refine ⟨fun n => ?_, ?_, ?_, ?_⟩
      · have := h.one n
        by_cases hw : s.thread = .waiting
        · simpa [St.open_, hw, Thread.held] using this
        · simpa [St.open_, hw] using this
      · intro hw; by_cases h' : s.thread = .waiting <;> simp [h'] at hw
      · intro hw; by_cases h' : s.thread = .waiting <;> simp [h'] at hw; exact h.exit hw
      · intro hg
        obtain ⟨a, b⟩ := h.gone hg
        exact ⟨a, by simp [b]⟩
    · simpa only [St.step, ho, if_false] using h
  | wake =>
    by_cases hw : s.thread = .waiting
    · simp only [St.step, hw, if_true]
      refine ⟨fun n => ?_, by simp, by simp, ?_⟩
      · have := h.one n
        simpa [St.open_, hw, Thread.held] using this
      · intro hg
        obtain ⟨_, b⟩ := h.gone hg
        rw [hw] at b; cases b
    · simpa only [St.step, hw, if_false] using h
  | thread =>
    by_cases hr : s.thread = .running
    · by_cases hs : s.stopped = true
      · simp only [St.step, hr, hs, if_true]
        refine ⟨fun n => ?_, by simp, fun _ => rfl, fun _ => ⟨rfl, rfl⟩⟩
        have := h.one n
        simpa [St.open_, hr, Thread.held] using this
      · have hg : s.gone ≠ true := fun hg => hs (h.gone hg).1
        simp only [St.step, hr, hs, if_true]
        cases he : s.events with
        | nil =>
          refine ⟨fun n => ?_, ?_, by simp, fun hg' => absurd hg' hg⟩
          · have := h.one n
            simpa [St.open_, hr, Thread.held, he] using this
          · intro _ _; simp
        | cons k ks =>
          refine ⟨fun n => ?_, by simp, by simp, fun hg' => absurd hg' hg⟩
          have := h.one n
          simp only [St.open_, hr, Thread.held, he, List.count_append, List.count_cons, List.count_nil] at this ⊢
          by_cases e : k = n
          · subst e; simp at this ⊢; omega
          · simp [e] at this ⊢; omega
    · simpa only [St.step, hr, if_false] using h
  | finish ec =>
    cases ht : s.thread with
    | resolving k =>
      simp only [St.step, ht]
      refine ⟨fun n => ?_, by simp, by simp, ?_⟩
      · have := h.one n
        simp only [St.open_, ht, Thread.held, St.tell, List.count_append, List.count_cons, List.count_nil,
          answers_append, answers_one] at this ⊢
        by_cases e : k = n
        · subst e; simp at this ⊢; omega
        · simp [e] at this ⊢; omega
      · intro hg
        have := (h.gone (by simpa [St.tell] using hg)).2
        rw [ht] at this; cases this
    | running => simpa only [St.step, ht] using h
    | waiting => simpa only [St.step, ht] using h
    | exited => simpa only [St.step, ht] using h
  | stop =>
    by_cases hs : s.stopped = true
    · simpa only [St.step, hs, if_true] using h
    · simp only [St.step, hs]
      refine ⟨fun n => ?_, ?_, by simp, ?_⟩
      · have := h.one n
        simp only [tellAll_eq, St.open_, answers_append, answers_map, List.count_append, List.count_nil,
          if_false, Bool.false_eq_true] at this ⊢
        omega
      · intro _ h0; simp at h0
      · intro hg
        exact absurd (h.gone (by simpa [tellAll_eq] using hg)).1 hs
  | join =>
    by_cases hj : s.stopped ∧ s.thread = .exited
    · simp only [St.step, hj, and_self, if_true]
      refine ⟨fun n => ?_, by simp, by simp, fun _ => ⟨rfl, rfl⟩⟩
      have := h.one n
      simpa [St.open_, hj.2] using this
    · simpa only [St.step, hj, if_false] using h
  | release => exact ⟨h.one, h.awake, h.exit, h.gone⟩

theorem Inv.run (ops : List Op) : Inv (run St.init ops) := by
  induction ops using snoc_ind with
  | nil => exact Inv.init
  | snoc ops op ih => rw [run_snoc]; exact ih.step op

theorem stop_stopped (s : St) : (s.step .stop).stopped = true := by
  by_cases hs : s.stopped = true <;> simp [St.step, hs]

end Verif.Net.Lookup
