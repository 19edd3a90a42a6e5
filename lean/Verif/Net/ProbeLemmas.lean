import Verif.Net.ProbeSpec

/- Lemmas about the TCP probe. -/
namespace Verif.Net.Probe

open Spec

theorem run_snoc (p : Platform) (ops : List Op) (op : Op) : run p (ops ++ [op]) = (run p ops).step p op := by
  simp [run]

theorem checks_snoc (ops : List Op) (op : Op) :
    checks (ops ++ [op]) = if isCheck op then checks ops ++ [op] else checks ops := by
  unfold checks
  rw [List.filter_append]
  cases h : isCheck op <;> simp [h]

theorem snoc_ind {P : List Op → Prop} (h0 : P []) (h1 : ∀ ops op, P ops → P (ops ++ [op])) (ops : List Op) : P ops := by
  have : ∀ l : List Op, P l.reverse := by
    intro l
    induction l with
    | nil => exact h0
    | cons a l ih => rw [List.reverse_cons]; exact h1 _ _ ih
  have h := this ops.reverse
  rwa [List.reverse_reverse] at h

/-- What holds of a probe which is not freed. -/
structure Inv (s : St) : Prop where
  /-- a check is told once, or it is the pending one -/
  each : ∀ k, told k s + (if s.future = some k then 1 else 0) = if k < s.asked then 1 else 0
  /-- nothing is under way without a pending check -/
  none : s.future = Option.none → s.connecting = false ∧ s.event = .idle
  /-- a pending check is under way in exactly one place -/
  some : ∀ k, s.future = Option.some k → (s.connecting = true ∧ s.event = .idle) ∨ (s.connecting = false ∧ s.event ≠ .idle)

theorem told_append (k : Nat) (s t : St) (j : Nat) (ec : Ec) (h : t.answers = s.answers ++ [(j, ec)]) :
    told k t = told k s + if j = k then 1 else 0 := by
  unfold told
  rw [h, List.countP_append]
  by_cases hj : j = k <;> simp [hj]

theorem told_same (k : Nat) (s t : St) (h : t.answers = s.answers) : told k t = told k s := by
  unfold told; rw [h]

theorem post_fields (s : St) (ec : Ec) : (s.post ec).answers = s.answers ∧ (s.post ec).future = s.future ∧
    (s.post ec).asked = s.asked ∧ (s.post ec).connecting = s.connecting ∧ (s.post ec).freed = s.freed ∧ (s.post ec).ub = s.ub ∧
    (s.post ec).event ≠ .idle := by
  unfold St.post
  split <;> simp

theorem Inv.of (s t : St) (h : Inv s) (ha : t.answers = s.answers) (hf : t.future = s.future) (hk : t.asked = s.asked)
    (hn : t.future = Option.none → t.connecting = false ∧ t.event = .idle)
    (hs : ∀ k, t.future = Option.some k → (t.connecting = true ∧ t.event = .idle) ∨ (t.connecting = false ∧ t.event ≠ .idle)) :
    Inv t := by
  refine ⟨fun k => ?_, hn, hs⟩
  rw [told_same k s t ha, hf, hk]
  exact h.each k

/-- As long as the probe is not freed: nothing undefined, and the invariant holds. -/
theorem inv_step (p : Platform) {s : St} (h : Inv s) (hf : s.freed = false) (hu : s.ub = false) (op : Op) (ho : op ≠ .free) :
    Inv (s.step p op) ∧ (s.step p op).freed = false ∧ (s.step p op).ub = false := by
  unfold St.step
  rw [if_neg (by simp [hu])]
  cases op with
  | free => exact absurd rfl ho
  | stop =>
    simp only [hf, Bool.false_eq_true, if_false]
    unfold St.abort
    split
    · exact ⟨h, hf, hu⟩
    · simp only
      by_cases hc : s.connecting = true
      · rw [if_pos hc]
        obtain ⟨h1, h2, h3, h4, h5, h6, h7⟩ := post_fields { s with aborted := true } .aborted
        refine ⟨Inv.of s _ h h1 h2 h3 ?_ ?_, h5.trans hf, h6.trans hu⟩
        · intro hn
          have := (h.none (h2.symm.trans hn)).1
          simp [hc] at this
        · intro k _
          exact .inr ⟨rfl, h7⟩
      · rw [if_neg hc]
        exact ⟨Inv.of s _ h rfl rfl rfl h.none h.some, hf, hu⟩
  | connected ok =>
    simp only
    by_cases hc : s.connecting = true
    · rw [if_pos hc]
      obtain ⟨h1, h2, h3, h4, h5, h6, h7⟩ := post_fields s (if ok then .ok else .failed)
      refine ⟨Inv.of s _ h h1 h2 h3 ?_ ?_, h5.trans hf, h6.trans hu⟩
      · intro hn
        have := (h.none (h2.symm.trans hn)).1
        simp [hc] at this
      · intro k _
        exact .inr ⟨rfl, h7⟩
    · rw [if_neg hc]
      exact ⟨h, hf, hu⟩
  | take =>
    simp only
    split
    · next ec he =>
      refine ⟨Inv.of s _ h rfl rfl rfl ?_ ?_, hf, hu⟩
      · intro hn
        have := (h.none hn).2
        rw [he] at this
        cases this
      · intro k hk
        rcases h.some k hk with h1 | h1
        · rw [he] at h1
          cases h1.2
        · exact .inr ⟨h1.1, by simp⟩
    · exact ⟨h, hf, hu⟩
  | run =>
    simp only
    split
    · next ec he =>
      simp only [hf, Bool.false_eq_true, if_false]
      unfold St.callback
      split
      · next k hk =>
        refine ⟨⟨fun j => ?_, fun _ => ⟨?_, rfl⟩, fun j hj => by cases hj⟩, hf, hu⟩
        · rw [told_append j s _ k ec rfl]
          have := h.each j
          rw [hk] at this
          simp only [Option.some.injEq] at this
          simp only [reduceCtorEq, if_false]
          omega
        · rcases h.some k hk with h1 | h1
          · rw [he] at h1
            cases h1.2
          · exact h1.1
      · next hn =>
        have := (h.none hn).2
        rw [he] at this
        cases this
    · exact ⟨h, hf, hu⟩
  | check v4 start =>
    simp only [hf, Bool.false_eq_true, if_false]
    unfold St.check
    simp only
    have refuse : ∀ ec : Ec, Inv { s with asked := s.asked + 1, answers := s.answers ++ [(s.asked, ec)] } := by
      intro ec
      refine ⟨fun k => ?_, h.none, h.some⟩
      rw [told_append k s _ s.asked ec rfl]
      have := h.each k
      simp only
      by_cases h1 : s.asked = k
      · subst h1
        simp only [Nat.lt_irrefl, if_false] at this
        simp only [if_true, Nat.lt_succ_self]
        omega
      · rw [if_neg h1]
        have h2 : (k < s.asked + 1) = (k < s.asked) := by apply propext; omega
        simp only [h2]
        omega
    split
    · exact ⟨refuse _, hf, hu⟩
    · next hfut =>
      have hnone : s.future = Option.none := by
        cases hx : s.future with
        | none => rfl
        | some k => rw [hx] at hfut; simp at hfut
      obtain ⟨hcon, hev⟩ := h.none hnone
      split
      · exact ⟨refuse _, hf, hu⟩
      · unfold St.connect
        have each : ∀ t : St, t.answers = s.answers → t.future = Option.some s.asked → t.asked = s.asked + 1 →
            ∀ k, told k t + (if t.future = Option.some k then 1 else 0) = if k < t.asked then 1 else 0 := by
          intro t h1 h2 h3 k
          rw [told_same k s t h1, h2, h3]
          have := h.each k
          rw [hnone] at this
          simp only [reduceCtorEq, if_false] at this
          simp only [Option.some.injEq]
          by_cases h4 : s.asked = k
          · subst h4
            simp only [Nat.lt_irrefl, if_false] at this
            simp only [if_true, Nat.lt_succ_self]
            omega
          · rw [if_neg h4]
            have h5 : (k < s.asked + 1) = (k < s.asked) := by apply propext; omega
            simp only [h5]
            omega
        have posted : ∀ ec : Ec, Inv (St.post { s with asked := s.asked + 1, future := Option.some s.asked } ec) ∧
            (St.post { s with asked := s.asked + 1, future := Option.some s.asked } ec).freed = false ∧
            (St.post { s with asked := s.asked + 1, future := Option.some s.asked } ec).ub = false := by
          intro ec
          obtain ⟨h1, h2, h3, h4, h5, h6, h7⟩ := post_fields { s with asked := s.asked + 1, future := Option.some s.asked } ec
          refine ⟨⟨each _ h1 h2 h3, ?_, ?_⟩, h5.trans hf, h6.trans hu⟩
          · intro hn
            rw [h2] at hn
            cases hn
          · intro k _
            exact .inr ⟨h4.trans hcon, h7⟩
        split
        · exact posted _
        · split
          · refine ⟨⟨each _ rfl rfl rfl, ?_, ?_⟩, hf, hu⟩
            · intro hn
              cases hn
            · intro k _
              exact Or.inl ⟨rfl, hev⟩
          · exact posted _

theorem inv_init : Inv {} := by
  refine ⟨fun k => ?_, fun _ => ⟨rfl, rfl⟩, fun k hk => by cases hk⟩
  simp [told]

theorem inv_run (p : Platform) (ops : List Op) (h : Op.free ∉ ops) :
    Inv (run p ops) ∧ (run p ops).freed = false ∧ (run p ops).ub = false := by
  induction ops using snoc_ind with
  | h0 => exact ⟨inv_init, rfl, rfl⟩
  | h1 ops op ih =>
    rw [run_snoc]
    obtain ⟨h1, h2, h3⟩ := ih (fun hm => h (by simp [hm]))
    exact inv_step p h1 h2 h3 op (by rintro rfl; simp at h)

theorem asked_step (p : Platform) (s : St) (hf : s.freed = false) (hu : s.ub = false) (op : Op) (ho : op ≠ .free) :
    (s.step p op).asked = s.asked + if isCheck op then 1 else 0 := by
  unfold St.step
  rw [if_neg (by simp [hu])]
  cases op with
  | free => exact absurd rfl ho
  | check v4 start =>
    simp only [hf, Bool.false_eq_true, if_false, isCheck, if_true]
    unfold St.check St.connect St.post
    simp only
    (repeat' split) <;> rfl
  | stop =>
    simp only [hf, Bool.false_eq_true, if_false, isCheck]
    unfold St.abort St.post
    simp only
    (repeat' split) <;> rfl
  | connected ok =>
    simp only [isCheck, Bool.false_eq_true, if_false]
    unfold St.post
    (repeat' split) <;> rfl
  | take =>
    simp only [isCheck, Bool.false_eq_true, if_false]
    (repeat' split) <;> rfl
  | run =>
    simp only [isCheck, Bool.false_eq_true, if_false]
    unfold St.callback
    (repeat' split) <;> rfl

theorem asked_run (p : Platform) (ops : List Op) (h : Op.free ∉ ops) : (run p ops).asked = (checks ops).length := by
  induction ops using snoc_ind with
  | h0 => rfl
  | h1 ops op ih =>
    have hb : Op.free ∉ ops := fun hm => h (by simp [hm])
    obtain ⟨_, h2, h3⟩ := inv_run p ops hb
    rw [run_snoc, asked_step p _ h2 h3 op (by rintro rfl; simp at h), ih hb, checks_snoc]
    cases isCheck op <;> simp

theorem ub_stays (p : Platform) (l : List Op) (s : St) (h : s.ub = true) : (l.foldl (St.step p) s).ub = true := by
  induction l generalizing s with
  | nil => exact h
  | cons op l ih =>
    rw [List.foldl_cons]
    apply ih
    unfold St.step
    rw [if_pos h]
    exact h

theorem run_append (p : Platform) (a b : List Op) : run p (a ++ b) = b.foldl (St.step p) (run p a) := by
  simp [run]

/-- Not stopped and not freed: not aborted. -/
theorem not_aborted (p : Platform) (ops : List Op) (h : Op.free ∉ ops) (hs : Op.stop ∉ ops) : (run p ops).aborted = false := by
  induction ops using snoc_ind with
  | h0 => rfl
  | h1 ops op ih =>
    obtain ⟨_, i2, i3⟩ := inv_run p ops (fun hm => h (by simp [hm]))
    have ih := ih (fun hm => h (by simp [hm])) (fun hm => hs (by simp [hm]))
    rw [run_snoc]
    generalize run p ops = s at *
    unfold St.step
    rw [if_neg (by simp [i3])]
    cases op with
    | free => simp at h
    | stop => simp at hs
    | check v4 start =>
      simp only [i2, Bool.false_eq_true, if_false]
      unfold St.check St.connect St.post
      simp only
      (repeat' split) <;> exact ih
    | connected ok =>
      unfold St.post
      simp only
      (repeat' split) <;> exact ih
    | take => simp only; split <;> exact ih
    | run =>
      unfold St.callback
      simp only
      (repeat' split) <;> exact ih

/-- All told: nothing is pending. -/
theorem none_pending (p : Platform) (ops : List Op) (h : Op.free ∉ ops)
    (hk : ∀ k, k < (checks ops).length → told k (run p ops) = 1) : (run p ops).future = Option.none := by
  obtain ⟨h1, _, _⟩ := inv_run p ops h
  cases hx : (run p ops).future with
  | none => rfl
  | some j =>
    exfalso
    have := h1.each j
    rw [hx, asked_run p ops h] at this
    simp only [if_true] at this
    by_cases hj : j < (checks ops).length
    · rw [hk j hj, if_pos hj] at this; omega
    · rw [if_neg hj] at this; omega

/-- One is not told: it is the pending one. -/
theorem is_pending (p : Platform) (ops : List Op) (h : Op.free ∉ ops) (k : Nat) (hk : k < (checks ops).length)
    (ht : told k (run p ops) = 0) : (run p ops).future = some k := by
  obtain ⟨h1, _, _⟩ := inv_run p ops h
  have := h1.each k
  rw [ht, asked_run p ops h, if_pos hk] at this
  by_cases hx : (run p ops).future = some k
  · exact hx
  · rw [if_neg hx] at this
    omega

/-- With nothing under way the event thread runs the callback of what is pending. -/
theorem drained (p : Platform) {s : St} (h : Inv s) (hf : s.freed = false) (hu : s.ub = false) (hc : s.connecting = false) :
    ((s.step p .take).step p .run).future = Option.none := by
  obtain ⟨i1, i2, i3⟩ := inv_step p h hf hu .take (by simp)
  have c2 : (s.step p .take).future = Option.none ∨ ∃ ec, (s.step p .take).event = .taken ec := by
    cases hx : s.future with
    | none =>
      left
      unfold St.step
      rw [if_neg (by simp [hu])]
      simp only
      split <;> exact hx
    | some j =>
      right
      rcases h.some j hx with hh | hh
      · rw [hc] at hh
        cases hh.1
      · unfold St.step
        rw [if_neg (by simp [hu])]
        simp only
        cases he : s.event with
        | idle => exact absurd he hh.2
        | queued ec => exact ⟨ec, rfl⟩
        | taken ec => exact ⟨ec, he⟩
  generalize s.step p .take = t at *
  unfold St.step
  rw [if_neg (by simp [i3])]
  simp only
  rcases c2 with c2 | ⟨ec, c2⟩
  · have := (i1.none c2).2
    rw [this]
    exact c2
  · rw [c2]
    simp only [i2, Bool.false_eq_true, if_false]
    unfold St.callback
    split
    · rfl
    · next hx => exact hx

theorem connected_ends (p : Platform) (s : St) (hu : s.ub = false) (ok : Bool) : (s.step p (.connected ok)).connecting = false := by
  unfold St.step
  rw [if_neg (by simp [hu])]
  simp only
  split
  · rfl
  · next hc => simpa using hc

theorem stop_ends (p : Platform) (s : St) (hu : s.ub = false) (hf : s.freed = false) (ha : s.aborted = false) :
    (s.step p .stop).connecting = false := by
  unfold St.step
  rw [if_neg (by simp [hu])]
  simp only [hf, Bool.false_eq_true, if_false]
  unfold St.abort
  rw [if_neg (by simp [ha])]
  simp only
  split
  · rfl
  · next hc => simpa using hc

/-- Check `k` has a connect under way. -/
structure Under (k : Nat) (s : St) : Prop where
  future : s.future = some k
  connecting : s.connecting = true
  aborted : s.aborted = false
  event : s.event = .idle
  freed : s.freed = false
  ub : s.ub = false
  quiet : ∀ ec, (k, ec) ∉ s.answers
  asked : k < s.asked

theorem quiet_of (s : St) (h : Inv s) (k : Nat) (hk : told k s = 0) : ∀ ec, (k, ec) ∉ s.answers := by
  intro ec hm
  unfold told at hk
  rw [List.countP_eq_zero] at hk
  exact hk _ hm (by simp)

theorem under_start (p : Platform) (ops : List Op) (h : Op.free ∉ ops) (hs : Op.stop ∉ ops)
    (hk : ∀ k, k < (checks ops).length → told k (run p ops) = 1) :
    Under (checks ops).length (run p (ops ++ [.check true .started])) := by
  have hn := none_pending p ops h hk
  have ha := not_aborted p ops h hs
  obtain ⟨h1, h2, h3⟩ := inv_run p ops h
  have hasked := asked_run p ops h
  rw [run_snoc, ← hasked]
  have ht : told (run p ops).asked (run p ops) = 0 := by
    have := h1.each (run p ops).asked
    simp only [Nat.lt_irrefl, if_false] at this
    omega
  have hq := quiet_of _ h1 _ ht
  have he := (h1.none hn).2
  have hrun : (run p ops).step p (.check true .started) =
      { run p ops with asked := (run p ops).asked + 1, future := some (run p ops).asked, connecting := true } := by
    generalize run p ops = s at *
    unfold St.step
    rw [if_neg (by simp [h3])]
    simp only [h2, Bool.false_eq_true, if_false]
    unfold St.check St.connect
    simp [hn, ha, h2]
  rw [hrun]
  exact ⟨rfl, rfl, ha, he, h2, h3, hq, Nat.lt_succ_self _⟩

/-- What neither ends nor stops a connect. -/
def idleOp : Op → Bool
  | .check _ _ => true
  | .take => true
  | .run => true
  | _ => false

theorem under_step (p : Platform) {k : Nat} {s : St} (h : Under k s) (op : Op) (ho : idleOp op = true) : Under k (s.step p op) := by
  unfold St.step
  rw [if_neg (by simp [h.ub])]
  cases op with
  | stop => cases ho
  | free => cases ho
  | connected ok => cases ho
  | take => simp only [h.event]; exact h
  | run => simp only [h.event]; exact h
  | check v4 start =>
    simp only [h.freed, Bool.false_eq_true, if_false]
    unfold St.check
    simp only [h.future, Option.isSome_some, if_true]
    refine ⟨rfl, h.connecting, h.aborted, h.event, h.freed, h.ub, ?_, Nat.lt_succ_of_lt h.asked⟩
    intro ec hm
    rw [List.mem_append] at hm
    rcases hm with hm | hm
    · exact h.quiet ec hm
    · have := h.asked
      simp at hm
      omega

theorem under_run (p : Platform) {k : Nat} (l : List Op) (hl : ∀ op ∈ l, idleOp op = true) {s : St} (h : Under k s) :
    Under k (l.foldl (St.step p) s) := by
  induction l generalizing s with
  | nil => exact h
  | cons op l ih =>
    rw [List.foldl_cons]
    exact ih (fun o ho => hl o (by simp [ho])) (under_step p h op (hl op (by simp)))

/-- The result of check `k` is settled: it is on its way, or it was told. -/
structure Settled (k : Nat) (v : Ec) (s : St) : Prop where
  inv : Inv s
  freed : s.freed = false
  ub : s.ub = false
  asked : k < s.asked
  way : s.future = some k → s.event = .queued v ∨ s.event = .taken v
  told : ∀ ec, (k, ec) ∈ s.answers → ec = v

theorem settled_step (p : Platform) {k : Nat} {v : Ec} {s : St} (h : Settled k v s) (op : Op) (ho : op ≠ .free) :
    Settled k v (s.step p op) := by
  obtain ⟨i1, i2, i3⟩ := inv_step p h.inv h.freed h.ub op ho
  have ia := asked_step p s h.freed h.ub op ho
  refine ⟨i1, i2, i3, by rw [ia]; have := h.asked; omega, ?_, ?_⟩
  · unfold St.step
    rw [if_neg (by simp [h.ub])]
    cases op with
    | free => exact absurd rfl ho
    | stop =>
      simp only [h.freed, Bool.false_eq_true, if_false]
      unfold St.abort
      split
      · exact h.way
      · simp only
        by_cases hc : s.connecting = true
        · rw [if_pos hc]
          intro hf
          have hf : s.future = some k := (post_fields { s with aborted := true } .aborted).2.1.symm.trans hf
          rcases h.inv.some k hf with hh | hh
          · rcases h.way hf with hw | hw <;> · rw [hh.2] at hw; cases hw
          · rw [hc] at hh; cases hh.1
        · rw [if_neg hc]
          exact h.way
    | connected ok =>
      simp only
      by_cases hc : s.connecting = true
      · rw [if_pos hc]
        intro hf
        have hf : s.future = some k := (post_fields s (if ok then .ok else .failed)).2.1.symm.trans hf
        rcases h.inv.some k hf with hh | hh
        · rcases h.way hf with hw | hw <;> · rw [hh.2] at hw; cases hw
        · rw [hc] at hh; cases hh.1
      · rw [if_neg hc]
        exact h.way
    | take =>
      simp only
      split
      · next ec he =>
        intro hf
        rcases h.way hf with hw | hw
        · rw [he] at hw
          cases hw
          exact .inr rfl
        · rw [he] at hw
          cases hw
      · exact h.way
    | run =>
      simp only
      split
      · simp only [h.freed, Bool.false_eq_true, if_false]
        unfold St.callback
        split
        · intro hf
          cases hf
        · exact h.way
      · exact h.way
    | check v4 start =>
      simp only [h.freed, Bool.false_eq_true, if_false]
      unfold St.check
      simp only
      split
      · exact h.way
      · split
        · exact h.way
        · intro hf
          exfalso
          have hp : ∀ ec : Ec, (St.post { s with asked := s.asked + 1, future := some s.asked } ec).future = some s.asked :=
            fun ec => (post_fields _ ec).2.1
          have := h.asked
          have hx : (St.connect p { s with asked := s.asked + 1, future := some s.asked } start).future = some s.asked := by
            unfold St.connect
            split
            · exact hp _
            · split
              · rfl
              · exact hp _
          rw [hx] at hf
          cases hf
          omega
  · unfold St.step
    rw [if_neg (by simp [h.ub])]
    cases op with
    | free => exact absurd rfl ho
    | stop =>
      simp only [h.freed, Bool.false_eq_true, if_false]
      unfold St.abort
      split
      · exact h.told
      · simp only
        split
        · rw [show ({ St.post { s with aborted := true } .aborted with connecting := false } : St).answers = s.answers from
            (post_fields { s with aborted := true } .aborted).1]
          exact h.told
        · exact h.told
    | connected ok =>
      simp only
      split
      · rw [show ({ St.post s (if ok then .ok else .failed) with connecting := false } : St).answers = s.answers from
          (post_fields s (if ok then .ok else .failed)).1]
        exact h.told
      · exact h.told
    | take => simp only; split <;> exact h.told
    | run =>
      simp only
      split
      · next ec he =>
        simp only [h.freed, Bool.false_eq_true, if_false]
        unfold St.callback
        split
        · next j hj =>
          intro e hm
          rw [List.mem_append] at hm
          rcases hm with hm | hm
          · exact h.told e hm
          · simp only [List.mem_singleton, Prod.mk.injEq] at hm
            obtain ⟨rfl, rfl⟩ := hm
            rcases h.way hj with hw | hw
            · rw [he] at hw; cases hw
            · rw [he] at hw; cases hw; rfl
        · exact h.told
      · exact h.told
    | check v4 start =>
      simp only [h.freed, Bool.false_eq_true, if_false]
      have hk := h.asked
      have new : ∀ e : Ec, ∀ ec, (k, ec) ∈ s.answers ++ [(s.asked, e)] → ec = v := by
        intro e ec hm
        rw [List.mem_append] at hm
        rcases hm with hm | hm
        · exact h.told ec hm
        · simp at hm
          omega
      unfold St.check
      simp only
      split
      · exact new _
      · split
        · exact new _
        · have hp : ∀ ec : Ec, (St.post { s with asked := s.asked + 1, future := some s.asked } ec).answers = s.answers :=
            fun ec => (post_fields _ ec).1
          have hx : (St.connect p { s with asked := s.asked + 1, future := some s.asked } start).answers = s.answers := by
            unfold St.connect
            split
            · exact hp _
            · split
              · rfl
              · exact hp _
          rw [hx]
          exact h.told

theorem settled_run (p : Platform) {k : Nat} {v : Ec} (l : List Op) (hl : Op.free ∉ l) {s : St} (h : Settled k v s) :
    Settled k v (l.foldl (St.step p) s) := by
  induction l generalizing s with
  | nil => exact h
  | cons op l ih =>
    rw [List.foldl_cons]
    exact ih (fun hm => hl (by simp [hm])) (settled_step p h op (by rintro rfl; simp at hl))

/-- The end of a connect, and a stop, settle the result. -/
theorem settled_start (p : Platform) {k : Nat} {s : St} (hi : Inv s) (h : Under k s) (op : Op) (v : Ec)
    (ho : (op = .stop ∧ v = .aborted) ∨ (op = .connected true ∧ v = .ok) ∨ (op = .connected false ∧ v = .failed)) :
    Settled k v (s.step p op) := by
  have hne : op ≠ .free := by rcases ho with h | h | h <;> · rw [h.1]; simp
  obtain ⟨i1, i2, i3⟩ := inv_step p hi h.freed h.ub op hne
  have ia := asked_step p s h.freed h.ub op hne
  have hs : (s.step p op).event = .queued v ∧ (s.step p op).answers = s.answers := by
    rcases ho with ⟨rfl, rfl⟩ | ⟨rfl, rfl⟩ | ⟨rfl, rfl⟩ <;>
      simp [St.step, St.abort, St.post, h.ub, h.freed, h.aborted, h.connecting, h.event]
  refine ⟨i1, i2, i3, by rw [ia]; have := h.asked; omega, fun _ => .inl hs.1, ?_⟩
  intro ec hm
  rw [hs.2] at hm
  exact absurd hm (h.quiet ec)

end Verif.Net.Probe
