import Verif.Event.QueueSpec

/-!
# The queue is the sorted list of what is pending
-/

namespace Verif.Event

open Spec Util.Timestamp

/-- The events to run as soon as possible. -/
def soons (p : List Pending) : List Nat := p.filterMap (fun x => match x.when with | .soon => some x.event | .at _ => none)

/-- The timed events with their instants. -/
def timers (p : List Pending) : List (Nat × Nat) :=
  p.filterMap (fun x => match x.when with | .soon => none | .at t => some (x.event, t))

/-- Insertion by instants. -/
def ins (x : Nat × Nat) : List (Nat × Nat) → List (Nat × Nat)
  | [] => [x]
  | y :: l => if x.2 ≤ y.2 then x :: y :: l else y :: ins x l

/-- Sorted by instants. -/
def sortT (l : List (Nat × Nat)) : List (Nat × Nat) := l.foldl (fun acc x => ins x acc) []

/-- An instant replaced by its stamp. -/
def stamped (x : Nat × Nat) : Nat × UInt32 := (x.1, stamp x.2)

/-- The queue that holds `p`. -/
structure Rep (p : List Pending) (q : Queue) : Prop where
  events : q.events = soons p
  timed : q.timed = (sortT (timers p)).map stamped

theorem sortT_append (l : List (Nat × Nat)) (x) : sortT (l ++ [x]) = ins x (sortT l) := by simp [sortT]

theorem mem_ins {x y l} : y ∈ ins x l ↔ y = x ∨ y ∈ l := by
  induction l with
  | nil => simp [ins]
  | cons z l ih =>
    simp only [ins]
    split
    · simp
    · simp only [List.mem_cons, ih]
      constructor
      · rintro (h | h | h) <;> simp [h]
      · rintro (h | h | h) <;> simp [h]

theorem snocInd {α} {P : List α → Prop} (h0 : P []) (h1 : ∀ l x, P l → P (l ++ [x])) (l : List α) : P l := by
  have : ∀ l : List α, P l.reverse := by
    intro l
    induction l with
    | nil => simpa using h0
    | cons x l ih => rw [List.reverse_cons]; exact h1 _ _ ih
  simpa using this l.reverse

theorem mem_sortT {y l} : y ∈ sortT l ↔ y ∈ l := by
  refine snocInd (P := fun l => y ∈ sortT l ↔ y ∈ l) (by simp [sortT]) (fun l x ih => ?_) l
  rw [sortT_append, mem_ins, ih]
  simp [or_comm]

theorem ins_sorted {x l} (h : List.Pairwise (fun a b : Nat × Nat => a.2 ≤ b.2) l) :
    List.Pairwise (fun a b : Nat × Nat => a.2 ≤ b.2) (ins x l) := by
  induction l with
  | nil => simp [ins]
  | cons y l ih =>
    simp only [ins]
    rw [List.pairwise_cons] at h
    split
    · rename_i hxy
      rw [List.pairwise_cons, List.pairwise_cons]
      refine ⟨fun a ha => ?_, h⟩
      rcases List.mem_cons.1 ha with rfl | ha
      · exact hxy
      · exact Nat.le_trans hxy (h.1 a ha)
    · rw [List.pairwise_cons]
      refine ⟨fun a ha => ?_, ih h.2⟩
      rcases mem_ins.1 ha with rfl | ha
      · omega
      · exact h.1 a ha

theorem sortT_sorted (l) : List.Pairwise (fun a b : Nat × Nat => a.2 ≤ b.2) (sortT l) := by
  refine snocInd (P := fun l => List.Pairwise _ (sortT l)) (by simp [sortT]) (fun l x ih => ?_) l
  rw [sortT_append]
  exact ins_sorted ih

theorem ins_head {x l} (h : ∀ y ∈ l, x.2 ≤ y.2) : ins x l = x :: l := by
  cases l with
  | nil => rfl
  | cons y l => simp [ins, h y (List.mem_cons_self)]

theorem filter_ins {P : Nat × Nat → Bool} {x l} (h : List.Pairwise (fun a b : Nat × Nat => a.2 ≤ b.2) l) :
    (ins x l).filter P = if P x then ins x (l.filter P) else l.filter P := by
  induction l with
  | nil => simp [ins, List.filter_cons]
  | cons y l ih =>
    rw [List.pairwise_cons] at h
    by_cases hxy : x.2 ≤ y.2
    · have e : ins x (y :: l) = x :: y :: l := by simp [ins, hxy]
      rw [e, List.filter_cons]
      split
      · rw [ins_head]
        intro z hz
        rcases List.mem_cons.1 (List.mem_filter.1 hz).1 with rfl | hz'
        · exact hxy
        · exact Nat.le_trans hxy (h.1 z hz')
      · rfl
    · have e : ins x (y :: l) = y :: ins x l := by simp [ins, hxy]
      rw [e, List.filter_cons, ih h.2, List.filter_cons]
      by_cases hy : P y = true
      · simp only [hy, if_true]
        by_cases hx : P x = true
        · simp [hx, ins, hxy]
        · simp [hx]
      · simp [hy]

theorem filter_sortT {P : Nat × Nat → Bool} (l) : (sortT l).filter P = sortT (l.filter P) := by
  refine snocInd (P := fun l => (sortT l).filter P = sortT (l.filter P)) (by simp [sortT]) (fun l x ih => ?_) l
  rw [sortT_append, filter_ins (sortT_sorted l), List.filter_append, ih]
  by_cases hx : P x = true
  · simp [hx, sortT_append]
  · simp [hx]

/-- The first of the sorted list: earliest, and of those the last in the original list. -/
theorem sortT_head {x r} (l) (h : sortT l = x :: r) :
    ∃ a b, l = a ++ x :: b ∧ (∀ y ∈ a, x.2 ≤ y.2) ∧ ∀ y ∈ b, x.2 < y.2 := by
  revert x r
  refine snocInd (P := fun l => ∀ {x r}, sortT l = x :: r → ∃ a b, l = a ++ x :: b ∧ (∀ y ∈ a, x.2 ≤ y.2) ∧
    ∀ y ∈ b, x.2 < y.2) (fun {x r} h => by simp [sortT] at h) (fun l z ih {x r} h => ?_) l
  rw [sortT_append] at h
  cases hs : sortT l with
  | nil =>
    rw [hs] at h
    simp only [ins, List.cons.injEq] at h
    have : l = [] := by
      cases l with
      | nil => rfl
      | cons a l =>
        have : a ∈ sortT (a :: l) := mem_sortT.2 (List.mem_cons_self)
        rw [hs] at this; simp at this
    subst this
    exact ⟨[], [], by simp [h.1], by simp, by simp⟩
  | cons y r' =>
    obtain ⟨a, b, e, h1, h2⟩ := ih hs
    rw [hs] at h
    simp only [ins] at h
    split at h
    · rename_i hz
      simp only [List.cons.injEq] at h
      obtain ⟨rfl, _⟩ := h
      refine ⟨l, [], by simp, fun w hw => ?_, by simp⟩
      rw [e] at hw
      rcases List.mem_append.1 hw with hw | hw
      · exact Nat.le_trans hz (h1 w hw)
      · rcases List.mem_cons.1 hw with rfl | hw
        · exact hz
        · exact Nat.le_trans hz (Nat.le_of_lt (h2 w hw))
    · simp only [List.cons.injEq] at h
      obtain ⟨rfl, _⟩ := h
      refine ⟨a, b ++ [z], by simp [e], h1, fun w hw => ?_⟩
      rcases List.mem_append.1 hw with hw | hw
      · exact h2 w hw
      · simp at hw; subst hw; omega

/-! ## Pending lists -/

theorem soons_append (a b) : soons (a ++ b) = soons a ++ soons b := by simp [soons]
theorem timers_append (a b) : timers (a ++ b) = timers a ++ timers b := by simp [timers]

theorem mem_soons {e p} : e ∈ soons p ↔ ⟨e, .soon⟩ ∈ p := by
  unfold soons
  rw [List.mem_filterMap]
  constructor
  · rintro ⟨⟨e', w⟩, h, h2⟩
    cases w <;> simp at h2
    subst h2; exact h
  · intro h; exact ⟨_, h, rfl⟩

theorem mem_timers {x p} : x ∈ timers p ↔ ⟨x.1, .at x.2⟩ ∈ p := by
  unfold timers
  rw [List.mem_filterMap]
  constructor
  · rintro ⟨⟨e', w⟩, h, h2⟩
    cases w <;> simp at h2
    subst h2; exact h
  · intro h; exact ⟨_, h, rfl⟩

theorem soons_without (e p) : soons (without e p) = (soons p).filter (fun x => x != e) := by
  induction p with
  | nil => rfl
  | cons x p ih =>
    obtain ⟨e', w⟩ := x
    unfold soons without at *
    by_cases h : e' = e <;> cases w <;> simp_all

theorem timers_without (e p) : timers (without e p) = (timers p).filter (fun x => x.1 != e) := by
  induction p with
  | nil => rfl
  | cons x p ih =>
    obtain ⟨e', w⟩ := x
    unfold timers without at *
    by_cases h : e' = e <;> cases w <;> simp_all

theorem timers_fst (p) : (timers p).map Prod.fst = (p.filter (fun x => x.when != .soon)).map (·.event) := by
  induction p with
  | nil => rfl
  | cons x p ih =>
    obtain ⟨e', w⟩ := x
    unfold timers at *
    cases w <;> simp_all

theorem ins_perm (x l) : (ins x l).Perm (x :: l) := by
  induction l with
  | nil => exact .refl _
  | cons y l ih =>
    simp only [ins]
    split
    · exact .refl _
    · exact (ih.cons y).trans (.swap x y l)

theorem sortT_perm (l) : (sortT l).Perm l := by
  refine snocInd (P := fun l => (sortT l).Perm l) (by simp [sortT]) (fun l x ih => ?_) l
  rw [sortT_append]
  exact (ins_perm _ _).trans ((ih.cons x).trans (List.perm_append_singleton x l).symm)

/-- An element of a `filterMap` comes from a place in the list. -/
theorem filterMap_split {α β} {f : α → Option β} {a' y b'} : ∀ (l : List α), l.filterMap f = a' ++ y :: b' →
    ∃ a x b, l = a ++ x :: b ∧ f x = some y ∧ a.filterMap f = a' ∧ b.filterMap f = b'
  | [], h => by simp at h
  | z :: l, h => by
    cases hz : f z with
    | none =>
      rw [List.filterMap_cons_none hz] at h
      obtain ⟨a, x, b, e, h1, h2, h3⟩ := filterMap_split l h
      exact ⟨z :: a, x, b, by simp [e], h1, by rw [List.filterMap_cons_none hz]; exact h2, h3⟩
    | some w =>
      rw [List.filterMap_cons_some hz] at h
      cases a' with
      | nil =>
        simp only [List.nil_append, List.cons.injEq] at h
        exact ⟨[], z, l, by simp, by rw [hz, h.1], rfl, h.2⟩
      | cons v a' =>
        simp only [List.cons_append, List.cons.injEq] at h
        obtain ⟨a, x, b, e, h1, h2, h3⟩ := filterMap_split l h.2
        exact ⟨z :: a, x, b, by simp [e], h1, by rw [List.filterMap_cons_some hz, h2, h.1], h3⟩

/-! ## Operations -/

theorem Rep.inList {p q} (r : Rep p q) (e : Nat) : q.inList e = true ↔ ∃ x ∈ p, x.event = e := by
  unfold Queue.inList
  rw [r.events, r.timed, Bool.or_eq_true, List.contains_iff_mem, mem_soons, List.any_eq_true]
  constructor
  · rintro (h | ⟨x, hx, he⟩)
    · exact ⟨_, h, rfl⟩
    · obtain ⟨y, hy, rfl⟩ := List.mem_map.1 hx
      have := mem_timers.1 (mem_sortT.1 hy)
      exact ⟨_, this, by simpa [stamped] using he⟩
  · rintro ⟨⟨e', w⟩, hx, rfl⟩
    cases w with
    | soon => exact .inl hx
    | «at» t =>
      right
      exact ⟨stamped (e', t), List.mem_map.2 ⟨_, mem_sortT.2 (mem_timers.2 hx), rfl⟩, by simp [stamped]⟩

theorem Rep.erase {p q} (r : Rep p q) (e : Nat) : Rep (without e p) (q.erase e) := by
  constructor
  · simp only [Queue.erase, r.events, soons_without]
  · simp only [Queue.erase, r.timed, timers_without, ← filter_sortT]
    rw [List.filter_map]
    rfl

theorem without_of_not_mem {e p} (h : ¬ ∃ x ∈ p, x.event = e) : without e p = p := by
  unfold without
  rw [List.filter_eq_self]
  intro x hx
  simp only [bne_iff_ne]
  exact fun c => h ⟨x, hx, c⟩

theorem Rep.cancel {p q} (r : Rep p q) (e : Nat) : Rep (without e p) (q.cancel e) := by
  unfold Queue.cancel
  split
  · exact r.erase e
  · rename_i h
    rw [without_of_not_mem (fun c => h ((r.inList e).2 c))]
    exact r

theorem Rep.post {p q} (r : Rep p q) (e : Nat) :
    Rep (if ∃ x ∈ p, x.event = e then p else p ++ [⟨e, .soon⟩]) (q.post e).1 ∧
    ((q.post e).2 = true ↔ ∀ x ∈ p, x.event ≠ e) := by
  unfold Queue.post
  by_cases h : ∃ x ∈ p, x.event = e
  · rw [if_pos h, if_pos ((r.inList e).2 h)]
    refine ⟨r, by simp, ?_⟩
    intro c
    obtain ⟨x, hx, he⟩ := h
    exact absurd he (c x hx)
  · rw [if_neg h, if_neg (fun c => h ((r.inList e).1 c))]
    refine ⟨⟨?_, ?_⟩, by simpa using h⟩
    · simp [r.events, soons]
    · simp [r.timed, timers]

theorem insert_stamped {e t : Nat} {l : List (Nat × Nat)} (h : ∀ y ∈ l, t < y.2 + 2 ^ 31 ∧ y.2 < t + 2 ^ 31) :
    Queue.insert e (stamp t) (l.map stamped) = (ins (e, t) l).map stamped := by
  induction l with
  | nil => rfl
  | cons y l ih =>
    obtain ⟨h1, h2⟩ := h y (List.mem_cons_self)
    simp only [List.map_cons, Queue.insert, ins]
    have hc : lessOrEqual (stamp t) (stamped y).2 = decide (t ≤ y.2) := C35_compare _ _ h1 h2
    rw [hc]
    by_cases hle : t ≤ y.2
    · simp [hle, stamped]
    · simp only [hle, decide_false, Bool.false_eq_true, if_false, List.map_cons]
      rw [ih (fun z hz => h z (List.mem_cons_of_mem _ hz))]

theorem Rep.postTimed {p q} (r : Rep p q) (e t : Nat)
    (h : ∀ x ∈ p, ∀ t', x.when = .at t' → t < t' + 2 ^ 31 ∧ t' < t + 2 ^ 31) :
    Rep (without e p ++ [⟨e, .at t⟩]) (q.postTimed e (stamp t)) := by
  have r' := r.cancel e
  have hm : ∀ x ∈ without e p, x ∈ p := fun x hx => (List.mem_filter.1 hx).1
  unfold Queue.postTimed
  unfold Queue.cancel at r'
  constructor
  · simp only [r'.events, soons_append]
    simp [soons]
  · simp only [r'.timed, timers_append]
    rw [insert_stamped]
    · rw [show timers [⟨e, .at t⟩] = [(e, t)] from rfl, sortT_append]
    · intro y hy
      exact h _ (hm _ (mem_timers.1 (mem_sortT.1 hy))) _ rfl

theorem nodup_without {p : List Pending} (hd : (p.map (·.event)).Nodup) {a x b} (h : p = a ++ x :: b) :
    without x.event p = a ++ b := by
  subst h
  simp only [List.map_append, List.map_cons] at hd
  rw [List.nodup_append, List.nodup_cons] at hd
  unfold without
  have h1 : a.filter (fun y => y.event != x.event) = a := by
    rw [List.filter_eq_self]
    intro y hy
    rw [bne_iff_ne]
    exact hd.2.2 _ (List.mem_map.2 ⟨y, hy, rfl⟩) _ (List.mem_cons_self)
  have h2 : b.filter (fun y => y.event != x.event) = b := by
    rw [List.filter_eq_self]
    intro y hy
    rw [bne_iff_ne]
    exact fun c => hd.2.1.1 (List.mem_map.2 ⟨y, hy, c⟩)
  rw [List.filter_append, List.filter_cons, h1, h2]
  simp

/-- Taking removes the event from the pending ones. -/
theorem Rep.take {p q} (r : Rep p q) (hd : (p.map (·.event)).Nodup) (now : Nat)
    (h : ∀ x ∈ p, ∀ t, x.when = .at t → t < now + 2 ^ 31 ∧ now < t + 2 ^ 31) :
    match q.take (stamp now) with
    | some (e, q') => Next p now (some e) ∧ Rep (without e p) q'
    | none => Next p now none := by
  unfold Queue.take Queue.takeEvent
  have he := r.events
  cases hq : q.events with
  | cons e l =>
    rw [hq] at he
    obtain ⟨a, x, b, e1, e2, e3, e4⟩ := filterMap_split (a' := []) p he.symm
    obtain ⟨e', w⟩ := x
    cases w with
    | «at» t => simp at e2
    | soon =>
      simp only [Option.some.injEq] at e2
      subst e2
      refine ⟨.soon e1 ?_, ?_⟩
      · intro y hy c
        have : y.event ∈ soons a := mem_soons.2 (by rw [← c]; exact hy)
        unfold soons at this
        rw [e3] at this
        simp at this
      · have hw := nodup_without hd e1
        simp only at hw
        rw [hw]
        constructor
        · rw [soons_append]
          show l = _
          unfold soons
          rw [e3, e4]
          rfl
        · rw [r.timed, e1, timers_append, timers_append]
          rfl
  | nil =>
    rw [hq] at he
    have hs : ∀ x ∈ p, x.when ≠ .soon := by
      intro y hy c
      have : y.event ∈ soons p := mem_soons.2 (by rw [← c]; exact hy)
      rw [← he] at this
      simp at this
    simp only [Queue.takeTimed]
    have ht := r.timed
    cases hs' : sortT (timers p) with
    | nil =>
      rw [hs'] at ht
      simp only [List.map_nil] at ht
      rw [ht]
      refine .none (fun y hy => ?_)
      obtain ⟨e', w⟩ := y
      cases w with
      | soon => exact absurd rfl (hs _ hy)
      | «at» t =>
        have : (e', t) ∈ sortT (timers p) := mem_sortT.2 (mem_timers.2 hy)
        rw [hs'] at this
        simp at this
    | cons x l =>
      obtain ⟨a', b', f1, f2, f3⟩ := sortT_head _ hs'
      obtain ⟨a, y, b, e1, e2, e3, e4⟩ := filterMap_split p f1
      obtain ⟨e', w⟩ := y
      cases w with
      | soon => simp at e2
      | «at» t =>
        simp only [Option.some.injEq] at e2
        subst e2
        have hmem : (⟨e', .at t⟩ : Pending) ∈ p := by rw [e1]; simp
        obtain ⟨h1, h2⟩ := h _ hmem t rfl
        rw [hs'] at ht
        simp only [List.map_cons, stamped] at ht
        rw [ht]
        simp only
        rw [C35_compare _ _ h1 h2]
        have ha : ∀ y ∈ a, ∀ t', y.when = .at t' → t ≤ t' := by
          intro y hy t' c
          have : (y.event, t') ∈ timers a := mem_timers.2 (by rw [← c]; exact hy)
          unfold timers at this
          rw [e3] at this
          exact f2 _ this
        have hb : ∀ y ∈ b, ∀ t', y.when = .at t' → t < t' := by
          intro y hy t' c
          have : (y.event, t') ∈ timers b := mem_timers.2 (by rw [← c]; exact hy)
          unfold timers at this
          rw [e4] at this
          exact f3 _ this
        by_cases hle : t ≤ now
        · rw [decide_eq_true hle, if_pos rfl]
          refine ⟨.timed e1 hs hle ha hb, ?_⟩
          have hw := nodup_without hd e1
          constructor
          · rw [soons_without, r.events]
            rw [List.filter_eq_self.2]
            intro z hz
            have := mem_soons.1 hz
            exact absurd rfl (hs _ this)
          · show List.map (fun x => (x.fst, stamp x.snd)) l = _
            rw [timers_without, ← filter_sortT, hs', List.filter_cons]
            simp only [bne_self_eq_false, Bool.false_eq_true, if_false]
            rw [List.filter_eq_self.2]
            · rfl
            · intro z hz
              rw [bne_iff_ne]
              intro c
              -- events in the sorted list are distinct
              have hnd : ((timers p).map Prod.fst).Nodup := by
                rw [timers_fst]
                exact hd.sublist (List.filter_sublist.map _)
              have h3 := ((sortT_perm (timers p)).map Prod.fst).nodup_iff.2 hnd
              rw [hs', List.map_cons, List.nodup_cons] at h3
              exact h3.1 (List.mem_map.2 ⟨z, hz, c⟩)
        · rw [decide_eq_false hle, if_neg (by simp)]
          refine .none (fun y hy => ?_)
          obtain ⟨e'', w⟩ := y
          cases w with
          | soon => exact absurd rfl (hs _ hy)
          | «at» t' =>
            refine ⟨t', rfl, ?_⟩
            rw [e1] at hy
            rcases List.mem_append.1 hy with hy | hy
            · have := ha _ hy t' rfl; omega
            · rcases List.mem_cons.1 hy with hy | hy
              · simp at hy; omega
              · have := hb _ hy t' rfl; omega

end Verif.Event
