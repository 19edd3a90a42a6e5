import Verif.Coap.DriverSpec

/- Lemmas about the drivers of the CoAP library. -/
namespace Verif.Coap.Driver

open Spec

variable {L I : Type}

theorem run_snoc (k : Kind) (E : Lib L I) (l : L) (ops : List (Op I)) (op : Op I) :
    run k E l (ops ++ [op]) = (run k E l ops).step k E op := by simp [run]

theorem run_append (k : Kind) (E : Lib L I) (l : L) (a b : List (Op I)) :
    run k E l (a ++ b) = b.foldl (St.step k E) (run k E l a) := by simp [run]

theorem snoc_ind {P : List (Op I) → Prop} (h0 : P []) (h1 : ∀ ops op, P ops → P (ops ++ [op])) (ops : List (Op I)) : P ops := by
  have : ∀ l : List (Op I), P l.reverse := by
    intro l
    induction l with
    | nil => exact h0
    | cons a l ih => rw [List.reverse_cons]; exact h1 _ _ ih
  have h := this ops.reverse
  rwa [List.reverse_reverse] at h

/-! Stamps -/

/-- Stamps of times less than 2^31 apart are as far apart as the times. -/
theorem stampDiff_eq (a b : Nat) (h1 : a < b + 2 ^ 31) (h2 : b ≤ a + 2 ^ 31) : stampDiff (stamp a) (stamp b) = (a : Int) - b := by
  unfold stampDiff stamp
  simp only
  split <;> omega

theorem stampLess_eq (a b : Nat) (h1 : a < b + 2 ^ 31) (h2 : b ≤ a + 2 ^ 31) : stampLess (stamp a) (stamp b) = decide (a < b) := by
  unfold stampLess
  rw [stampDiff_eq a b h1 h2]
  apply decide_eq_decide.mpr
  omega

theorem stamp_add (a : Nat) : stamp (stamp a + 2 ^ 29) = stamp (a + 2 ^ 29) := by
  unfold stamp
  omega

/-! What holds always -/

structure Inv (s : St L) : Prop where
  buffer : s.inflight = true → s.buffer = true
  count : s.sent = s.done + if s.inflight then 1 else 0
  none : s.timer = Option.none → s.expiry = stamp (s.reset + 2 ^ 29)
  reset : s.reset ≤ s.now

theorem inv_event (k : Kind) (E : Lib L I) {s : St L} (h : Inv s) (env : Env) : Inv (s.event k E env) := by
  unfold St.event
  split
  · split
    · exact ⟨h.buffer, h.count, h.none, h.reset⟩
    · exact h
  · unfold St.handleSend
    split
    · exact h
    · next hb =>
      have hi : s.inflight = false := by
        rcases Bool.eq_false_or_eq_true s.inflight with hx | hx
        · exact absurd (h.buffer hx) hb
        · exact hx
      split
      · exact ⟨h.buffer, h.count, h.none, h.reset⟩
      · simp only
        split
        · refine ⟨fun _ => rfl, ?_, h.none, h.reset⟩
          have := h.count
          rw [hi] at this
          simp only [Bool.false_eq_true, if_false, Nat.add_zero] at this
          simp only [this]
        · exact ⟨h.buffer, h.count, h.none, h.reset⟩
  · unfold St.handleWait
    simp only
    split
    · refine ⟨h.buffer, h.count, ?_, h.reset⟩
      intro hx
      cases hx
    · exact h
  · exact h

theorem inv_step (k : Kind) (E : Lib L I) {s : St L} (h : Inv s) (op : Op I) : Inv (s.step k E op) := by
  cases op with
  | tick d => exact ⟨h.buffer, h.count, h.none, Nat.le_trans h.reset (Nat.le_add_right _ _)⟩
  | call i => exact ⟨h.buffer, h.count, h.none, h.reset⟩
  | packet i env =>
    exact inv_event k E (s := { s with lib := E.packet s.lib s.now i }) ⟨h.buffer, h.count, h.none, h.reset⟩ env
  | event env =>
    simp only [St.step]
    split
    · exact inv_event k E (s := { s with posted := false }) ⟨h.buffer, h.count, h.none, h.reset⟩ env
    · exact h
  | sent env =>
    simp only [St.step]
    split
    · next hi =>
      refine inv_event k E (s := { s with buffer := false, inflight := false, done := s.done + 1 })
        ⟨fun hx => (by cases hx), ?_, h.none, h.reset⟩ env
      have := h.count
      rw [if_pos hi] at this
      simp only [this, Bool.false_eq_true, if_false, Nat.add_zero]
    · exact h
  | fire env =>
    simp only [St.step]
    split
    · split
      · exact inv_event k E
          (s := { s with timer := none, expiry := stamp (stamp s.now + 2 ^ 29), reset := s.now, lib := E.timeout s.lib s.now,
                         timeouts := s.timeouts + 1 })
          ⟨h.buffer, h.count, fun _ => stamp_add s.now, Nat.le_refl _⟩ env
      · exact h
    · exact h

theorem inv_run (k : Kind) (E : Lib L I) (l : L) (ops : List (Op I)) : Inv (run k E l ops) := by
  induction ops using snoc_ind with
  | h0 => exact ⟨fun h => (by cases h), rfl, fun _ => (by decide : 2 ^ 29 = stamp (0 + 2 ^ 29)), Nat.le_refl _⟩
  | h1 ops op ih => rw [run_snoc]; exact inv_step k E ih op

/-! Attended -/

/-- The timer is for the time the expiry stands for, or for when it was set. -/
structure Timed (s : St L) : Prop where
  inv : Inv s
  took : s.buffer = true → s.inflight = true
  some : ∀ t, s.timer = Option.some t → ∃ e p, s.expiry = stamp e ∧ t = max p e ∧ p ≤ s.now ∧ p ≤ e + 2 ^ 29 ∧ e ≤ p + 2 ^ 29

/-- Looking after the library leaves it attended. -/
theorem event_attended (k : Kind) (E : Lib L I) (hs : k = .server → ∀ l, E.next l ≠ .callback) {s : St L} (h : Timed s)
    (env : Env) (ht : env.taken = true) (hlate : ∀ t, s.timer = Option.some t → s.now ≤ t + sixDays)
    (hp : Prompt E (s.event k E env)) (hb : Busy E (s.event k E env)) :
    Timed (s.event k E env) ∧ Attended E (s.event k E env) := by
  have hi := inv_event k E h.inv env
  revert hi hp hb
  unfold St.event
  split
  · next hn =>
    split
    · intro hp hb hi
      exact ⟨⟨hi, h.took, h.some⟩, .inr (.inl rfl)⟩
    · exact absurd hn (hs rfl _)
  · unfold St.handleSend
    split
    · next hbuf =>
      intro hp hb hi
      exact ⟨h, .inr (.inr (.inl (h.took hbuf)))⟩
    · split
      · intro hp hb hi
        exact ⟨⟨hi, h.took, h.some⟩, .inr (.inl rfl)⟩
      · simp only
        split
        · intro hp hb hi
          exact ⟨⟨hi, fun _ => ht, h.some⟩, .inr (.inr (.inl ht))⟩
        · intro hp hb hi
          exact ⟨⟨hi, h.took, h.some⟩, .inr (.inl rfl)⟩
  · next hn =>
    have hw : ∀ s' : St L, s' = s.handleWait E → s'.lib = s.lib ∧ s'.now = s.now := by
      intro s' e
      rw [e]
      unfold St.handleWait
      simp only
      split <;> exact ⟨rfl, rfl⟩
    intro hp hb hi
    obtain ⟨hl, hnow⟩ := hw _ rfl
    have hdue := hp.1 (by rw [hl]; exact hn)
    rw [hl, hnow] at hdue
    unfold sixDays at hdue hlate
    revert hb hi
    unfold St.handleWait
    simp only
    have hdiff : stampDiff (stamp (E.due s.lib)) (stamp s.now) = (E.due s.lib : Int) - s.now :=
      stampDiff_eq _ _ (by omega) (by omega)
    split
    · intro hb hi
      have htimer : s.now + (if stampDiff (stamp (E.due s.lib)) (stamp s.now) < 0 then 0
          else (stampDiff (stamp (E.due s.lib)) (stamp s.now)).toNat) = max s.now (E.due s.lib) := by
        rw [hdiff]
        split <;> omega
      rw [htimer] at hi ⊢
      refine ⟨⟨hi, h.took, ?_⟩, .inr (.inr (.inr ⟨hn, _, rfl, Nat.le_refl _⟩))⟩
      intro t e
      simp only [Option.some.injEq] at e
      subst e
      exact ⟨E.due s.lib, s.now, rfl, rfl, Nat.le_refl _, hdue.2, hdue.1⟩
    · next hless =>
      intro hb hi
      refine ⟨h, ?_⟩
      cases htm : s.timer with
      | none =>
        exfalso
        have hb' := hb hn htm
        unfold sixDays at hb'
        have hex := h.inv.none htm
        have hres := h.inv.reset
        apply hless
        rw [hex, stampLess_eq _ _ (by omega) (by omega)]
        simpa using hb'
      | some t =>
        obtain ⟨e, p, h1, h2, h3, h4, h5⟩ := h.some t htm
        have hl := hlate t htm
        rw [h1, stampLess_eq _ _ (by omega) (by omega)] at hless
        simp only [decide_eq_true_eq, Nat.not_lt] at hless
        exact .inr (.inr (.inr ⟨hn, t, htm, by omega⟩))
  · next hn =>
    intro hp hb hi
    exact ⟨h, .inl hn⟩

theorem attended_step (k : Kind) (E : Lib L I) (l0 : L) (hT : Tells k E l0) {s : St L} (h : Timed s) (ha : Attended E s)
    (hl : ∀ t, s.timer = Option.some t → s.now ≤ t + sixDays) (op : Op I) (ht : Takes op)
    (hp : Prompt E (s.step k E op)) (hb : Busy E (s.step k E op)) :
    Timed (s.step k E op) ∧ Attended E (s.step k E op) := by
  have hi := inv_step k E h.inv op
  cases op with
  | tick d =>
    refine ⟨⟨hi, h.took, ?_⟩, ?_⟩
    · intro t e
      obtain ⟨e, p, h1, h2, h3, h4⟩ := h.some t e
      exact ⟨e, p, h1, h2, Nat.le_trans h3 (Nat.le_add_right _ _), h4⟩
    · rcases ha with ha | ha | ha | ⟨ha, t, h1, h2⟩
      · exact .inl ha
      · exact .inr (.inl ha)
      · exact .inr (.inr (.inl ha))
      · refine .inr (.inr (.inr ⟨ha, t, h1, ?_⟩))
        simp only [St.step]
        omega
  | call i =>
    simp only [St.step] at *
    refine ⟨⟨hi, h.took, h.some⟩, ?_⟩
    rcases Bool.eq_false_or_eq_true (E.call s.lib s.now i).2 with hc | hc
    · exact .inr (.inl (by simp [hc]))
    · obtain ⟨c1, c2⟩ := hT.call s.lib s.now i hc
      rcases ha with ha | ha | ha | ⟨ha, t, h1, h2⟩
      · exact .inl (c1.trans ha)
      · exact .inr (.inl (by simp [ha]))
      · exact .inr (.inr (.inl ha))
      · refine .inr (.inr (.inr ⟨c1.trans ha, t, h1, ?_⟩))
        show t ≤ max s.now (E.due (E.call s.lib s.now i).1)
        rw [c2]
        exact h2
  | packet i env =>
    exact event_attended k E hT.server (s := { s with lib := E.packet s.lib s.now i })
      ⟨⟨h.inv.buffer, h.inv.count, h.inv.none, h.inv.reset⟩, h.took, h.some⟩ env ht hl hp hb
  | event env =>
    simp only [St.step] at *
    split
    · next hpo =>
      rw [if_pos hpo] at hp hb
      exact event_attended k E hT.server (s := { s with posted := false })
        ⟨⟨h.inv.buffer, h.inv.count, h.inv.none, h.inv.reset⟩, h.took, h.some⟩ env ht hl hp hb
    · exact ⟨h, ha⟩
  | sent env =>
    simp only [St.step] at *
    split
    · next hf =>
      rw [if_pos hf] at hp hb
      refine event_attended k E hT.server (s := { s with buffer := false, inflight := false, done := s.done + 1 })
        ⟨⟨fun hx => (by cases hx), ?_, h.inv.none, h.inv.reset⟩, fun hx => (by cases hx), h.some⟩ env ht hl hp hb
      have := h.inv.count
      rw [if_pos hf] at this
      simp only [this, Bool.false_eq_true, if_false, Nat.add_zero]
    · exact ⟨h, ha⟩
  | fire env =>
    simp only [St.step] at *
    cases htm : s.timer with
    | none => exact ⟨h, ha⟩
    | some t =>
      simp only [htm] at hp hb ⊢
      split
      · next hle =>
        rw [if_pos hle] at hp hb
        exact event_attended k E hT.server
          (s := { s with timer := none, expiry := stamp (stamp s.now + 2 ^ 29), reset := s.now, lib := E.timeout s.lib s.now,
                         timeouts := s.timeouts + 1 })
          ⟨⟨h.inv.buffer, h.inv.count, fun _ => stamp_add s.now, Nat.le_refl _⟩, h.took, fun t e => by cases e⟩ env ht
          (fun t e => by cases e) hp hb
      · exact ⟨h, ha⟩

end Verif.Coap.Driver
