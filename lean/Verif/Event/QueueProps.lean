import Verif.Event.QueueLemmas

/-!
# C32: the order in which events run
-/

namespace Verif.Event

open Spec Util.Timestamp

/-- What is kept true: the queue holds what is pending, no event is pending twice, and no timer is `2^30` ms ahead. -/
structure Good (p : List Pending) (q : Queue) (last : Nat) : Prop where
  rep : Rep p q
  nodup : (p.map (·.event)).Nodup
  ahead : ∀ x ∈ p, ∀ t, x.when = .at t → t < last + 2 ^ 30

theorem Good.init : Good [] {} 0 := ⟨⟨rfl, rfl⟩, by simp, by simp⟩

theorem nodup_snoc_without {p : List Pending} (hd : (p.map (·.event)).Nodup) (e w) :
    ((without e p ++ [(⟨e, w⟩ : Pending)]).map (·.event)).Nodup := by
  rw [List.map_append, List.map_cons, List.map_nil, List.nodup_append]
  refine ⟨hd.sublist (List.filter_sublist.map _), by simp, ?_⟩
  intro a ha b hb
  simp only [List.mem_singleton] at hb
  subst hb
  obtain ⟨x, hx, rfl⟩ := List.mem_map.1 ha
  have := (List.mem_filter.1 hx).2
  simpa using this

theorem nodup_without' {p : List Pending} (hd : (p.map (·.event)).Nodup) (e) : ((without e p).map (·.event)).Nodup :=
  hd.sublist (List.filter_sublist.map _)

/-- One use of the queue returns what it should. -/
theorem Good.step {p q last} (g : Good p q last) {now op} (hl : last ≤ now)
    (hms : ∀ e ms, op = .postTimed e ms → ms < 2 ^ 30) (hov : ∀ x ∈ p, ∀ t, x.when = .at t → now < t + 2 ^ 30) :
    Allowed p now op (q.step now op).2 ∧ Good (after p now op (q.step now op).2) (q.step now op).1 now := by
  have hah : ∀ x ∈ p, ∀ t, x.when = .at t → t < now + 2 ^ 30 := fun x hx t ht => by
    have := g.ahead x hx t ht; omega
  have hwi : ∀ e, ∀ x ∈ without e p, x ∈ p := fun e x hx => (List.mem_filter.1 hx).1
  have hpost : ∀ e, Good (if ∃ x ∈ p, x.event = e then p else p ++ [⟨e, .soon⟩]) (q.post e).1 now := by
    intro e
    refine ⟨(g.rep.post e).1, ?_, ?_⟩
    · split
      · exact g.nodup
      · rename_i h
        rw [← without_of_not_mem h]
        exact nodup_snoc_without g.nodup e _
    · split
      · exact hah
      · intro x hx t ht
        rcases List.mem_append.1 hx with hx | hx
        · exact hah x hx t ht
        · simp at hx; subst hx; simp at ht
  cases op with
  | post e => exact ⟨rfl, hpost e⟩
  | postMaybeDouble e => exact ⟨⟨_, rfl, (g.rep.post e).2⟩, hpost e⟩
  | cancel e => exact ⟨rfl, g.rep.cancel e, nodup_without' g.nodup e, fun x hx => hah x (hwi e x hx)⟩
  | postTimed e ms =>
    have hm := hms e ms rfl
    have hst : future (stamp now) (UInt32.ofNat ms) = stamp (now + ms) := by simp [future, stamp]
    refine ⟨rfl, ?_, nodup_snoc_without g.nodup e _, ?_⟩
    · show Rep (without e p ++ [⟨e, .at (now + ms)⟩]) (q.postTimed e (future (stamp now) (UInt32.ofNat ms)))
      rw [hst]
      refine g.rep.postTimed e _ (fun x hx t ht => ?_)
      have h1 := hah x hx t ht
      have h2 := hov x hx t ht
      omega
    · intro x hx t ht
      rcases List.mem_append.1 hx with hx | hx
      · exact hah x (hwi e x hx) t ht
      · simp only [List.mem_singleton] at hx
        subst hx
        simp only [When.at.injEq] at ht
        omega
  | take =>
    have ht := g.rep.take g.nodup now (fun x hx t ht => by
      have h1 := hah x hx t ht
      have h2 := hov x hx t ht
      omega)
    simp only [Queue.step]
    cases hq : q.take (stamp now) with
    | none =>
      rw [hq] at ht
      exact ⟨⟨_, rfl, ht⟩, g.rep, g.nodup, hah⟩
    | some r =>
      rw [hq] at ht
      exact ⟨⟨_, rfl, ht.1⟩, ht.2, nodup_without' g.nodup _, fun x hx => hah x (hwi _ x hx)⟩

theorem Good.conforms {p q last h} (g : Good p q last) (hl : Legal p last h (q.run h)) : Conforms p h (q.run h) := by
  induction h generalizing p q last with
  | nil => exact .nil
  | cons x h ih =>
    obtain ⟨now, op⟩ := x
    simp only [Queue.run] at hl ⊢
    cases hl with
    | cons h1 h2 h3 h4 =>
      obtain ⟨ha, hg⟩ := g.step h1 h2 h3
      exact .cons ha (ih hg h4)

/-- **C32.** Every take from the queue returns the pending event that should run next: those posted without a timer in
the order they were posted, then those whose time has come, earliest first, and never one whose time has not come.
Posting an event that is pending has no effect, and `post_maybe_double` tells so. -/
theorem C32_conforms (h : List (Nat × Op)) (hl : Legal [] 0 h (Queue.run {} h)) : Conforms [] h (Queue.run {} h) :=
  Good.init.conforms hl

/-- How many takes there are. -/
def takes (h : List (Nat × Op)) : Nat := h.countP (fun x => x.2 == .take)

theorem count_without {f} {a : List Pending} (hfa : (⟨f, .soon⟩ : Pending) ∈ a) :
    (without f a).countP (fun x => x.when == .soon) < a.countP (fun x => x.when == .soon) := by
  induction a with
  | nil => simp at hfa
  | cons y a ih =>
    rcases List.mem_cons.1 hfa with rfl | hfa
    · have : (without f a).countP (fun x => x.when == .soon) ≤ a.countP (fun x => x.when == .soon) :=
        List.Sublist.countP_le List.filter_sublist
      have h2 : without f (⟨f, .soon⟩ :: a) = without f a := by simp [without]
      rw [h2, List.countP_cons_of_pos (by simp)]
      omega
    · have := ih hfa
      unfold without at *
      rw [List.filter_cons, List.countP_cons]
      split
      · rw [List.countP_cons]; omega
      · omega

theorem served {p h os} (hc : Conforms p h os) : ∀ {a b e}, p = a ++ ⟨e, .soon⟩ :: b →
    (∀ now, (now, .cancel e) ∉ h) → (∀ now ms, (now, .postTimed e ms) ∉ h) →
    a.countP (fun x => x.when == .soon) < takes h → .took (some e) ∈ os := by
  induction hc with
  | nil => intro a b e _ _ _ h; simp [takes] at h
  | @cons p now op o h os ha _ ih =>
    intro a b e hp hcan htim hk
    have hcan' : ∀ now, (now, .cancel e) ∉ h := fun n c => hcan n (List.mem_cons_of_mem _ c)
    have htim' : ∀ now ms, (now, .postTimed e ms) ∉ h := fun n m c => htim n m (List.mem_cons_of_mem _ c)
    have key : ∀ f, f ≠ e → without f p = without f a ++ ⟨e, .soon⟩ :: without f b := by
      intro f hf
      unfold without
      rw [hp, List.filter_append, List.filter_cons, if_pos (by simpa using fun c => hf c.symm)]
    have hle : ∀ f, (without f a).countP (fun x => x.when == .soon) ≤ a.countP (fun x => x.when == .soon) :=
      fun f => List.Sublist.countP_le List.filter_sublist
    cases op with
    | post f =>
      have hk' : a.countP (fun x => x.when == .soon) < takes h := by simpa [takes] using hk
      refine List.mem_cons_of_mem _ (ih (a := a) (b := if ∃ x ∈ p, x.event = f then b else b ++ [⟨f, .soon⟩]) ?_
        hcan' htim' hk')
      simp only [after]
      split
      · exact hp
      · rw [hp]; simp
    | postMaybeDouble f =>
      have hk' : a.countP (fun x => x.when == .soon) < takes h := by simpa [takes] using hk
      refine List.mem_cons_of_mem _ (ih (a := a) (b := if ∃ x ∈ p, x.event = f then b else b ++ [⟨f, .soon⟩]) ?_
        hcan' htim' hk')
      simp only [after]
      split
      · exact hp
      · rw [hp]; simp
    | cancel f =>
      have hf : f ≠ e := fun c => hcan now (by rw [c]; exact List.mem_cons_self)
      have hk' : a.countP (fun x => x.when == .soon) < takes h := by simpa [takes] using hk
      exact List.mem_cons_of_mem _ (ih (key f hf) hcan' htim' (Nat.lt_of_le_of_lt (hle f) hk'))
    | postTimed f ms =>
      have hf : f ≠ e := fun c => htim now ms (by rw [c]; exact List.mem_cons_self)
      have hk' : a.countP (fun x => x.when == .soon) < takes h := by simpa [takes] using hk
      refine List.mem_cons_of_mem _ (ih (a := without f a) (b := without f b ++ [⟨f, .at (now + ms)⟩]) ?_ hcan' htim'
        (Nat.lt_of_le_of_lt (hle f) hk'))
      simp only [after]
      rw [key f hf]
      simp
    | take =>
      have hk' : a.countP (fun x => x.when == .soon) < takes h + 1 := by simpa [takes] using hk
      obtain ⟨r, rfl, hn⟩ := ha
      have hmem : (⟨e, .soon⟩ : Pending) ∈ p := by rw [hp]; simp
      cases hn with
      | none hn =>
        obtain ⟨t, ht, _⟩ := hn _ hmem
        simp at ht
      | timed _ hn _ _ _ => exact absurd rfl (hn _ hmem)
      | @soon a' b' f h1 h2 =>
        by_cases hf : f = e
        · rw [hf]; exact List.mem_cons_self
        · refine List.mem_cons_of_mem _ (ih (key f hf) hcan' htim' ?_)
          -- the taken event was before `e`
          have hfa : (⟨f, .soon⟩ : Pending) ∈ a := by
            rw [hp] at h1
            rcases List.append_eq_append_iff.1 h1 with ⟨c, h3, h4⟩ | ⟨c, h3, h4⟩
            · cases c with
              | nil => simp at h4; exact absurd h4.1.symm hf
              | cons y c =>
                simp only [List.cons_append, List.cons.injEq] at h4
                exact absurd rfl (h2 ⟨e, .soon⟩ (by rw [h3]; simp [h4.1]))
            · cases c with
              | nil => simp at h4; exact absurd h4.1 hf
              | cons y c =>
                simp only [List.cons_append, List.cons.injEq] at h4
                rw [h3, ← h4.1]; simp
          have hlt := count_without hfa
          omega

theorem conforms_split {h1 h2 p os} (hc : Conforms p (h1 ++ h2) os) : ∃ p' os1 os2, os = os1 ++ os2 ∧
    os1.length = h1.length ∧ Conforms p' h2 os2 ∧
    p'.countP (fun x => x.when == .soon) ≤ p.countP (fun x => x.when == .soon) + h1.length := by
  induction h1 generalizing p os with
  | nil => exact ⟨p, [], os, rfl, rfl, hc, by simp⟩
  | cons x h1 ih =>
    rw [List.cons_append] at hc
    cases hc with
    | @cons _ now op o _ os ha hc' =>
      obtain ⟨p', os1, os2, e1, e2, e3, e4⟩ := ih hc'
      refine ⟨p', o :: os1, os2, by simp [e1], by simp [e2], e3, ?_⟩
      have hw : ∀ f, (without f p).countP (fun x => x.when == .soon) ≤ p.countP (fun x => x.when == .soon) :=
        fun f => List.Sublist.countP_le List.filter_sublist
      have : (after p now op o).countP (fun x => x.when == .soon) ≤ p.countP (fun x => x.when == .soon) + 1 := by
        cases op with
        | post f => simp only [after]; split <;> simp
        | postMaybeDouble f => simp only [after]; split <;> simp
        | cancel f => have := hw f; simp only [after]; omega
        | postTimed f ms => have := hw f; simp only [after]; rw [List.countP_append]; simp; omega
        | take =>
          cases o with
          | took r =>
            cases r with
            | none => simp [after]
            | some f => have := hw f; simp only [after]; omega
          | unit => simp [after]
          | bool _ => simp [after]
      simp only [List.length_cons]
      omega

/-- **C32, no starvation.** An event that `post_maybe_double` accepted is run after at most as many other events as there were
uses of the queue before, whatever is posted or cancelled meanwhile, unless it is cancelled or given a timer itself. -/
theorem C32_no_starvation (h1 h2 : List (Nat × Op)) (now e : Nat)
    (hl : Legal [] 0 (h1 ++ (now, .postMaybeDouble e) :: h2) (Queue.run {} (h1 ++ (now, .postMaybeDouble e) :: h2)))
    (hacc : (Queue.run {} (h1 ++ (now, .postMaybeDouble e) :: h2))[h1.length]? = some (.bool true))
    (hc : ∀ now, (now, .cancel e) ∉ h2) (ht : ∀ now ms, (now, .postTimed e ms) ∉ h2) (hk : h1.length < takes h2) :
    .took (some e) ∈ (Queue.run {} (h1 ++ (now, .postMaybeDouble e) :: h2)).drop (h1.length + 1) := by
  obtain ⟨p', os1, os2, e1, e2, e3, e4⟩ := conforms_split (C32_conforms _ hl)
  rw [e1] at hacc ⊢
  rw [← e2] at hacc ⊢
  cases e3 with
  | @cons _ _ _ o _ os ha hc' =>
    simp at hacc
    subst hacc
    obtain ⟨b, hb, hnot⟩ := ha
    simp only [Out.bool.injEq] at hb
    have hn : ¬ ∃ x ∈ p', x.event = e := by
      rintro ⟨x, hx, he⟩
      exact (hnot.1 hb.symm) x hx he
    simp only [after] at hc'
    rw [if_neg hn] at hc'
    have := served hc' (a := p') (b := []) rfl hc ht (by simp at e4; omega)
    simpa using this

/-! ## A concrete case -/

/-- A history: two events at once, one timer cancelled, two timers with the clock stamp wrapping in between. -/
def history : List (Nat × Op) :=
  [(4294967290, .post 1), (4294967290, .post 2), (4294967290, .post 1), (4294967291, .postTimed 3 20),
    (4294967291, .postTimed 4 10), (4294967291, .postTimed 5 5), (4294967292, .cancel 5),
    (4294967292, .postMaybeDouble 4), (4294967292, .take), (4294967300, .take), (4294967300, .take),
    (4294967301, .take), (4294967400, .take), (4294967400, .take)]

example : Queue.run {} history = [.unit, .unit, .unit, .unit, .unit, .unit, .unit, .bool false, .took (some 1),
    .took (some 2), .took none, .took (some 4), .took (some 3), .took none] := by decide +kernel

/-- A check of `Legal` for concrete histories. -/
def legalB : List Pending → Nat → List (Nat × Op) → List Out → Bool
  | _, _, [], [] => true
  | p, last, (now, op) :: h, o :: os =>
    decide (last ≤ now) && (match op with | .postTimed _ ms => decide (ms < 2 ^ 30) | _ => true) &&
    p.all (fun x => match x.when with | .at t => decide (now < t + 2 ^ 30) | .soon => true) &&
    legalB (after p now op o) now h os
  | _, _, _, _ => false

theorem legal_check : ∀ {h os p last}, legalB p last h os = true → Legal p last h os
  | [], [], _, _, _ => .nil
  | (now, op) :: h, o :: os, p, last, hb => by
    simp only [legalB, Bool.and_eq_true, decide_eq_true_eq] at hb
    refine .cons hb.1.1.1 ?_ ?_ (legal_check hb.2)
    · rintro e ms rfl
      simpa using hb.1.1.2
    · intro x hx t ht
      have := List.all_eq_true.1 hb.1.2 x hx
      rw [ht] at this
      simpa using this
  | [], _ :: _, _, _, hb => by simp [legalB] at hb
  | _ :: _, [], _, _, hb => by simp [legalB] at hb

example : Legal [] 0 history (Queue.run {} history) := legal_check (by decide +kernel)

/-- The hypotheses of `C32_no_starvation`: event 2 is posted after event 1, two takes follow. -/
example : Legal [] 0 ([(7, .post 1)] ++ (7, .postMaybeDouble 2) :: [(8, .post 3), (8, .take), (9, .take)])
    (Queue.run {} ([(7, .post 1)] ++ (7, .postMaybeDouble 2) :: [(8, .post 3), (8, .take), (9, .take)])) ∧
    (Queue.run {} ([(7, .post 1)] ++ (7, .postMaybeDouble 2) :: [(8, .post 3), (8, .take), (9, .take)]))[1]?
      = some (.bool true) ∧ 1 < takes [(8, .post 3), (8, .take), (9, .take)] :=
  ⟨legal_check (by decide +kernel), by decide +kernel, by decide⟩

/-- Without a bound on how late events run the order of timers is lost: a timer that is more than `2^31` ms overdue
looks like one in the future. -/
example : Queue.run {} [(0, .postTimed 1 5), (2 ^ 31 + 6, .take)] = [.unit, .took none] := by decide +kernel

end Verif.Event
