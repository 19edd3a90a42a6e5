import Verif.Dtls.AttachLemmas

/-!
# Memory of the attach connection
-/

namespace Verif.Dtls.Attach

/-- The pointer of the attacher is good and nothing bad has happened. -/
structure Safe (s : St) : Prop where
  calm : s.crash = false
  ptr : ∀ i, s.dtls = some i → s.heap.any (fun c => c.id == i) = true
  up : s.up = true → s.dtls.isSome = true

theorem find_some_of_any {s : St} {i : Nat} (h : s.heap.any (fun c => c.id == i) = true) :
    ∃ c, s.heap.find? (fun c => c.id == i) = some c := by
  cases hf : s.heap.find? (fun c => c.id == i) with
  | some c => exact ⟨c, rfl⟩
  | none =>
    rw [List.find?_eq_none] at hf
    rw [List.any_eq_true] at h
    obtain ⟨c, hc, h⟩ := h
    exact absurd h (hf c hc)

theorem free_calm {s : St} {i : Nat} (h : s.heap.any (fun c => c.id == i) = true) (hc : s.crash = false) :
    (s.free i).crash = false := by
  unfold St.free; rw [if_pos h]; exact hc

theorem safe_step (l : Lib) (s : St) (o : Op) (hi : Inv l s)
    (hw : l = .wolf → ∀ w, o = .attempt w → w.sender = true ∧ w.sni = true ∧ w.domain = true)
    (h : Safe s) : Safe (step l s o) := by
  obtain ⟨h1, h2, h3⟩ := h
  by_cases ho : s.over = true
  · simp only [step, ho, if_true]; exact ⟨h1, h2, h3⟩
  have ho' : s.over = false := by simpa using ho
  simp only [step, ho', Bool.false_eq_true, if_false]
  cases o with
  | setRoots t k ok => simp only [St.setRoots]; split <;> exact ⟨h1, h2, h3⟩
  | disable => exact ⟨h1, h2, h3⟩
  | start h => simp only [St.start]; split <;> exact ⟨h1, h2, h3⟩
  | attempt w =>
    simp only [St.attempt]
    cases hh : s.host with
    | none => exact ⟨h1, h2, h3⟩
    | some h =>
      by_cases hu : s.up = true
      · simp only [hu, if_true]; exact ⟨h1, h2, h3⟩
      have hu' : s.up = false := by simpa using hu
      simp only [hu', Bool.false_eq_true, if_false]
      cases l with
      | mbed =>
        rcases attemptMbed_cases s hi.fresh h w with ⟨_, e⟩ | ⟨_, _, e⟩ | ⟨_, _, _, e⟩ | ⟨_, _, _, e⟩ <;> simp only [e]
        · exact ⟨h1, by simp, by simp [hu']⟩
        · exact ⟨h1, by simp, by simp [hu']⟩
        · exact ⟨h1, by simp, by simp [hu']⟩
        · refine ⟨h1, ?_, by simp⟩
          intro i hx
          simp only [Option.some.injEq] at hx
          simp [hx]
      | wolf =>
        obtain ⟨w1, w2, w3⟩ := hw rfl w rfl
        rcases attemptWolf_cases s hi.fresh h w with ⟨_, e⟩ | ⟨_, _, _, e⟩ | ⟨_, _, e⟩ | ⟨_, _, _, hx, e⟩ | ⟨_, _, _, _, e⟩ <;>
          simp only [e]
        · exact ⟨h1, by simp, by simp [hu']⟩
        · exact ⟨h1, by simp, by simp [hu']⟩
        · exact ⟨h1, by simp, by simp [hu']⟩
        · simp [w2, w3] at hx
        · refine ⟨by simp [h1, w1], ?_, by simp⟩
          intro i hx
          simp only [Option.some.injEq] at hx
          simp [hx]
  | answer x =>
    simp only [St.answer]
    split
    · exact ⟨h1, h2, h3⟩
    · split
      · exact ⟨h1, h2, h3⟩
      · rename_i i hd
        obtain ⟨c, hc⟩ := find_some_of_any (h2 i hd)
        rw [hc]
        simp only []
        split
        · exact ⟨h1, h2, h3⟩
        · exact ⟨h1, h2, h3⟩
  | packet =>
    simp only [St.packet]
    split
    · exact ⟨h1, h2, h3⟩
    · rename_i i hd
      rw [if_pos (h2 i hd)]; exact ⟨h1, h2, h3⟩
  | closed =>
    simp only [St.closed]
    split
    · exact ⟨h1, h2, h3⟩
    · split
      · rename_i hd
        exact ⟨h1, fun i hx => h2 i hx, by simp⟩
      · rename_i i hd
        exact ⟨free_calm (h2 i hd) h1, by simp, by simp⟩
  | deinit =>
    simp only [St.deinit]
    split
    · exact ⟨h1, fun i hx => h2 i hx, by simp⟩
    · rename_i i hd
      exact ⟨free_calm (h2 i hd) h1, by simp, by simp⟩

theorem safe_run (l : Lib) (ops : List Op)
    (hw : l = .wolf → ∀ w, .attempt w ∈ ops → w.sender = true ∧ w.sni = true ∧ w.domain = true) :
    Safe (run l ops) := by
  revert hw
  refine snoc_ind (P := fun ops => (l = .wolf → ∀ w, .attempt w ∈ ops → w.sender = true ∧ w.sni = true ∧ w.domain = true) →
    Safe (run l ops)) ?_ ?_ ops
  · intro _; exact ⟨rfl, by simp [run, runFrom, init], by simp [run, runFrom, init]⟩
  · intro ops o ih hw
    rw [run_snoc]
    exact safe_step l _ o (inv_run l ops) (fun hl w ho => hw hl w (by simp [ho]))
      (ih (fun hl w hm => hw hl w (List.mem_append_left _ hm)))

/-- The heap has the connection in use and nothing else. -/
structure Tidy (s : St) : Prop where
  idle : s.up = false → s.heap = [] ∧ s.dtls = none
  busy : s.up = true → ∃ c, s.heap = [c] ∧ s.dtls = some c.id

theorem tidy_step (l : Lib) (s : St) (o : Op) (hi : Inv l s)
    (hw : ∀ w, o = .attempt w → w.timer = true ∧ w.start = true ∧ w.sender = true ∧
      (l = .wolf → w.sni = true ∧ w.domain = true))
    (h : Tidy s) : Tidy (step l s o) := by
  obtain ⟨h1, h2⟩ := h
  by_cases ho : s.over = true
  · simp only [step, ho, if_true]; exact ⟨h1, h2⟩
  have ho' : s.over = false := by simpa using ho
  simp only [step, ho', Bool.false_eq_true, if_false]
  cases o with
  | setRoots t k ok => simp only [St.setRoots]; split <;> exact ⟨h1, h2⟩
  | disable => exact ⟨h1, h2⟩
  | start h => simp only [St.start]; split <;> exact ⟨h1, h2⟩
  | attempt w =>
    obtain ⟨w1, w2, w3, w4⟩ := hw w rfl
    simp only [St.attempt]
    cases hh : s.host with
    | none => exact ⟨h1, h2⟩
    | some h =>
      by_cases hu : s.up = true
      · simp only [hu, if_true]; exact ⟨h1, h2⟩
      have hu' : s.up = false := by simpa using hu
      obtain ⟨hp, hd⟩ := h1 hu'
      simp only [hu', Bool.false_eq_true, if_false]
      cases l with
      | mbed =>
        rcases attemptMbed_cases s hi.fresh h w with ⟨_, e⟩ | ⟨_, hx, e⟩ | ⟨_, _, _, e⟩ | ⟨_, _, _, e⟩
        · simp only [e]; exact ⟨fun _ => ⟨hp, rfl⟩, by simp [hu']⟩
        · simp [w1, w2, w3] at hx
        · simp only [e]; exact ⟨fun _ => ⟨hp, rfl⟩, by simp [hu']⟩
        · simp only [e]; exact ⟨by simp, fun _ => ⟨_, by rw [hp], rfl⟩⟩
      | wolf =>
        obtain ⟨w5, w6⟩ := w4 rfl
        rcases attemptWolf_cases s hi.fresh h w with ⟨_, e⟩ | ⟨_, _, hx, e⟩ | ⟨_, _, e⟩ | ⟨_, _, _, hx, e⟩ | ⟨_, _, _, _, e⟩
        · simp only [e]; exact ⟨fun _ => ⟨hp, rfl⟩, by simp [hu']⟩
        · simp [w2] at hx
        · simp only [e]; exact ⟨fun _ => ⟨hp, rfl⟩, by simp [hu']⟩
        · simp [w5, w6] at hx
        · simp only [e]; exact ⟨by simp, fun _ => ⟨_, by rw [hp], rfl⟩⟩
  | answer x =>
    simp only [St.answer]
    split
    · exact ⟨h1, h2⟩
    · split
      · exact ⟨h1, h2⟩
      · split
        · exact ⟨h1, h2⟩
        · split <;> exact ⟨h1, h2⟩
  | packet =>
    simp only [St.packet]
    split
    · exact ⟨h1, h2⟩
    · split <;> exact ⟨h1, h2⟩
  | closed =>
    simp only [St.closed]
    cases hu : s.up with
    | false => simp only [Bool.not_false, if_true]; exact ⟨h1, h2⟩
    | true =>
      obtain ⟨c, e1, e2⟩ := h2 hu
      simp only [e2, Bool.not_true, Bool.false_eq_true, if_false]
      refine ⟨fun _ => ⟨?_, rfl⟩, by simp⟩
      simp [free_heap, e1]
  | deinit =>
    simp only [St.deinit]
    cases hu : s.up with
    | false =>
      obtain ⟨e1, e2⟩ := h1 hu
      simp only [e2]
      exact ⟨fun _ => ⟨e1, rfl⟩, by simp⟩
    | true =>
      obtain ⟨c, e1, e2⟩ := h2 hu
      simp only [e2]
      refine ⟨fun _ => ⟨?_, rfl⟩, by simp⟩
      simp [free_heap, e1]

theorem tidy_run (l : Lib) (ops : List Op) (he : Spec.eventsWork ops) (hn : l = .wolf → Spec.namesWork ops) :
    Tidy (run l ops) := by
  revert he hn
  refine snoc_ind (P := fun ops => Spec.eventsWork ops → (l = .wolf → Spec.namesWork ops) → Tidy (run l ops)) ?_ ?_ ops
  · intro _ _; exact ⟨fun _ => ⟨rfl, rfl⟩, by simp [run, runFrom, init]⟩
  · intro ops o ih he hn
    rw [run_snoc]
    refine tidy_step l _ o (inv_run l ops) ?_
      (ih (fun w hm => he w (List.mem_append_left _ hm)) (fun hl w hm => hn hl w (List.mem_append_left _ hm)))
    intro w ho
    obtain ⟨a, b, c⟩ := he w (by simp [ho])
    exact ⟨a, b, c, fun hl => hn hl w (by simp [ho])⟩

/-- A connection is on the heap and nobody knows it. -/
structure Lost (i : Nat) (s : St) : Prop where
  old : i < s.next
  there : s.heap.any (fun c => c.id == i) = true
  unknown : s.dtls ≠ some i

theorem any_cons_of {r : List Conn} {i : Nat} (c : Conn) (h : r.any (fun c => c.id == i) = true) :
    (c :: r).any (fun c => c.id == i) = true := by
  simp only [List.any_cons, h, Bool.or_true]

theorem any_filter {r : List Conn} {i j : Nat} (hne : i ≠ j) (h : r.any (fun c => c.id == i) = true) :
    (r.filter (fun c => c.id != j)).any (fun c => c.id == i) = true := by
  rw [List.any_eq_true] at h ⊢
  obtain ⟨c, hc, he⟩ := h
  refine ⟨c, List.mem_filter.2 ⟨hc, ?_⟩, he⟩
  have : c.id = i := by simpa using he
  simp [this, hne]

theorem lost_step (l : Lib) (s : St) (o : Op) (i : Nat) (hi : Inv l s) (h : Lost i s) : Lost i (step l s o) := by
  obtain ⟨h1, h2, h3⟩ := h
  by_cases ho : s.over = true
  · simp only [step, ho, if_true]; exact ⟨h1, h2, h3⟩
  have ho' : s.over = false := by simpa using ho
  simp only [step, ho', Bool.false_eq_true, if_false]
  have hne : (some s.next : Option Nat) ≠ some i := by simp; omega
  have hle : i < s.next + 1 := Nat.lt_succ_of_lt h1
  cases o with
  | setRoots t k ok => simp only [St.setRoots]; split <;> exact ⟨h1, h2, h3⟩
  | disable => exact ⟨h1, h2, h3⟩
  | start h => simp only [St.start]; split <;> exact ⟨h1, h2, h3⟩
  | attempt w =>
    simp only [St.attempt]
    cases hh : s.host with
    | none => exact ⟨h1, h2, h3⟩
    | some h =>
      by_cases hu : s.up = true
      · simp only [hu, if_true]; exact ⟨h1, h2, h3⟩
      have hu' : s.up = false := by simpa using hu
      simp only [hu', Bool.false_eq_true, if_false]
      cases l with
      | mbed =>
        rcases attemptMbed_cases s hi.fresh h w with ⟨_, e⟩ | ⟨_, hx, e⟩ | ⟨_, _, _, e⟩ | ⟨_, _, _, e⟩ <;> simp only [e]
        · exact ⟨h1, h2, by simp⟩
        · exact ⟨hle, any_cons_of _ h2, by simp⟩
        · exact ⟨hle, h2, by simp⟩
        · exact ⟨hle, any_cons_of _ h2, hne⟩
      | wolf =>
        rcases attemptWolf_cases s hi.fresh h w with ⟨_, e⟩ | ⟨_, _, hx, e⟩ | ⟨_, _, e⟩ | ⟨_, _, _, hx, e⟩ | ⟨_, _, _, _, e⟩ <;>
          simp only [e]
        · exact ⟨h1, h2, by simp⟩
        · exact ⟨hle, any_cons_of _ h2, by simp⟩
        · exact ⟨hle, h2, by simp⟩
        · exact ⟨hle, h2, hne⟩
        · exact ⟨hle, any_cons_of _ h2, hne⟩
  | answer x =>
    simp only [St.answer]
    split
    · exact ⟨h1, h2, h3⟩
    · split
      · exact ⟨h1, h2, h3⟩
      · split
        · exact ⟨h1, h2, h3⟩
        · split <;> exact ⟨h1, h2, h3⟩
  | packet =>
    simp only [St.packet]
    split
    · exact ⟨h1, h2, h3⟩
    · split <;> exact ⟨h1, h2, h3⟩
  | closed =>
    simp only [St.closed]
    split
    · exact ⟨h1, h2, h3⟩
    · split
      · exact ⟨h1, h2, h3⟩
      · rename_i j hd
        have hij : i ≠ j := fun e => h3 (by rw [hd, e])
        refine ⟨?_, ?_, by simp⟩
        · simp only [(free_same s j).1]; exact h1
        · simp only [free_heap]; exact any_filter hij h2
  | deinit =>
    simp only [St.deinit]
    split
    · exact ⟨h1, h2, h3⟩
    · rename_i j hd
      have hij : i ≠ j := fun e => h3 (by rw [hd, e])
      refine ⟨?_, ?_, by simp⟩
      · simp only [(free_same s j).1]; exact h1
      · simp only [free_heap]; exact any_filter hij h2

theorem lost_runFrom (l : Lib) (s : St) (ops : List Op) (i : Nat) (hi : Inv l s) (h : Lost i s) :
    Lost i (runFrom l s ops) := by
  induction ops generalizing s with
  | nil => exact h
  | cons o r ih => exact ih _ (inv_step l s o hi) (lost_step l s o i hi h)

end Verif.Dtls.Attach
