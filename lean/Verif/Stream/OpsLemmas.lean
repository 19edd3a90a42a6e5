import Verif.Stream.OpsSpec

/-!
# Operations on a stream (lemmas)
-/

namespace Verif.Stream

open Spec

variable {E : Type}

/-- A property of history, state and outputs which holds at the start and is preserved by every step holds
after every history. -/
theorem run_ind (P : List (Op E) → St E → List (Out E) → Prop) (s0 : St E) (h0 : P [] s0 [])
    (hs : ∀ ops s os op, P ops s os → P (ops ++ [op]) (step s op).1 (os ++ (step s op).2))
    (ops : List (Op E)) : P ops (run s0 ops).1 (run s0 ops).2 := by
  suffices h : ∀ ops pre s os, P pre s os → P (pre ++ ops) (run s ops).1 (os ++ (run s ops).2) by
    simpa using h ops [] s0 [] h0
  intro ops
  induction ops with
  | nil => intro pre s os h; simpa [run] using h
  | cons op ops ih =>
    intro pre s os h
    have := ih (pre ++ [op]) _ _ (hs pre s os op h)
    simpa [run, List.append_assoc] using this

theorem run_append (s : St E) (as bs : List (Op E)) :
    run s (as ++ bs) = ((run (run s as).1 bs).1, (run s as).2 ++ (run (run s as).1 bs).2) := by
  induction as generalizing s with
  | nil => simp [run]
  | cons a as ih => simp [run, ih, List.append_assoc]

theorem started_append (as bs : List (Op E)) : started (as ++ bs) = started as ++ started bs := by
  simp [started]

theorem completed_append (as bs : List (Out E)) :
    completed (as ++ bs) = completed as ++ completed bs := by
  simp [completed]

@[simp] theorem completed_nil : completed ([] : List (Out E)) = [] := rfl
@[simp] theorem completed_done (e : E) (ec : Ec) (g : List UInt8) (os : List (Out E)) :
    completed (.done e ec g :: os) = e :: completed os := rfl
@[simp] theorem completed_take (e : E) (b : List UInt8) (os : List (Out E)) :
    completed (.take e b :: os) = completed os := rfl
@[simp] theorem completed_put (e : E) (b : List UInt8) (os : List (Out E)) :
    completed (.put e b :: os) = completed os := rfl
@[simp] theorem completed_accept (os : List (Out E)) : completed (.accept :: os) = completed os := rfl
@[simp] theorem completed_close (os : List (Out E)) : completed (.close :: os) = completed os := rfl
@[simp] theorem completed_rst (os : List (Out E)) : completed (.rst :: os) = completed os := rfl

/-- The operations which are waiting. -/
def pending (s : St E) : List E :=
  s.acceptEv.toList ++ s.readAllEv.toList ++ s.readSomeEv.toList ++ s.writeEv.toList ++
    s.closeEv.toList

/-- At most one read is waiting, and nothing is waiting on a stopped stream. -/
structure Inv (s : St E) : Prop where
  one : s.readAllEv = none ∨ s.readSomeEv = none
  quiet : s.stopped = true → pending s = []

theorem inv_init : Inv (St.init : St E) := ⟨.inl rfl, fun h => by simp [St.init] at h⟩

/-- How often an operation is waiting. -/
def cnt [DecidableEq E] (s : St E) (e : E) : Nat := (pending s).count e

theorem cnt_eq [DecidableEq E] (s : St E) (e : E) :
    cnt s e = s.acceptEv.toList.count e + s.readAllEv.toList.count e + s.readSomeEv.toList.count e +
      s.writeEv.toList.count e + s.closeEv.toList.count e := by
  simp [cnt, pending, List.count_append]; omega

/-- What the parts of a step do to the operations: none is lost, none is added. -/
structure Keeps [DecidableEq E] (s : St E) (r : St E × List (Out E)) : Prop where
  count : ∀ e, (completed r.2).count e + cnt r.1 e = cnt s e
  stopped : r.1.stopped = s.stopped
  one : (s.readAllEv = none ∨ s.readSomeEv = none) → (r.1.readAllEv = none ∨ r.1.readSomeEv = none)

variable [DecidableEq E]

theorem keeps_refl (s : St E) : Keeps s (s, []) := ⟨by simp, rfl, id⟩

theorem doRead_keeps (s : St E) (r : Rd) : Keeps s (doRead s r) := by
  unfold doRead
  split
  · rename_i e he
    split
    · dsimp only
      split
      · exact keeps_refl s
      · split
        · refine ⟨fun e' => ?_, ?_, ?_⟩ <;>
            simp [resolveRead, note, he, cnt_eq, List.count_cons] <;> omega
        · refine ⟨fun e' => ?_, ?_, ?_⟩ <;>
            simp [note, he, cnt_eq]
    · refine ⟨fun e' => ?_, ?_, ?_⟩ <;>
        simp [resolveRead, he, cnt_eq, List.count_cons] <;> omega
  · rename_i he
    split
    · rename_i e he'
      split
      · dsimp only
        split
        · exact keeps_refl s
        · refine ⟨fun e' => ?_, ?_, ?_⟩ <;>
            simp [resolveRead, note, he, he', cnt_eq, List.count_cons] <;>
            omega
      · refine ⟨fun e' => ?_, ?_, ?_⟩ <;>
          simp [resolveRead, he, he', cnt_eq, List.count_cons] <;> omega
    · exact keeps_refl s

theorem doWriteAll_keeps (s : St E) (w : Wr) : Keeps s (doWriteAll s w) := by
  unfold doWriteAll
  split
  · exact keeps_refl s
  · rename_i e he
    split
    · dsimp only
      split
      · exact keeps_refl s
      · split
        · refine ⟨fun e' => ?_, rfl, id⟩
          simp [he, cnt_eq, List.count_cons]; omega
        · refine ⟨fun e' => ?_, rfl, id⟩
          simp [he, cnt_eq]
    · refine ⟨fun e' => ?_, rfl, id⟩
      simp [he, cnt_eq, List.count_cons]; omega

theorem count_finish (ev : Option E) (ec : Ec) (e : E) :
    (completed (finish ev ec)).count e = ev.toList.count e := by
  cases ev <;> simp [finish]

theorem streamClosed_keeps (s : St E) (w : Wr) (r : Rd) (st : Status) :
    Keeps s (streamClosed s w r st) := by
  have h1 := doWriteAll_keeps s w
  unfold streamClosed
  generalize hw : doWriteAll s w = sw at h1
  obtain ⟨s1, o1⟩ := sw
  have h2 := doRead_keeps { s1 with acceptEv := none } r
  generalize hr : doRead { s1 with acceptEv := none } r = sr at h2
  obtain ⟨s3, o3⟩ := sr
  dsimp only at *
  simp only [hr]
  have hst : s3.stopped = s.stopped := by rw [h2.stopped]; exact h1.stopped
  have hone := fun h => h2.one (h1.one h)
  split
  · rename_i hc
    refine ⟨fun e => ?_, hst, hone⟩
    have a := h1.count e
    have b := h2.count e
    simp only [cnt_eq, completed_append, List.count_append, count_finish] at *
    simp at b
    omega
  · rename_i e' hc
    split
    · refine ⟨fun e => ?_, hst, hone⟩
      have a := h1.count e
      have b := h2.count e
      simp only [cnt_eq, completed_append, List.count_append, count_finish] at *
      simp at *
      omega
    · refine ⟨fun e => ?_, hst, hone⟩
      have a := h1.count e
      have b := h2.count e
      simp only [cnt_eq, completed_append, List.count_append, count_finish] at *
      simp [hc] at *
      omega

/-- What a step does to the operations. -/
structure Eff (s : St E) (op : Op E) (r : St E × List (Out E)) : Prop where
  inv : Inv r.1
  count : ∀ e, (completed r.2).count e + cnt r.1 e = cnt s e + (started [op]).count e

theorem inv_of_keeps {s : St E} {r : St E × List (Out E)} (h : Keeps s r) (hs : s.stopped = false)
    (h1 : s.readAllEv = none ∨ s.readSomeEv = none) : Inv r.1 :=
  ⟨h.one h1, fun hh => by rw [h.stopped, hs] at hh; cases hh⟩

/-- A step which only answers its own operation. -/
theorem eff_answer {s : St E} {op : Op E} {e : E} {ec : Ec} (h : Inv s)
    (hop : started [op] = [e]) : Eff s op (s, [.done e ec []]) :=
  ⟨h, fun e' => by simp [hop]; omega⟩

theorem eff_event {s : St E} {op : Op E} {f : St E → St E × List (Out E)} (h : Inv s)
    (hop : started [op] = []) (hf : Keeps s (f s)) : Eff s op (event s f) := by
  unfold event
  split
  · exact ⟨h, fun e => by simp [hop]⟩
  · rename_i hs
    refine ⟨inv_of_keeps hf (by simpa using hs) h.one, fun e => ?_⟩
    simp [hop, hf.count e]

theorem eff_stop {s : St E} {op : Op E} (b : Bool) (h : Inv s) (hop : started [op] = []) :
    Eff s op (stop s b) := by
  unfold stop
  split
  · exact ⟨h, fun e => by simp [hop]⟩
  · refine ⟨⟨.inl rfl, fun _ => rfl⟩, fun e => ?_⟩
    have e1 : completed (if b && s.conn then [(Out.rst : Out E)] else []) = [] := by
      split <;> simp
    have e2 : ∀ (ev : Option E) g, (completed (match (generalizing := false) ev with
        | some e => [Out.done e .aborted g] | none => [])).count e = ev.toList.count e := by
      intro ev g; cases ev <;> simp
    simp only [completed_append, List.count_append, e1, count_finish, hop]
    simp only [cnt_eq]
    cases h1 : s.readAllEv <;> cases h2 : s.readSomeEv <;> simp

theorem step_eff (s : St E) (h : Inv s) (op : Op E) : Eff s op (step s op) := by
  cases op with
  | accept e =>
    simp only [step, asyncAccept]
    split
    · exact eff_answer h rfl
    · split
      · exact eff_answer h rfl
      · rename_i hs ha
        refine ⟨⟨h.one, fun hh => absurd hh hs⟩, fun e' => ?_⟩
        have : s.acceptEv = none := by simpa using ha
        simp [cnt_eq, this, started, start]; omega
  | readAll e n r =>
    simp only [step, asyncReadAll]
    split
    · exact eff_answer h rfl
    · split
      · exact eff_answer h rfl
      · rename_i hs ha
        have ha : s.readAllEv = none ∧ s.readSomeEv = none := by simpa using ha
        have hk := doRead_keeps { s with readAllEv := some e, readLeft := n, got := [] } r
        refine ⟨inv_of_keeps hk (by simpa using hs) (.inr ha.2), fun e' => ?_⟩
        rw [hk.count e']
        simp [cnt_eq, ha, started, start]; omega
  | readSome e n r =>
    simp only [step, asyncReadSome]
    split
    · exact eff_answer h rfl
    · split
      · exact eff_answer h rfl
      · rename_i hs ha
        have ha : s.readAllEv = none ∧ s.readSomeEv = none := by simpa using ha
        have hk := doRead_keeps { s with readSomeEv := some e, readLeft := n, got := [] } r
        refine ⟨inv_of_keeps hk (by simpa using hs) (.inl ha.1), fun e' => ?_⟩
        rw [hk.count e']
        simp [cnt_eq, ha, started, start]; omega
  | write e d w =>
    simp only [step, asyncWrite]
    split
    · exact eff_answer h rfl
    · split
      · exact eff_answer h rfl
      · split
        · exact eff_answer h rfl
        · rename_i hs ha hc
          have ha : s.writeEv = none := by simpa using ha
          have hk := doWriteAll_keeps { s with writeEv := some e, writeLeft := d } w
          refine ⟨inv_of_keeps hk (by simpa using hs) h.one, fun e' => ?_⟩
          rw [hk.count e']
          simp [cnt_eq, ha, started, start]; omega
  | close e st =>
    simp only [step, asyncClose]
    split
    · exact eff_answer h rfl
    · split
      · exact eff_answer h rfl
      · rename_i hs ha
        have ha : s.closeEv = none := by simpa using ha
        split
        · refine ⟨⟨h.one, fun hh => absurd hh hs⟩, fun e' => ?_⟩
          simp [cnt_eq, ha, started, start]
        · refine ⟨⟨h.one, fun hh => absurd hh hs⟩, fun e' => ?_⟩
          simp [cnt_eq, started, start]; omega
  | opened =>
    simp only [step]
    refine eff_event h rfl ⟨fun e => ?_, rfl, id⟩
    simp only [count_finish, cnt_eq]; simp; omega
  | dataReady r => simp only [step]; exact eff_event h rfl (doRead_keeps s r)
  | dataWrite w => simp only [step]; exact eff_event h rfl (doWriteAll_keeps s w)
  | readClosed r => simp only [step]; exact eff_event h rfl (doRead_keeps s r)
  | writeClosed =>
    simp only [step]
    refine eff_event h rfl ⟨fun e => ?_, rfl, id⟩
    simp only [count_finish, cnt_eq]; simp; omega
  | streamClosed w r st => simp only [step]; exact eff_event h rfl (streamClosed_keeps s w r st)
  | stop rst => exact eff_stop rst h rfl
  | connClosed =>
    have := eff_stop (op := (Op.connClosed : Op E)) (s := { s with conn := false }) false
      ⟨h.one, h.quiet⟩ rfl
    exact ⟨this.inv, fun e => by rw [step, this.count e]; simp [cnt_eq]⟩

theorem run_inv (ops : List (Op E)) : Inv (run St.init ops).1 :=
  run_ind (fun _ s _ => Inv s) _ inv_init (fun _ s _ op h => (step_eff s h op).inv) ops

theorem run_count (ops : List (Op E)) (e : E) :
    (completed (run St.init ops).2).count e + cnt (run St.init ops).1 e = (started ops).count e := by
  refine (run_ind (fun ops s os => Inv s ∧ (completed os).count e + cnt s e = (started ops).count e) _
    ⟨inv_init, ?_⟩ (fun ops s os op h => ?_) ops).2
  · simp [started, cnt_eq, St.init]
  · have := step_eff s h.1 op
    refine ⟨this.inv, ?_⟩
    rw [completed_append, started_append, List.count_append, List.count_append]
    have := this.count e
    omega

end Verif.Stream
