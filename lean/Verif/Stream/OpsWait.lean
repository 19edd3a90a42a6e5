import Verif.Stream.OpsData

/-!
# Operations on a stream (lemmas about waiting operations)
-/

namespace Verif.Stream

open Spec

variable {E : Type} [DecidableEq E]

theorem step_stopped (s : St E) (op : Op E) (h : s.stopped = true) : (step s op).1.stopped = true := by
  cases op with
  | connClosed => simp [step, stop, h]
  | _ => simp_all [step, asyncAccept, asyncReadAll, asyncReadSome, asyncWrite, asyncClose, event, stop]

theorem run_stopped (s : St E) (ops : List (Op E)) (h : s.stopped = true) :
    (run s ops).1.stopped = true := by
  induction ops generalizing s with
  | nil => exact h
  | cons op ops ih => exact ih _ (step_stopped s op h)

theorem step_ends (s : St E) (op : Op E) (h : Ends op) : (step s op).1.stopped = true := by
  cases op with
  | connClosed => simp only [step, stop]; split <;> simp_all
  | stop b => simp only [step, stop]; split <;> simp_all
  | _ => exact h.elim

theorem stopped_of_ends (ops : List (Op E)) (h : ∃ op ∈ ops, Ends op) (s : St E) :
    (run s ops).1.stopped = true := by
  obtain ⟨op, hm, he⟩ := h
  obtain ⟨as, bs, rfl⟩ := List.append_of_mem hm
  rw [run_append]
  exact run_stopped _ bs (step_ends (run s as).1 op he)

/-- The place of a kind of operations. -/
def holds (s : St E) : Kind → E → Prop
  | .accept, e => s.acceptEv = some e
  | .read, e => s.readAllEv = some e ∨ s.readSomeEv = some e
  | .write, e => s.writeEv = some e
  | .close, e => s.closeEv = some e

/-- What a part of a step does to the operations which wait: each stays or is completed. -/
def Stays (s : St E) (r : St E × List (Out E)) : Prop :=
  ∀ k e, holds s k e → holds r.1 k e ∨ e ∈ completed r.2

omit [DecidableEq E] in
theorem stays_refl (s : St E) (o : List (Out E)) : Stays s (s, o) := fun _ _ h => .inl h

omit [DecidableEq E] in
theorem doRead_stays (s : St E) (r : Rd) (h : s.readAllEv = none ∨ s.readSomeEv = none) :
    Stays s (doRead s r) := by
  have hs := doRead_shape s r
  generalize doRead s r = res at hs
  cases hs <;> intro k e' hh <;> cases k <;> simp_all [holds, note]

omit [DecidableEq E] in
theorem doWriteAll_stays (s : St E) (w : Wr) : Stays s (doWriteAll s w) := by
  have hs := doWriteAll_shape s w
  generalize doWriteAll s w = res at hs
  cases hs <;> intro k e' hh <;> cases k <;> simp_all [holds]

omit [DecidableEq E] in
theorem mem_finish (ev : Option E) (ec : Ec) (e : E) (h : ev = some e) :
    e ∈ completed (finish ev ec) := by
  subst h; simp [finish]

omit [DecidableEq E] in
theorem streamClosed_stays (s : St E) (w : Wr) (r : Rd) (st : Status)
    (h : s.readAllEv = none ∨ s.readSomeEv = none) : Stays s (streamClosed s w r st) := by
  have h1 := doWriteAll_stays s w
  have hs := doWriteAll_shape s w
  unfold streamClosed
  generalize doWriteAll s w = sw at h1 hs
  obtain ⟨s1, o1⟩ := sw
  have hone : s1.readAllEv = none ∨ s1.readSomeEv = none := by cases hs <;> exact h
  have h2 := doRead_stays { s1 with acceptEv := none } r hone
  dsimp only
  generalize doRead { s1 with acceptEv := none } r = sr at h2
  obtain ⟨s3, o3⟩ := sr
  have h3 : Stays s (s3, o1 ++ finish s1.acceptEv .aborted ++ o3) := by
    intro k e hh
    simp only [completed_append, List.mem_append]
    rcases h1 k e hh with h' | h'
    · by_cases hk : k = .accept
      · subst hk
        exact .inr (.inl (.inr (mem_finish _ _ _ h')))
      · have : holds { s1 with acceptEv := none } k e := by cases k <;> first | exact h' | exact absurd rfl hk
        rcases h2 k e this with h'' | h''
        · exact .inl h''
        · exact .inr (.inr h'')
    · exact .inr (.inl (.inl h'))
  dsimp only
  split
  · exact h3
  · rename_i e0 he0
    split
    · intro k e hh
      rcases h3 k e hh with h' | h'
      · exact .inl h'
      · exact .inr (by rw [completed_append]; exact List.mem_append_left _ h')
    · intro k e hh
      rcases h3 k e hh with h' | h'
      · by_cases hk : k = .close
        · subst hk
          have : e0 = e := by simp only [holds] at h'; rw [he0] at h'; exact Option.some.inj h'
          subst this
          exact .inr (by simp [completed_append])
        · exact .inl (by cases k <;> first | exact h' | exact absurd rfl hk)
      · exact .inr (by rw [completed_append]; exact List.mem_append_left _ h')

omit [DecidableEq E] in
theorem event_stays (s : St E) (f : St E → St E × List (Out E)) (h : Stays s (f s)) :
    Stays s (event s f) := by
  unfold event
  split
  · exact stays_refl s _
  · exact h

omit [DecidableEq E] in
theorem stop_stays (s : St E) (b : Bool) : Stays s (stop s b) := by
  unfold stop
  split
  · exact stays_refl s _
  · intro k e hh
    refine .inr ?_
    simp only [completed_append, List.mem_append]
    cases k with
    | accept => exact .inl (.inl (.inl (.inl (.inr (mem_finish _ _ _ hh)))))
    | read =>
      rcases hh with hh | hh
      · exact .inl (.inl (.inl (.inr (by simp [hh]))))
      · exact .inl (.inl (.inr (by simp [hh])))
    | write => exact .inl (.inr (mem_finish _ _ _ hh))
    | close => exact .inr (mem_finish _ _ _ hh)

omit [DecidableEq E] in
theorem Stays.of_holds {s s' : St E} {r : St E × List (Out E)} (h : Stays s' r)
    (hh : ∀ k e, holds s k e → holds s' k e) : Stays s r :=
  fun k e h' => h k e (hh k e h')

omit [DecidableEq E] in
theorem step_stays (s : St E) (op : Op E) (h : s.readAllEv = none ∨ s.readSomeEv = none) :
    Stays s (step s op) := by
  cases op with
  | accept e =>
    simp only [step, asyncAccept]
    split
    · exact stays_refl s _
    · split
      · exact stays_refl s _
      · refine Stays.of_holds (stays_refl _ _) fun k e hh => ?_
        cases k <;> simp_all [holds]
  | readAll e n r =>
    simp only [step, asyncReadAll]
    split
    · exact stays_refl s _
    · split
      · exact stays_refl s _
      · rename_i ha
        have ha : s.readAllEv = none ∧ s.readSomeEv = none := by simpa using ha
        refine Stays.of_holds (doRead_stays _ r (.inr ha.2)) fun k e hh => ?_
        cases k <;> simp_all [holds]
  | readSome e n r =>
    simp only [step, asyncReadSome]
    split
    · exact stays_refl s _
    · split
      · exact stays_refl s _
      · rename_i ha
        have ha : s.readAllEv = none ∧ s.readSomeEv = none := by simpa using ha
        refine Stays.of_holds (doRead_stays _ r (.inl ha.1)) fun k e hh => ?_
        cases k <;> simp_all [holds]
  | write e d w =>
    simp only [step, asyncWrite]
    split
    · exact stays_refl s _
    · split
      · exact stays_refl s _
      · split
        · exact stays_refl s _
        · refine Stays.of_holds (doWriteAll_stays _ w) fun k e hh => ?_
          cases k <;> simp_all [holds]
  | close e st =>
    simp only [step, asyncClose]
    split
    · exact stays_refl s _
    · split
      · exact stays_refl s _
      · split
        · refine Stays.of_holds (stays_refl _ _) fun k e hh => ?_
          cases k <;> simp_all [holds]
        · refine Stays.of_holds (stays_refl _ _) fun k e hh => ?_
          cases k <;> simp_all [holds]
  | opened =>
    simp only [step]
    refine event_stays _ _ fun k e hh => ?_
    cases k with
    | accept => exact .inr (mem_finish _ _ _ hh)
    | _ => exact .inl hh
  | dataReady r => simp only [step]; exact event_stays _ _ (doRead_stays s r h)
  | dataWrite w => simp only [step]; exact event_stays _ _ (doWriteAll_stays s w)
  | readClosed r => simp only [step]; exact event_stays _ _ (doRead_stays s r h)
  | writeClosed =>
    simp only [step]
    refine event_stays _ _ fun k e hh => ?_
    cases k with
    | close => exact .inr (mem_finish _ _ _ hh)
    | _ => exact .inl hh
  | streamClosed w r st => simp only [step]; exact event_stays _ _ (streamClosed_stays s w r st h)
  | stop b => exact stop_stays s b
  | connClosed =>
    refine Stays.of_holds (stop_stays { s with conn := false } false) fun k e hh => ?_
    cases k <;> exact hh

omit [DecidableEq E] in
/-- An operation waits in its place or is completed at once. -/
theorem step_places (s : St E) (op : Op E) (h : s.readAllEv = none ∨ s.readSomeEv = none) (k : Kind) (e : E)
    (hop : Spec.start op = some (k, e)) : holds (step s op).1 k e ∨ e ∈ completed (step s op).2 := by
  cases op <;> simp only [Spec.start, Option.some.injEq, Prod.mk.injEq, reduceCtorEq] at hop <;>
    obtain ⟨rfl, rfl⟩ := hop
  · simp only [step, asyncAccept]
    repeat' split
    all_goals simp [holds]
  · simp only [step, asyncReadAll]
    split
    · simp
    · split
      · simp
      · rename_i ha
        have ha : s.readAllEv = none ∧ s.readSomeEv = none := by simpa using ha
        exact doRead_stays { s with readAllEv := some _, readLeft := _, got := [] } _ (.inr ha.2) .read _
          (.inl rfl)
  · simp only [step, asyncReadSome]
    split
    · simp
    · split
      · simp
      · rename_i ha
        have ha : s.readAllEv = none ∧ s.readSomeEv = none := by simpa using ha
        exact doRead_stays { s with readSomeEv := some _, readLeft := _, got := [] } _ (.inl ha.1) .read _
          (.inr rfl)
  · simp only [step, asyncWrite]
    split
    · simp
    · split
      · simp
      · split
        · simp
        · exact doWriteAll_stays { s with writeEv := some _, writeLeft := _ } _ .write _ rfl
  · simp only [step, asyncClose]
    repeat' split
    all_goals simp [holds]

theorem run_places (ops : List (Op E)) (k : Kind) (e : E)
    (h : ∃ op ∈ ops, Spec.start op = some (k, e)) :
    holds (run St.init ops).1 k e ∨ e ∈ completed (run St.init ops).2 := by
  refine (run_ind (fun ops s os => Inv s ∧ ((∃ op ∈ ops, Spec.start op = some (k, e)) →
    holds s k e ∨ e ∈ completed os)) _ ⟨inv_init, ?_⟩ (fun ops s os op ih => ⟨?_, ?_⟩) ops).2 h
  · rintro ⟨op, hm, -⟩; simp at hm
  · exact (step_eff s ih.1 op).inv
  · rintro ⟨op', hm, ho⟩
    rw [completed_append, List.mem_append]
    rcases List.mem_append.1 hm with hm | hm
    · rcases ih.2 ⟨op', hm, ho⟩ with h' | h'
      · rcases step_stays s op ih.1.one k e h' with h'' | h''
        · exact .inl h''
        · exact .inr (.inr h'')
      · exact .inr (.inl h')
    · rw [List.mem_singleton] at hm; subst hm
      rcases step_places s _ ih.1.one k e ho with h'' | h''
      · exact .inl h''
      · exact .inr (.inr h'')

omit [DecidableEq E] in
theorem doRead_settles (s : St E) (r : Rd) (hr : r.status ≠ .ok) (e : E) :
    (s.readAllEv = none ∨ s.readSomeEv = none) → ¬ holds (doRead s r).1 .read e := by
  intro h
  unfold doRead
  rcases h with h | h <;> cases h1 : s.readAllEv <;> cases h2 : s.readSomeEv <;>
    simp_all [holds, resolveRead]

omit [DecidableEq E] in
theorem doRead_frame (s : St E) (r : Rd) : (doRead s r).1.acceptEv = s.acceptEv ∧
    (doRead s r).1.writeEv = s.writeEv ∧ (doRead s r).1.closeEv = s.closeEv := by
  have hs := doRead_shape s r
  generalize doRead s r = res at hs
  cases hs <;> simp [note]

omit [DecidableEq E] in
theorem step_settles (s : St E) (op : Op E) (k : Kind) (e : E) (hs : s.stopped = false)
    (h : s.readAllEv = none ∨ s.readSomeEv = none) (ho : Settles op k) :
    ¬ holds (step s op).1 k e := by
  cases op <;> simp only [Settles] at ho
  · subst ho; simp [step, event, hs, holds]
  · obtain ⟨rfl, hr⟩ := ho
    simp only [step, event, hs]; exact doRead_settles s _ hr e h
  · obtain ⟨rfl, hw⟩ := ho
    simp only [step, event, hs, doWriteAll, hw, holds]
    cases hh : s.writeEv <;> simp [hh]
  · obtain ⟨rfl, hr⟩ := ho
    simp only [step, event, hs]; exact doRead_settles s _ hr e h
  · subst ho; simp [step, event, hs, holds]
  · rename_i w r st
    simp only [step, event, hs, streamClosed]
    have hwr := doWriteAll_shape s w
    generalize hg : doWriteAll s w = sw at hwr
    obtain ⟨s1, o1⟩ := sw
    have hone : s1.readAllEv = none ∨ s1.readSomeEv = none := by cases hwr <;> exact h
    have hw : w.status ≠ .ok → s1.writeEv = none := by
      intro hw
      simp only [doWriteAll, hw] at hg
      cases hh : s.writeEv <;> simp [hh] at hg
      · rw [← hg.1]; exact hh
      · rw [← hg.1]
    have hset := fun hr => doRead_settles { s1 with acceptEv := none } r hr e hone
    obtain ⟨f1, f2, f3⟩ := doRead_frame { s1 with acceptEv := none } r
    dsimp only
    generalize doRead { s1 with acceptEv := none } r = sr at hset f1 f2 f3
    obtain ⟨s3, o3⟩ := sr
    dsimp only at hset f1 f2 f3 ⊢
    simp only [Bool.false_eq_true, if_false]
    cases hc : s3.closeEv with
    | none =>
      rcases ho with rfl | ⟨rfl, hr⟩ | ⟨rfl, hw'⟩ | ⟨rfl, hst⟩
      · simp [holds, f1]
      · exact hset hr
      · simp [holds, f2, hw hw']
      · simp [holds, hc]
    | some e0 =>
      rcases ho with rfl | ⟨rfl, hr⟩ | ⟨rfl, hw'⟩ | ⟨rfl, hst⟩
      · dsimp only; split <;> simp [holds, f1]
      · have := hset hr
        dsimp only; split <;> simpa [holds] using this
      · dsimp only; split <;> simp [holds, f2, hw hw']
      · dsimp only; rw [if_neg hst]; simp [holds]

omit [DecidableEq E] in
/-- In a history with different names, the name determines the operation. -/
theorem op_unique {ops : List (Op E)} (hn : (started ops).Nodup) {a b : Op E} {e : E}
    (ha : a ∈ ops) (hb : b ∈ ops) (ha' : (Spec.start a).map (·.2) = some e)
    (hb' : (Spec.start b).map (·.2) = some e) : a = b := by
  induction ops with
  | nil => simp at ha
  | cons o ops ih =>
    have hmem : ∀ x ∈ ops, (Spec.start x).map (·.2) = some e → e ∈ started ops := fun x hx hh =>
      List.mem_filterMap.2 ⟨x, hx, hh⟩
    have hcons : started (o :: ops) = started [o] ++ started ops := started_append [o] ops
    rw [hcons, List.nodup_append] at hn
    rcases List.mem_cons.1 ha with rfl | ha1 <;> rcases List.mem_cons.1 hb with rfl | hb1
    · rfl
    · exact absurd rfl (hn.2.2 e (by simp [started, ha']) e (hmem b hb1 hb'))
    · exact absurd rfl (hn.2.2 e (by simp [started, hb']) e (hmem a ha1 ha'))
    · exact ih hn.2.1 ha1 hb1

end Verif.Stream
