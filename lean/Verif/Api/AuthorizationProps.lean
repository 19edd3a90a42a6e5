import Verif.Api.AuthorizationLemmas

/-!
# Authorization requests — property theorems (C30)
-/

namespace Verif.Api.Auth

open Verif.Api Verif.Api.Auth.Spec

/-! ### Checking that a concrete history is legal -/

instance (n evs log e) : Decidable (Allowed n evs log e) :=
  match e with
  | .create => isTrue trivial
  | .discard _ => inferInstanceAs (Decidable (_ ∧ _ ∧ _))
  | .check _ => inferInstanceAs (Decidable (_ ∧ _ ∧ _))
  | .run _ => isTrue trivial
  | .initListener => inferInstanceAs (Decidable (_ ∧ _))
  | .listen _ => inferInstanceAs (Decidable (¬ _))
  | .stopListener => inferInstanceAs (Decidable (¬ _))
  | .freeListener => inferInstanceAs (Decidable (_ ∧ _))
  | .verdict _ _ => inferInstanceAs (Decidable (_ ∧ _))
  | .free _ => inferInstanceAs (Decidable (_ ∧ _))

def legalFrom (w : World) (p : List Ev) : List Ev → Bool
  | [] => true
  | e :: es => decide (Allowed w.next p w.log e) &&
    match step w e with
    | none => true
    | some w' => legalFrom w' (p ++ [e]) es

theorem legal_check (evs : List Ev) (h : legalFrom init [] evs = true) : Legal evs := by
  suffices ∀ (es p : List Ev) (w : World), run init p = some w → legalFrom w p es = true →
      ∀ a e rest, es = a ++ e :: rest → ∀ w', run init (p ++ a) = some w' → Allowed w'.next (p ++ a) w'.log e by
    intro a e rest he w hw
    exact this evs [] init rfl h a e rest he w hw
  intro es
  induction es with
  | nil => intro p w _ _ a e rest he; simp at he
  | cons x es ih =>
    intro p w hp hl a e rest he w' hw'
    simp only [legalFrom, Bool.and_eq_true, decide_eq_true_eq] at hl
    cases a with
    | nil =>
      simp only [List.nil_append, List.cons.injEq] at he
      obtain ⟨rfl, rfl⟩ := he
      simp only [List.append_nil] at hw' ⊢
      rw [hp] at hw'
      cases hw'
      exact hl.1
    | cons y a =>
      simp only [List.cons_append, List.cons.injEq] at he
      obtain ⟨rfl, he⟩ := he
      have hpx : run init (p ++ [x]) = (step w x) := by
        rw [run_append, hp]
        simp only [Option.bind, run]
        cases step w x <;> rfl
      rw [show p ++ x :: a = (p ++ [x]) ++ a by simp] at hw' ⊢
      cases hs : step w x with
      | none =>
        rw [hs] at hpx
        rw [run_append, hpx] at hw'
        cases hw'
      | some k =>
        rw [hs] at hpx hl
        exact ih (p ++ [x]) k hpx hl.2 a e rest he w' hw'

/-! ## C30 -/

/-- C30: for every request the core is given at most one verdict, only if it asked for access, and the verdict is
the application's first answer; it is a denial if the application was not asked or did not answer. -/
theorem C30_verdict_once_partial (evs : List Ev) (h : Legal evs) (hc : NoCheckAfterFree evs) :
    ∃ w, run init evs = some w ∧ ∀ i, given i w.log = [] ∨
      .check i ∈ evs ∧ given i w.log = [decide (answer i evs = some true)] := by
  obtain ⟨w, h1, h2⟩ := inv_run evs h hc
  refine ⟨w, h1, fun i => ?_⟩
  by_cases hn : i < w.next
  · obtain ⟨s, -, hv⟩ := h2.cells.some i hn
    have e1 : given i w.log = s.view.given := congrArg View.given hv
    have e2 : answer i evs = s.view.answer := congrArg View.answer hv
    have e3 : decide (.check i ∈ evs) = s.view.checked := congrArg View.checked hv
    rw [e1, e2]
    cases s with
    | told v => exact .inr ⟨by simpa [Stage.view] using e3, by cases v <;> rfl⟩
    | over v => exact .inr ⟨by simpa [Stage.view] using e3, by cases v <;> rfl⟩
    | deniedOver => exact .inr ⟨by simpa [Stage.view] using e3, rfl⟩
    | _ => exact .inl rfl
  · exact .inl (congrArg View.given (h2.cells.none i (by omega)).2)

/-- C30: a request for which the core asked and has no verdict yet is in the listener's queue, or is with the
application, which has not answered, or its verdict event is posted and will give the verdict. -/
theorem C30_not_lost_partial (evs : List Ev) (h : Legal evs) (hc : NoCheckAfterFree evs) :
    ∃ w, run init evs = some w ∧ ∀ i, .check i ∈ evs → given i w.log = [] →
      i ∈ w.lst.events ∨ handed i w.log = 1 ∧ answer i evs = none ∨
      ∃ w', step w (.run i) = some w' ∧ given i w'.log = [decide (answer i evs = some true)] := by
  obtain ⟨w, h1, h2⟩ := inv_run evs h hc
  refine ⟨w, h1, fun i hch hg => ?_⟩
  by_cases hn : i < w.next
  · obtain ⟨s, hr, hv⟩ := h2.cells.some i hn
    have e1 : given i w.log = s.view.given := congrArg View.given hv
    have e2 : answer i evs = s.view.answer := congrArg View.answer hv
    have e3 : decide (.check i ∈ evs) = s.view.checked := congrArg View.checked hv
    have e4 : handed i w.log = s.view.handed := congrArg View.handed hv
    have e5 : w.lst.events.count i = s.view.queued := congrArg View.queued hv
    have hrun : ∀ v, (w.reqs i).callback = true → (w.reqs i).verdict = some v → (w.reqs i).posted = true →
        (w.reqs i).freed = false → ∃ w', step w (.run i) = some w' ∧ given i w'.log = [v] := by
      intro v h1 h2 h3 h4
      simp only [step, h3, if_true, handleVerdict, h1, h2, refDec, set_same, h4]
      by_cases hr : (w.reqs i).refs = 1
      · refine ⟨_, by simp only [hr, if_true]; rfl, ?_⟩
        simp [given_append, hg, given]
      · refine ⟨_, by simp only [hr, if_false]; rfl, ?_⟩
        simp [given_append, hg, given]
    rw [hr] at hrun
    rw [e2, e4]
    rw [e1] at hg
    simp only [hch, decide_true] at e3
    cases s with
    | fresh => cases e3
    | discarded => cases e3
    | queued => exact .inl (List.count_pos_iff.mp (by rw [e5]; exact Nat.one_pos))
    | held => exact .inr (.inl ⟨rfl, rfl⟩)
    | decided v => exact .inr (.inr (by obtain ⟨w', h1, h2⟩ := hrun v rfl rfl rfl rfl; exact ⟨w', h1, by rw [h2]; cases v <;> rfl⟩))
    | left v => exact .inr (.inr (by obtain ⟨w', h1, h2⟩ := hrun v rfl rfl rfl rfl; exact ⟨w', h1, by rw [h2]; cases v <;> rfl⟩))
    | told v => cases hg
    | over v => cases hg
    | denied => exact .inr (.inr (hrun false rfl rfl rfl rfl))
    | deniedOver => cases hg
  · have := congrArg View.checked (h2.cells.none i (by omega)).2
    simp [view, hch] at this

/-- C30: without a listener, and when the listener has been stopped, no request waits in its queue. With
`C30_not_lost_partial`: a request then made, or then in the queue, is denied. -/
theorem C30_stopped_listener_partial (evs : List Ev) (h : Legal evs) (hc : NoCheckAfterFree evs) :
    ∃ w, run init evs = some w ∧ (.initListener ∉ evs ∨ .stopListener ∈ evs → w.lst.events = []) := by
  obtain ⟨w, h1, h2⟩ := inv_run evs h hc
  refine ⟨w, h1, fun hor => ?_⟩
  cases hi : w.lst.initialized with
  | false => rw [h2.lst.fresh hi]; rfl
  | true =>
    have hkey : ∀ (es : List Ev) (w w' : World), run w es = some w' → .initListener ∉ es →
        w.lst.initialized = false → w'.lst.initialized = false := by
      have hact : ∀ (as : List Listener.Act) (w w' : World), acts w as = some w' → w'.lst = w.lst := by
        intro as
        induction as with
        | nil => intro w w' h; cases h; rfl
        | cons a as ih =>
          intro w w' h
          simp only [acts] at h
          cases ha : act w a with
          | none => rw [ha] at h; cases h
          | some k =>
            rw [ha] at h
            rw [ih k w' h]
            cases a with
            | deliver i f =>
              simp only [act, refInc] at ha
              split at ha
              · cases ha
              · cases ha; rfl
            | release i c =>
              simp only [act, doVerdict] at ha
              split at ha
              · cases ha
              · split at ha <;> cases ha <;> rfl
            | resolve f c => cases ha; rfl
            | ended => cases ha; rfl
      have hdv : ∀ (w w' : World) i v, doVerdict w i v = some w' → w'.lst = w.lst := by
        intro w w' i v h
        simp only [doVerdict] at h
        split at h
        · cases h
        · split at h <;> cases h <;> rfl
      have hrd : ∀ (w w' : World) i, refDec w i = some w' → w'.lst = w.lst := by
        intro w w' i h
        simp only [refDec] at h
        split at h
        · cases h
        · split at h <;> cases h <;> rfl
      intro es
      induction es with
      | nil => intro w w' h _ hi; cases h; exact hi
      | cons e es ih =>
        intro w w' h hn hi
        simp only [run] at h
        cases hs : step w e with
        | none => rw [hs] at h; cases h
        | some k =>
          rw [hs] at h
          refine ih k w' h (fun hm => hn (List.mem_cons_of_mem _ hm)) ?_
          cases e with
          | create => cases hs; exact hi
          | discard i => rw [hrd _ _ _ hs]; exact hi
          | check i =>
            simp only [step, check] at hs
            split at hs
            · cases hs
            · simp only [submit] at hs
              have hl : (setCallback w i).lst = w.lst := rfl
              split at hs
              · rw [hdv _ _ _ _ hs]; exact hi
              · cases hs
              · have : Listener.addEvent (setCallback w i).lst i = (w.lst, .invalidState, []) := by
                  rw [hl]; simp [Listener.addEvent, hi]
                rw [this] at hs
                simp only [acts, Option.bind] at hs
                rw [hdv _ _ _ _ hs]; exact hi
          | run i =>
            simp only [step] at hs
            split at hs
            · simp only [handleVerdict] at hs
              split at hs
              · rw [hrd _ _ _ hs]; exact hi
              · cases hs
            · cases hs; exact hi
          | initListener => exact absurd (List.mem_cons_self) hn
          | listen f =>
            simp only [step] at hs
            split at hs
            · cases hs
            · rw [hact _ _ _ hs]; simp [Listener.listen, hi]
          | stopListener =>
            simp only [step] at hs
            split at hs
            · cases hs
            · rw [hact _ _ _ hs]; simp [Listener.stop, hi]
          | freeListener =>
            simp only [step] at hs
            split at hs <;> cases hs <;> exact hi
          | verdict i v => rw [hdv _ _ _ _ hs]; exact hi
          | free i =>
            simp only [step, free] at hs
            split at hs
            · cases hs
            · split at hs
              · cases hd : doVerdict w i false with
                | none => rw [hd] at hs; cases hs
                | some k' =>
                  rw [hd] at hs
                  rw [hrd _ _ _ hs, hdv _ _ _ _ hd]; exact hi
              · rw [hrd _ _ _ hs]; exact hi
    rcases hor with hni | hst
    · have := hkey evs init w h1 hni rfl
      rw [this] at hi; cases hi
    · exact (h2.lst.over hi (h2.stopped hst hi)).2.2

/-- C30: the memory of a request is given back exactly when both sides are done with it: the core by discarding it
or by getting the verdict, the application by freeing it if it was handed to it. -/
theorem C30_memory_partial (evs : List Ev) (h : Legal evs) (hc : NoCheckAfterFree evs) :
    ∃ w, run init evs = some w ∧ ∀ i < w.next, (w.reqs i).freed = true ↔
      (.discard i ∈ evs ∨ given i w.log ≠ []) ∧ (handed i w.log = 0 ∨ .free i ∈ evs) := by
  obtain ⟨w, h1, h2⟩ := inv_run evs h hc
  refine ⟨w, h1, fun i hn => ?_⟩
  obtain ⟨s, hr, hv⟩ := h2.cells.some i hn
  have e1 : given i w.log = s.view.given := congrArg View.given hv
  have e2 : decide (.free i ∈ evs) = s.view.freed := congrArg View.freed hv
  have e3 : decide (.discard i ∈ evs) = s.view.discarded := congrArg View.discarded hv
  have e4 : handed i w.log = s.view.handed := congrArg View.handed hv
  have e2' : .free i ∈ evs ↔ s.view.freed = true := by rw [← e2]; simp
  have e3' : .discard i ∈ evs ↔ s.view.discarded = true := by rw [← e3]; simp
  rw [e1, e4, hr, e2', e3']
  cases s <;> simp [Stage.req, Stage.view]

/-- A history with three requests: allowed, denied by freeing, denied by stopping the listener; one is discarded. -/
def sample : List Ev :=
  [.create, .discard 0, .initListener, .create, .check 1, .listen 7, .verdict 1 true, .run 1, .free 1,
   .listen 8, .create, .check 2, .free 2, .run 2, .create, .check 3, .stopListener, .freeListener, .run 3]

example : Legal sample ∧ NoCheckAfterFree sample := by
  refine ⟨legal_check _ (by decide +kernel), ?_⟩
  intro p i rest h hm
  have hpre : p ++ .check i :: rest = sample := h.symm
  obtain ⟨a, b, rfl⟩ := List.append_of_mem hm
  have hsub : List.Sublist [.freeListener, .check i] sample := by
    rw [← hpre]
    simp only [List.append_assoc, List.cons_append]
    refine List.Sublist.trans ?_ (List.sublist_append_right a _)
    refine List.Sublist.cons_cons _ ?_
    refine List.Sublist.trans ?_ (List.sublist_append_right b _)
    exact List.Sublist.cons_cons _ (List.nil_sublist _)
  have : i = 1 ∨ i = 2 ∨ i = 3 := by
    have : .check i ∈ sample := hsub.subset (by simp)
    simpa [sample] using this
  rcases this with rfl | rfl | rfl <;> exact absurd hsub (by decide)

example : ((run init sample).map fun w => (w.log, [0, 1, 2, 3].map fun i => (w.reqs i).freed)) =
    some ([.handed 1 7, .resolved 7 .ok, .given 1 true, .handed 2 8, .resolved 8 .ok, .given 2 false,
      .given 3 false], [true, true, true, true]) := by decide +kernel

/-- C30 is violated when the application stops and frees the authorization listener, as it is documented: the
device keeps using the freed listener for the next request. -/
theorem C30_freed_listener_violated :
    ∃ evs, Legal evs ∧ run init evs = none :=
  ⟨[.initListener, .stopListener, .freeListener, .create, .check 0], legal_check _ (by decide +kernel), rfl⟩

end Verif.Api.Auth
