import Verif.Iam.HandlerSpec
import Verif.Api.AuthorizationLemmas

/-!
# The authorization handler of the IAM module — what the calls of the library do
-/

namespace Verif.Iam.Handler

open Verif.Api Verif.Api.Auth Verif.Api.Auth.Spec

/-- A call which does not touch the listener: at most a verdict is given. -/
structure Plain (w w' : Auth.World) : Prop where
  fut : w'.lst.fut = w.lst.fut
  log : ∃ s, w'.log = w.log ++ s ∧ ∀ o ∈ s, ∃ i v, o = .given i v

theorem refDec_eq {w w' : World} {i : Nat} (h : refDec w i = some w') :
    w'.lst = w.lst ∧ w'.log = w.log ∧ w'.next = w.next ∧ (∀ j, (w'.reqs j).verdict = (w.reqs j).verdict) ∧
      (∀ j, j ≠ i → w'.reqs j = w.reqs j) := by
  unfold refDec at h
  split at h
  · cases h
  · split at h <;> cases h <;> refine ⟨rfl, rfl, rfl, fun j => ?_, fun j hj => set_other _ hj _⟩ <;>
      (by_cases hj : j = i
       · subst hj; simp [set_same]
       · simp [set_other _ hj])

theorem doVerdict_eq {w w' : World} {i : Nat} {v : Bool} (h : doVerdict w i v = some w') :
    w'.lst = w.lst ∧ w'.log = w.log ∧ w'.next = w.next ∧ (∀ j, j ≠ i → w'.reqs j = w.reqs j) ∧
      (∀ j, (w'.reqs j).freed = (w.reqs j).freed) := by
  unfold doVerdict at h
  split at h
  · cases h
  · split at h <;> cases h
    · refine ⟨rfl, rfl, rfl, fun j hj => set_other _ hj _, fun j => ?_⟩
      by_cases hj : j = i
      · subst hj; simp [set_same]
      · simp [set_other _ hj]
    · exact ⟨rfl, rfl, rfl, fun _ _ => rfl, fun _ => rfl⟩

theorem refInc_eq {w w' : World} {i : Nat} (h : refInc w i = some w') :
    w'.lst = w.lst ∧ w'.log = w.log ∧ w'.next = w.next ∧ (∀ j, (w'.reqs j).verdict = (w.reqs j).verdict) ∧
      (∀ j, (w'.reqs j).freed = (w.reqs j).freed) := by
  unfold refInc at h
  split at h
  · cases h
  · cases h
    refine ⟨rfl, rfl, rfl, fun j => ?_, fun j => ?_⟩ <;>
      (by_cases hj : j = i
       · subst hj; simp [set_same]
       · simp [set_other _ hj])

/-- A request is handed over. -/
theorem deliver_eq {w w' : World} {i f : Nat} (h : acts w [.deliver i f, .resolve f .ok] = some w') :
    w'.lst = w.lst ∧ w'.log = w.log ++ [.handed i f, .resolved f .ok] ∧ w'.next = w.next ∧
      (∀ j, (w'.reqs j).verdict = (w.reqs j).verdict) ∧ (∀ j, (w'.reqs j).freed = (w.reqs j).freed) := by
  simp only [acts, act] at h
  cases hr : refInc w i with
  | none => rw [hr] at h; cases h
  | some k =>
    obtain ⟨h1, h2, h3, h4, h5⟩ := refInc_eq hr
    rw [hr] at h
    simp only [Option.map, Option.bind] at h
    cases h
    exact ⟨h1, by simp [h2], h3, h4, h5⟩

theorem releases_eq (c : Listener.Ec) (as : List Listener.Act) (l : List Nat) : ∀ {w w' : World},
    acts w (l.map (.release · c) ++ as) = some w' →
    ∃ k, acts k as = some w' ∧ k.lst = w.lst ∧ k.log = w.log ∧ k.next = w.next ∧ (∀ j, (k.reqs j).freed = (w.reqs j).freed) := by
  induction l with
  | nil => intro w w' h; exact ⟨w, h, rfl, rfl, rfl, fun _ => rfl⟩
  | cons i l ih =>
    intro w w' h
    simp only [List.map_cons, List.cons_append, acts, act] at h
    cases hr : doVerdict w i false with
    | none => rw [hr] at h; cases h
    | some k =>
      obtain ⟨h1, h2, h3, -, h5⟩ := doVerdict_eq hr
      rw [hr] at h
      obtain ⟨m, e0, e1, e2, e3, e4⟩ := ih h
      exact ⟨m, e0, e1.trans h1, e2.trans h2, e3.trans h3, fun j => (e4 j).trans (h5 j)⟩

theorem discard_fx {w w' : World} {i : Nat} (h : Auth.step w (.discard i) = some w') :
    Plain w w' ∧ w'.lst = w.lst ∧ w'.next = w.next ∧ (∀ j, (w'.reqs j).verdict = (w.reqs j).verdict) ∧
      (∀ j, j ≠ i → w'.reqs j = w.reqs j) := by
  obtain ⟨h1, h2, h3, h4, h5⟩ := refDec_eq (w := w) (i := i) h
  exact ⟨⟨by rw [h1], [], by simp [h2], by simp⟩, h1, h3, h4, h5⟩

theorem run_fx {w w' : World} {i : Nat} (h : Auth.step w (.run i) = some w') :
    Plain w w' ∧ w'.lst = w.lst ∧ w'.next = w.next ∧ (∀ j, (w'.reqs j).verdict = (w.reqs j).verdict) ∧
      (∀ j, j ≠ i → w'.reqs j = w.reqs j) := by
  simp only [Auth.step] at h
  split at h
  · unfold handleVerdict at h
    split at h
    · rename_i v _ _
      obtain ⟨h1, h2, h3, h4, h5⟩ := refDec_eq h
      refine ⟨⟨by rw [h1], [.given i v], h2, fun o ho => ⟨i, v, by simpa using ho⟩⟩, h1, h3, fun j => ?_, fun j hj => ?_⟩
      · rw [h4 j]
        by_cases hj : j = i
        · subst hj; simp [set_same]
        · simp [set_other _ hj]
      · rw [h5 j hj]; exact set_other _ hj _
    · cases h
  · cases h
    exact ⟨⟨rfl, [], by simp, by simp⟩, rfl, rfl, fun _ => rfl, fun _ _ => rfl⟩

theorem verdict_fx {w w' : World} {i : Nat} {v : Bool} (h : Auth.step w (.verdict i v) = some w') :
    Plain w w' ∧ w'.lst = w.lst ∧ w'.next = w.next ∧ (∀ j, j ≠ i → w'.reqs j = w.reqs j) ∧
      (∀ j, (w'.reqs j).freed = (w.reqs j).freed) := by
  obtain ⟨h1, h2, h3, h4, h5⟩ := doVerdict_eq (w := w) (i := i) (v := v) h
  exact ⟨⟨by rw [h1], [], by simp [h2], by simp⟩, h1, h3, h4, h5⟩

theorem free_fx {w w' : World} {i : Nat} (h : Auth.step w (.free i) = some w') :
    Plain w w' ∧ w'.lst = w.lst ∧ w'.next = w.next ∧ (∀ j, j ≠ i → w'.reqs j = w.reqs j) := by
  simp only [Auth.step, free] at h
  split at h
  · cases h
  · split at h
    · cases hd : doVerdict w i false with
      | none => rw [hd] at h; cases h
      | some k =>
        rw [hd] at h
        obtain ⟨a1, a2, a3, a4, -⟩ := doVerdict_eq hd
        obtain ⟨h1, h2, h3, h4, h5⟩ := refDec_eq (w := k) h
        exact ⟨⟨by rw [h1, a1], [], by simp [h2, a2], by simp⟩, h1.trans a1, h3.trans a3, fun j hj => (h5 j hj).trans (a4 j hj)⟩
    · obtain ⟨h1, h2, h3, h4, h5⟩ := refDec_eq (w := w) h
      exact ⟨⟨by rw [h1], [], by simp [h2], by simp⟩, h1, h3, h5⟩

/-- A future waits only while the listener runs, and then the queue is empty. -/
theorem fut_running {w : World} {evs : List Auth.Ev} (h : Inv w evs) {f : Nat} (hf : w.lst.fut = some f) :
    w.lst.initialized = true ∧ w.lst.ec = .ok ∧ w.lst.cb = true ∧ w.lst.events = [] := by
  cases hi : w.lst.initialized with
  | false => rw [h.lst.fresh hi] at hf; cases hf
  | true =>
    by_cases he : w.lst.ec = .ok
    · obtain ⟨h1, h2⟩ := h.lst.running hi he
      exact ⟨rfl, he, h1, by simpa [hf] using h2⟩
    · rw [(h.lst.over hi he).2.1] at hf; cases hf

structure Checked (w w' : World) (i : Nat) : Prop where
  fut : w.lst.fut = none ∧ w'.lst.fut = none ∧ w'.log = w.log ∨
    ∃ f, w.lst.fut = some f ∧ w'.lst.fut = none ∧ w'.log = w.log ++ [.handed i f, .resolved f .ok]
  init : w'.lst.initialized = w.lst.initialized
  ec : w'.lst.ec = w.lst.ec
  next : w'.next = w.next
  others : ∀ j, j ≠ i → (w'.reqs j).verdict = (w.reqs j).verdict
  mine : w.lst.initialized = true → w.lst.ec = .ok → (w'.reqs i).verdict = (w.reqs i).verdict
  freed : ∀ j, (w'.reqs j).freed = (w.reqs j).freed

theorem check_fx {w w' : World} {evs : List Auth.Ev} {i : Nat} (h : Inv w evs) (hd : w.listener ≠ .dangling)
    (hs : Auth.step w (.check i) = some w') : Checked w w' i := by
  simp only [Auth.step, check] at hs
  split at hs
  · cases hs
  · have hv : ∀ j, ((setCallback w i).reqs j).verdict = (w.reqs j).verdict := by
      intro j
      by_cases hj : j = i
      · subst hj; simp [setCallback, set_same]
      · simp [setCallback, set_other _ hj]
    have hfr : ∀ j, ((setCallback w i).reqs j).freed = (w.reqs j).freed := by
      intro j
      by_cases hj : j = i
      · subst hj; simp [setCallback, set_same]
      · simp [setCallback, set_other _ hj]
    have hl : (setCallback w i).lst = w.lst := rfl
    have ho : (setCallback w i).log = w.log := rfl
    have hn : (setCallback w i).next = w.next := rfl
    have hp : (setCallback w i).listener = w.listener := rfl
    generalize setCallback w i = k at *
    have hdeny : (w.lst.initialized = true → w.lst.ec ≠ .ok) → w.lst.fut = none → doVerdict k i false = some w' → Checked w w' i := by
      intro hno hf hs
      obtain ⟨h1, h2, h3, h4, h5⟩ := doVerdict_eq hs
      exact ⟨.inl ⟨hf, by rw [h1, hl, hf], by rw [h2, ho]⟩, by rw [h1, hl], by rw [h1, hl], by rw [h3, hn],
        fun j hj => by rw [h4 j hj, hv], fun a b => absurd b (hno a), fun j => (h5 j).trans (hfr j)⟩
    cases hli : w.listener with
    | dangling => exact absurd hli hd
    | null =>
      have hi := h.null.1 hli
      rw [submit, hp, hli] at hs
      refine hdeny (by simp [hi]) ?_ hs
      rw [h.lst.fresh hi]; rfl
    | alive =>
      have hi : w.lst.initialized = true := by
        cases hi : w.lst.initialized with
        | true => rfl
        | false => rw [h.null.mpr hi] at hli; cases hli
      by_cases hec : w.lst.ec = .ok
      · cases hf : w.lst.fut with
        | none =>
          have hadd : Listener.addEvent w.lst i = ({ w.lst with events := w.lst.events ++ [i] }, .ok, []) := by
            simp [Listener.addEvent, Listener.tryResolve, hi, hec, hf]
          rw [submit_accepted k _ i _ _ (hp.trans hli) hl hadd] at hs
          cases hs
          exact ⟨.inl ⟨hf, hf, ho⟩, rfl, rfl, hn, fun j _ => hv j, fun _ _ => hv i, hfr⟩
        | some f =>
          obtain ⟨-, -, hcb, hev⟩ := fut_running h hf
          have hadd : Listener.addEvent w.lst i =
              ({ w.lst with fut := none }, .ok, [.deliver i f, .resolve f .ok]) := by
            simp [Listener.addEvent, Listener.tryResolve, hi, hec, hf, hev, hcb]
          rw [submit_accepted k _ i _ _ (hp.trans hli) hl hadd] at hs
          obtain ⟨h1, h2, h3, h4, h5⟩ := deliver_eq hs
          exact ⟨.inr ⟨f, hf, by rw [h1], by rw [h2, ho]⟩, by rw [h1], by rw [h1], by rw [h3, hn],
            fun j _ => (h4 j).trans (hv j), fun _ _ => (h4 i).trans (hv i), fun j => (h5 j).trans (hfr j)⟩
      · have hadd : Listener.addEvent k.lst i = (k.lst, k.lst.ec, []) := by
          rw [hl]
          simp [Listener.addEvent, hi, hec]
        rw [submit_refused k i _ (hp.trans hli) hadd (hl ▸ hec)] at hs
        exact hdeny (fun _ => hec) (h.lst.over hi hec).2.1 hs

structure Listened (w w' : World) (f : Nat) : Prop where
  fut : (w'.lst.fut = some f ∧ w'.log = w.log) ∨
    (∃ j, w'.lst.fut = none ∧ w'.log = w.log ++ [.handed j f, .resolved f .ok]) ∨
    (w'.lst.fut = none ∧ (w.lst.initialized = true → w.lst.ec ≠ .ok) ∧ ∃ ec, w'.log = w.log ++ [.resolved f ec])
  init : w'.lst.initialized = w.lst.initialized
  ec : w'.lst.ec = w.lst.ec
  next : w'.next = w.next
  verdicts : ∀ j, (w'.reqs j).verdict = (w.reqs j).verdict
  freed : ∀ j, (w'.reqs j).freed = (w.reqs j).freed

theorem listen_fx {w w' : World} {evs : List Auth.Ev} {f : Nat} (h : Inv w evs) (hf : w.lst.fut = none)
    (hs : Auth.step w (.listen f) = some w') : Listened w w' f := by
  simp only [Auth.step] at hs
  split at hs
  · cases hs
  · have hres : ∀ l ec, Listener.listen w.lst f = (l, [.resolve f ec]) → l = w.lst → (w.lst.initialized = true → w.lst.ec ≠ .ok) →
        Listened w w' f := by
      intro l ec hl he hno
      rw [hl] at hs
      subst he
      cases hs
      exact ⟨.inr (.inr ⟨hf, hno, ec, rfl⟩), rfl, rfl, rfl, fun _ => rfl, fun _ => rfl⟩
    cases hi : w.lst.initialized with
    | false => exact hres _ .invalidArgument (by simp [Listener.listen, hi]) rfl (by simp [hi])
    | true =>
      by_cases hec : w.lst.ec = .ok
      · obtain ⟨hcb, -⟩ := h.lst.running hi hec
        cases hev : w.lst.events with
        | nil =>
          have hl : Listener.listen w.lst f = ({ w.lst with fut := some f }, []) := by
            simp [Listener.listen, Listener.initFuture, Listener.tryResolve, hi, hec, hf, hev]
          rw [hl] at hs
          cases hs
          exact ⟨.inl ⟨rfl, rfl⟩, rfl, rfl, rfl, fun _ => rfl, fun _ => rfl⟩
        | cons j js =>
          have hl : Listener.listen w.lst f = ({ w.lst with fut := none, events := js }, [.deliver j f, .resolve f .ok]) := by
            simp [Listener.listen, Listener.initFuture, Listener.tryResolve, hi, hec, hf, hev, hcb]
          rw [hl] at hs
          obtain ⟨h1, h2, h3, h4, h5⟩ := deliver_eq hs
          exact ⟨.inr (.inl ⟨j, by rw [h1], h2⟩), by rw [h1], by rw [h1], h3, h4, h5⟩
      · exact hres _ w.lst.ec (by simp [Listener.listen, hi, hec]) rfl (fun _ => hec)

structure Stopped (w w' : World) : Prop where
  fut : (w.lst.fut = none ∧ w'.lst.fut = none ∧ w'.log = w.log) ∨
    (∃ f ec, w.lst.fut = some f ∧ w'.lst.fut = none ∧ w'.log = w.log ++ [.resolved f ec])
  init : w'.lst.initialized = w.lst.initialized
  next : w'.next = w.next
  freed : ∀ j, (w'.reqs j).freed = (w.reqs j).freed

theorem stop_fx {w w' : World} {evs : List Auth.Ev} (h : Inv w evs) (hs : Auth.step w .stopListener = some w') : Stopped w w' := by
  simp only [Auth.step] at hs
  split at hs
  · cases hs
  · cases hi : w.lst.initialized with
    | false =>
      have hl : Listener.stop w.lst = (w.lst, .invalidState, []) := by simp [Listener.stop, hi]
      rw [hl] at hs
      cases hs
      have : w.lst.fut = none := by rw [h.lst.fresh hi]; rfl
      exact ⟨.inl ⟨this, this, rfl⟩, rfl, rfl, fun _ => rfl⟩
    | true =>
      by_cases hec : w.lst.ec = .ok
      · obtain ⟨hcb, -⟩ := h.lst.running hi hec
        have hl : Listener.stop w.lst = (⟨true, .stopped, none, [], false⟩, .ok,
            w.lst.events.map (.release · .stopped) ++ ((w.lst.fut.toList.map (.resolve · .stopped)) ++ [.ended])) := by
          generalize w.lst = l at hi hec hcb ⊢
          obtain ⟨a, b, c, d, e⟩ := l
          simp only at hi hec hcb
          subst hi; subst hec; subst hcb
          cases c <;> simp [Listener.stop, Listener.setErrorCode, Listener.resolveErrorState]
        rw [hl] at hs
        obtain ⟨k, e0, e1, e2, e3, e4⟩ := releases_eq _ _ _ hs
        cases hf : w.lst.fut with
        | none =>
          rw [hf] at e0
          simp only [Option.toList, List.map_nil, List.nil_append, acts, act, Option.bind] at e0
          cases e0
          exact ⟨.inl ⟨hf, by rw [e1], e2⟩, by rw [e1, hi], e3, e4⟩
        | some f =>
          rw [hf] at e0
          simp only [Option.toList, List.map_cons, List.map_nil, List.cons_append, List.nil_append, acts, act, Option.bind] at e0
          cases e0
          refine ⟨.inr ⟨f, .stopped, hf, by show k.lst.fut = none; rw [e1], ?_⟩, by show k.lst.initialized = _; rw [e1, hi], e3, e4⟩
          show k.log ++ _ = _
          rw [e2]
      · have hl : Listener.stop w.lst = (w.lst, .ok, []) := by simp [Listener.stop, hi, hec]
        rw [hl] at hs
        cases hs
        have := (h.lst.over hi hec).2.1
        exact ⟨.inl ⟨this, this, rfl⟩, rfl, rfl, fun _ => rfl⟩

end Verif.Iam.Handler
