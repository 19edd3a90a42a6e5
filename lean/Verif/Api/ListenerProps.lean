import Verif.Api.Listener

/-!
# Listeners — property theorems (C28, C29)
-/

namespace Verif.Api.Listener

namespace Spec

/-- Events added by the core, in order. -/
def added : List Ev → List Nat
  | [] => []
  | .add ev :: es => ev :: added es
  | _ :: es => added es

/-- Events handed to the application, in order. -/
def delivered : List Obs → List Nat
  | [] => []
  | .act (.deliver ev _) :: os => ev :: delivered os
  | _ :: os => delivered os

/-- Events released with an error by the listener, in order. -/
def released : List Obs → List Nat
  | [] => []
  | .act (.release ev _) :: os => ev :: released os
  | _ :: os => released os

/-- Events not accepted, in order. -/
def rejected : List Obs → List Nat
  | [] => []
  | .rejected ev :: os => ev :: rejected os
  | _ :: os => rejected os

/-- The futures of the listen calls, in order. -/
def listens : List Ev → List Nat
  | [] => []
  | .listen f :: es => f :: listens es
  | _ :: es => listens es

/-- The futures resolved, in order. -/
def resolved : List Obs → List Nat
  | [] => []
  | .act (.resolve f _) :: os => f :: resolved os
  | _ :: os => resolved os

end Spec

open Spec

/-! ### Helpers -/

theorem run_append (l : Lst) (a b : List Ev) :
    run l (a ++ b) = ((run (run l a).1 b).1, (run l a).2 ++ (run (run l a).1 b).2) := by
  induction a generalizing l with
  | nil => simp [run]
  | cons e es ih => simp only [List.cons_append, run, ih, List.append_assoc]

theorem delivered_append (a b : List Obs) : delivered (a ++ b) = delivered a ++ delivered b := by
  induction a with
  | nil => rfl
  | cons o os ih =>
    rcases o with (_ | _ | _ | _) | _ <;> simp [delivered, ih]

theorem released_append (a b : List Obs) : released (a ++ b) = released a ++ released b := by
  induction a with
  | nil => rfl
  | cons o os ih =>
    rcases o with (_ | _ | _ | _) | _ <;> simp [released, ih]

theorem rejected_append (a b : List Obs) : rejected (a ++ b) = rejected a ++ rejected b := by
  induction a with
  | nil => rfl
  | cons o os ih =>
    rcases o with (_ | _ | _ | _) | _ <;> simp [rejected, ih]

theorem resolved_append (a b : List Obs) : resolved (a ++ b) = resolved a ++ resolved b := by
  induction a with
  | nil => rfl
  | cons o os ih =>
    rcases o with (_ | _ | _ | _) | _ <;> simp [resolved, ih]

theorem added_append (a b : List Ev) : added (a ++ b) = added a ++ added b := by
  induction a with
  | nil => rfl
  | cons o os ih => cases o <;> simp [added, ih]

theorem listens_append (a b : List Ev) : listens (a ++ b) = listens a ++ listens b := by
  induction a with
  | nil => rfl
  | cons o os ih => cases o <;> simp [listens, ih]

theorem delivered_release (evs : List Nat) (ec : Ec) :
    delivered ((evs.map (Act.release · ec)).map Obs.act) = [] := by
  induction evs with
  | nil => rfl
  | cons e es ih => simpa [delivered] using ih

theorem released_release (evs : List Nat) (ec : Ec) :
    released ((evs.map (Act.release · ec)).map Obs.act) = evs := by
  induction evs with
  | nil => rfl
  | cons e es ih => simp only [List.map_cons, released, ih]

theorem rejected_acts (as : List Act) : rejected (as.map Obs.act) = [] := by
  induction as with
  | nil => rfl
  | cons e es ih => simpa [rejected] using ih

theorem resolved_release (evs : List Nat) (ec : Ec) :
    resolved ((evs.map (Act.release · ec)).map Obs.act) = [] := by
  induction evs with
  | nil => rfl
  | cons e es ih => simpa [resolved] using ih

/-- The states of a listener. -/
structure Inv (l : Lst) : Prop where
  fresh : l.initialized = false → l = new
  running : l.initialized = true → l.ec = .ok → l.cb = true ∧ (l.fut = none ∨ l.events = [])
  over : l.initialized = true → l.ec ≠ .ok → l.cb = false ∧ l.fut = none ∧ l.events = []

theorem inv_new : Inv new := ⟨fun _ => rfl, by simp [new], by simp [new]⟩

theorem resolveErrorState_running (ec : Ec) (fut : Option Nat) (evs : List Nat) :
    resolveErrorState ⟨true, ec, fut, evs, true⟩ = (⟨true, ec, none, [], false⟩,
      evs.map (.release · (if ec = .aborted then .stopped else ec)) ++ fut.toList.map (.resolve · ec) ++ [.ended]) := by
  cases fut <;> simp [resolveErrorState]

/-- What one step does, in a listener in one of these states: the events queued and added are those handed over,
released, rejected and still queued; the futures listening are those resolved and the one pending. -/
structure Exact (l : Lst) (e : Ev) : Prop where
  inv : Inv (step l e).1
  events : l.events ++ added [e] =
    delivered (step l e).2 ++ released (step l e).2 ++ (step l e).1.events ++ rejected (step l e).2
  futs : (l.fut.toList ++ listens [e]).Perm (resolved (step l e).2 ++ (step l e).1.fut.toList)
  rel : released (step l e).2 ≠ [] → (step l e).1.initialized = true ∧ (step l e).1.ec ≠ .ok
  late : l.initialized = true → l.ec ≠ .ok →
    delivered (step l e).2 = [] ∧ released (step l e).2 = [] ∧
    (step l e).1.initialized = true ∧ (step l e).1.ec ≠ .ok
  code : ∀ ev c, .act (.release ev c) ∈ (step l e).2 → c = .stopped ∧ e = .stop ∨ c = .outOfMemory ∧ e = .fail

theorem exact_error (fut : Option Nat) (evs : List Nat) (e : Ev) (ec : Ec) (hec : ec ≠ .ok)
    (ha : added [e] = []) (hl : listens [e] = [])
    (hs : step ⟨true, .ok, fut, evs, true⟩ e = (⟨true, ec, none, [], false⟩,
      (evs.map (Act.release · ec) ++ fut.toList.map (Act.resolve · ec) ++ [Act.ended]).map Obs.act))
    (hc : ec = .stopped ∧ e = .stop ∨ ec = .outOfMemory ∧ e = .fail) :
    Exact ⟨true, .ok, fut, evs, true⟩ e := by
  refine ⟨?_, ?_, ?_, ?_, ?_, ?_⟩
  · rw [hs]; exact ⟨by simp, fun _ h => absurd h hec, by simp⟩
  · rw [hs, ha, rejected_acts]
    simp only [List.map_append, delivered_append, released_append, delivered_release, released_release]
    cases fut <;> simp [delivered, released]
  · rw [hs, hl]
    simp only [List.map_append, resolved_append, resolved_release]
    cases fut <;> simp [resolved]
  · rw [hs]; exact fun _ => ⟨rfl, hec⟩
  · intro _ h; exact absurd rfl h
  · intro ev c h
    rw [hs] at h
    simp only [List.map_append, List.mem_append, List.mem_map] at h
    rcases h with (⟨a, ⟨x, _, hx⟩, ha⟩ | ⟨a, ⟨x, _, hx⟩, ha⟩) | ⟨a, hx, ha⟩
    · subst hx; cases ha; exact hc
    · subst hx; cases ha
    · simp only [List.mem_singleton] at hx; subst hx; cases ha

theorem exact_step (l : Lst) (h : Inv l) (e : Ev) (hi : e = .init → l.initialized = false) : Exact l e := by
  cases hinit : l.initialized with
  | false =>
    have := h.fresh hinit
    subst this
    cases e with
    | init =>
      exact ⟨⟨by simp [step, init], by simp [step, init, new], by simp [step, init]⟩, rfl, .refl _,
        by simp [step, released], by simp [new], by simp [step]⟩
    | add ev =>
      exact ⟨inv_new, rfl, .refl _, by simp [step, addEvent, new, released], by simp [new], by simp [step, addEvent, new]⟩
    | listen f =>
      exact ⟨inv_new, rfl, .refl _, by simp [step, listen, new, released], by simp [new], by simp [step, listen, new]⟩
    | stop =>
      exact ⟨inv_new, rfl, .refl _, by simp [step, stop, new, released], by simp [new], by simp [step, stop, new]⟩
    | fail =>
      exact ⟨inv_new, rfl, .refl _, by simp [step, setErrorCode, new, released], by simp [new],
        by simp [step, setErrorCode, new]⟩
  | true =>
    obtain ⟨i, ec, fut, evs, cb⟩ := l
    simp only at hinit
    subst hinit
    by_cases hec : ec = .ok
    · subst hec
      obtain ⟨hcb, hor⟩ := h.running rfl rfl
      simp only at hcb hor
      subst hcb
      cases e with
      | init => exact absurd (hi rfl) (by simp)
      | add ev =>
        cases fut with
        | none =>
          refine ⟨⟨by simp [step, addEvent, tryResolve], by simp [step, addEvent, tryResolve],
            by simp [step, addEvent, tryResolve]⟩, ?_, .refl _, ?_, by simp, ?_⟩
          · simp [step, addEvent, tryResolve, added, delivered, released, rejected]
          · simp [step, addEvent, tryResolve, released]
          · simp [step, addEvent, tryResolve]
        | some f =>
          have : evs = [] := by simpa using hor
          subst this
          refine ⟨⟨by simp [step, addEvent, tryResolve], by simp [step, addEvent, tryResolve],
            by simp [step, addEvent, tryResolve]⟩, rfl, .refl _, ?_, by simp, ?_⟩
          · simp [step, addEvent, tryResolve, released]
          · simp [step, addEvent, tryResolve]
      | listen f =>
        cases fut with
        | none =>
          cases evs with
          | nil =>
            exact ⟨⟨by simp [step, listen, initFuture, tryResolve], by simp [step, listen, initFuture, tryResolve],
              by simp [step, listen, initFuture, tryResolve]⟩, rfl, .refl _,
              by simp [step, listen, initFuture, tryResolve, released], by simp,
              by simp [step, listen, initFuture, tryResolve]⟩
          | cons ev evs =>
            exact ⟨⟨by simp [step, listen, initFuture, tryResolve], by simp [step, listen, initFuture, tryResolve],
              by simp [step, listen, initFuture, tryResolve]⟩,
              by simp [step, listen, initFuture, tryResolve, added, delivered, released, rejected], .refl _,
              by simp [step, listen, initFuture, tryResolve, released], by simp,
              by simp [step, listen, initFuture, tryResolve]⟩
        | some g =>
          refine ⟨h, ?_, ?_, ?_, by simp, ?_⟩
          · simp [step, listen, initFuture, added, delivered, released, rejected]
          · exact List.Perm.swap ..
          · simp [step, listen, initFuture, released]
          · simp [step, listen, initFuture]
      | stop =>
        refine exact_error fut evs .stop .stopped (by simp) rfl rfl ?_ (.inl ⟨rfl, rfl⟩)
        simp only [step, stop, setErrorCode]
        simp only [Bool.not_true, Bool.false_eq_true, if_false, if_true]
        rw [resolveErrorState_running]
        simp
      | fail =>
        refine exact_error fut evs .fail .outOfMemory (by simp) rfl rfl ?_ (.inr ⟨rfl, rfl⟩)
        simp only [step, setErrorCode]
        simp only [Bool.not_true, Bool.false_eq_true, if_false]
        rw [resolveErrorState_running]
        simp
    · obtain ⟨hcb, hf, hev⟩ := h.over rfl hec
      simp only at hcb hf hev
      subst hcb hf hev
      cases e with
      | init => exact absurd (hi rfl) (by simp)
      | add ev =>
        have hs : step ⟨true, ec, none, [], false⟩ (.add ev) = (⟨true, ec, none, [], false⟩, [.rejected ev]) := by
          cases ec <;> simp_all [step, addEvent]
        exact ⟨by rw [hs]; exact h, by rw [hs]; rfl, by rw [hs]; exact .refl _, by rw [hs]; simp [released],
          by rw [hs]; simp [delivered, released], by rw [hs]; simp⟩
      | listen f =>
        have hs : step ⟨true, ec, none, [], false⟩ (.listen f) =
            (⟨true, ec, none, [], false⟩, [.act (.resolve f ec)]) := by
          simp [step, listen, hec]
        exact ⟨by rw [hs]; exact h, by rw [hs]; rfl, by rw [hs]; exact .refl _, by rw [hs]; simp [released],
          by rw [hs]; simp [delivered, released], by rw [hs]; simp⟩
      | stop =>
        have hs : step ⟨true, ec, none, [], false⟩ .stop = (⟨true, ec, none, [], false⟩, []) := by
          simp [step, stop, hec]
        exact ⟨by rw [hs]; exact h, by rw [hs]; rfl, by rw [hs]; exact .refl _, by rw [hs]; simp [released],
          by rw [hs]; simp [delivered, released], by rw [hs]; simp⟩
      | fail =>
        have hs : step ⟨true, ec, none, [], false⟩ .fail = (⟨true, .outOfMemory, none, [], false⟩, []) := by
          simp [step, setErrorCode, resolveErrorState]
        exact ⟨by rw [hs]; exact ⟨by simp, by simp, by simp⟩, by rw [hs]; rfl, by rw [hs]; exact .refl _,
          by rw [hs]; simp [released], by rw [hs]; simp [delivered, released], by rw [hs]; simp⟩

theorem keep_step (l : Lst) (e : Ev) (h : l.initialized = true) : (step l e).1.initialized = true := by
  obtain ⟨i, ec, fut, evs, cb⟩ := l
  simp only at h
  subst h
  cases e with
  | init => rfl
  | add ev =>
    by_cases hec : ec = .ok
    · subst hec; cases fut <;> cases evs <;> simp [step, addEvent, tryResolve]
    · simp [step, addEvent, hec]
  | listen f =>
    by_cases hec : ec = .ok
    · subst hec; cases fut <;> cases evs <;> simp [step, listen, initFuture, tryResolve]
    · simp [step, listen, hec]
  | stop =>
    by_cases hec : ec = .ok
    · subst hec; simp [step, stop, setErrorCode, resolveErrorState]
    · simp [step, stop, hec]
  | fail => simp [step, setErrorCode, resolveErrorState]

/-- The listener is initialised at most once. -/
def InitOnce (evs : List Ev) : Prop := ∀ a b, evs = a ++ .init :: b → .init ∉ a

/-- What holds after a history. -/
structure Good (evs : List Ev) (l : Lst) (os : List Obs) : Prop where
  inv : Inv l
  initialized : l.initialized = true → .init ∈ evs
  perm : (added evs).Perm (delivered os ++ released os ++ l.events ++ rejected os)
  order : List.Sublist (delivered os ++ released os ++ l.events) (added evs)
  over : released os ≠ [] → l.initialized = true ∧ l.ec ≠ .ok
  futs : (listens evs).Perm (resolved os ++ l.fut.toList)
  code : ∀ ev c, .act (.release ev c) ∈ os → c = .stopped ∨ c = .outOfMemory

theorem step_initialized (l : Lst) (e : Ev) (h : (step l e).1.initialized = true) :
    l.initialized = true ∨ e = .init := by
  cases hi : l.initialized with
  | true => exact .inl rfl
  | false =>
    cases e with
    | init => exact .inr rfl
    | _ => simp [step, addEvent, listen, stop, setErrorCode, hi] at h

theorem good_run (evs : List Ev) (h : InitOnce evs) : Good evs (run new evs).1 (run new evs).2 := by
  suffices ∀ r : List Ev, InitOnce r.reverse → Good r.reverse (run new r.reverse).1 (run new r.reverse).2 by
    have := this evs.reverse; rw [List.reverse_reverse] at this; exact this h
  intro r
  induction r with
  | nil =>
    intro _
    exact ⟨inv_new, by simp [run, new], .refl _, .refl _, by simp [run, released], .refl _, by simp [run]⟩
  | cons e r ih =>
    intro h
    rw [List.reverse_cons] at h ⊢
    have hg := ih (fun a b hab => h a (b ++ [e]) (by rw [hab]; simp))
    generalize r.reverse = evs at *
    have hrun : run new (evs ++ [e]) = ((step (run new evs).1 e).1, (run new evs).2 ++ (step (run new evs).1 e).2) := by
      rw [run_append]; simp [run]
    rw [hrun]
    generalize (run new evs).1 = l at *
    generalize (run new evs).2 = os at *
    have hx := exact_step l hg.inv e (by
      intro he
      subst he
      cases hl : l.initialized with
      | false => rfl
      | true => exact absurd (hg.initialized hl) (h evs [] rfl))
    refine ⟨hx.inv, ?_, ?_, ?_, ?_, ?_, ?_⟩
    · intro hi
      rcases step_initialized l e hi with hi | rfl
      · exact List.mem_append_left _ (hg.initialized hi)
      · simp
    · rw [added_append, delivered_append, released_append, rejected_append]
      refine (List.Perm.append_right _ hg.perm).trans ?_
      have he := hx.events
      have hp : (l.events ++ added [e]).Perm (delivered (step l e).2 ++ released (step l e).2 ++
          (step l e).1.events ++ rejected (step l e).2) := by rw [he]
      rw [List.perm_iff_count] at hp ⊢
      intro a
      have := hp a
      simp only [List.count_append] at this ⊢
      omega
    · rw [added_append, delivered_append, released_append]
      by_cases hr : released os = []
      · rw [hr, List.nil_append]
        have he := hx.events
        have h1 : List.Sublist (delivered os ++ (l.events ++ added [e])) (added evs ++ added [e]) := by
          rw [← List.append_assoc]
          exact List.Sublist.append_right (by simpa [hr] using hg.order) _
        rw [he] at h1
        refine List.Sublist.trans ?_ h1
        simp only [← List.append_assoc]
        exact List.sublist_append_left _ _
      · obtain ⟨h1, h2⟩ := hg.over hr
        obtain ⟨h3, h4, -, -⟩ := hx.late h1 h2
        have hev := (hg.inv.over h1 h2).2.2
        have he := hx.events
        rw [h3, h4, hev] at he
        simp only [List.nil_append] at he
        rw [h3, h4, List.append_nil, List.append_nil]
        have h5 := hg.order
        rw [hev, List.append_nil] at h5
        refine List.Sublist.append h5 ?_
        rw [he]
        exact List.sublist_append_left _ _
    · rw [released_append]
      intro hr
      by_cases hro : released os = []
      · rw [hro, List.nil_append] at hr
        exact hx.rel hr
      · obtain ⟨h1, h2⟩ := hg.over hro
        exact (hx.late h1 h2).2.2
    · rw [listens_append, resolved_append]
      refine (List.Perm.append_right _ hg.futs).trans ?_
      rw [List.append_assoc, List.append_assoc]
      exact List.Perm.append_left _ hx.futs
    · intro ev c hm
      rcases List.mem_append.mp hm with hm | hm
      · exact hg.code ev c hm
      · rcases hx.code ev c hm with h | h
        · exact .inl h.1
        · exact .inr h.1

/-! ## C28 -/

/-- C28: every event added by the core is, exactly once, either handed to the application, released with an error
by the listener, rejected when it was added, or still queued. -/
theorem C28_exactly_once (evs : List Ev) (h : InitOnce evs) :
    (added evs).Perm (delivered (run new evs).2 ++ released (run new evs).2 ++ (run new evs).1.events ++
      rejected (run new evs).2) := (good_run evs h).perm

/-- C28: events reach the application in arrival order. -/
theorem C28_in_order (evs : List Ev) (h : InitOnce evs) : List.Sublist (delivered (run new evs).2) (added evs) := by
  refine List.Sublist.trans ?_ (good_run evs h).order
  rw [List.append_assoc]
  exact List.sublist_append_left _ _

/-- C28: an event is not overtaken: those queued arrived after all those handed over. -/
theorem C28_fifo (evs : List Ev) (h : InitOnce evs) :
    List.Sublist (delivered (run new evs).2 ++ (run new evs).1.events) (added evs) := by
  refine List.Sublist.trans ?_ (good_run evs h).order
  rw [List.append_assoc]
  exact List.Sublist.append_left (List.sublist_append_right _ _) _

/-- C28: an event is released only when the listener is stopped or has failed, and with that error. -/
theorem C28_released_with_error (evs : List Ev) (h : InitOnce evs) (ev : Nat) (c : Ec)
    (hm : .act (.release ev c) ∈ (run new evs).2) : c = .stopped ∨ c = .outOfMemory := (good_run evs h).code ev c hm

/-- C28: no event waits in the queue while the application listens. -/
theorem C28_no_delay (evs : List Ev) (h : InitOnce evs) :
    (run new evs).1.fut = none ∨ (run new evs).1.events = [] := by
  have hi := (good_run evs h).inv
  cases h1 : (run new evs).1.initialized with
  | false => rw [hi.fresh h1]; exact .inl rfl
  | true =>
    by_cases h2 : (run new evs).1.ec = .ok
    · exact (hi.running h1 h2).2
    · exact .inl (hi.over h1 h2).2.1

/-- C28: every future used for listening is resolved exactly once, except one that is still listening. -/
theorem C28_futures_once (evs : List Ev) (h : InitOnce evs) :
    (listens evs).Perm (resolved (run new evs).2 ++ (run new evs).1.fut.toList) := (good_run evs h).futs

example : InitOnce [.add 0, .init, .add 1, .listen 7, .listen 8, .listen 9, .add 2, .add 3, .add 4, .stop, .add 5, .listen 6] := by
  intro a b h
  rcases a with _ | ⟨x, a⟩
  · simp
  · simp only [List.cons_append, List.cons.injEq] at h
    obtain ⟨rfl, h⟩ := h
    rcases a with _ | ⟨y, a⟩
    · simp
    · simp only [List.cons_append, List.cons.injEq] at h
      obtain ⟨rfl, h⟩ := h
      have : .init ∈ [Ev.add 1, .listen 7, .listen 8, .listen 9, .add 2, .add 3, .add 4, .stop, .add 5, .listen 6] := by
        rw [h]; simp
      simp at this

example : (run new [.add 0, .init, .add 1, .listen 7, .listen 8, .listen 9, .add 2, .add 3, .add 4, .stop, .add 5, .listen 6]).2 =
    [.rejected 0, .act (.deliver 1 7), .act (.resolve 7 .ok), .act (.resolve 9 .operationInProgress),
     .act (.deliver 2 8), .act (.resolve 8 .ok), .act (.release 3 .stopped), .act (.release 4 .stopped),
     .act .ended, .rejected 5, .act (.resolve 6 .stopped)] := by decide +kernel

/-! ## C29 -/

/-- C29: stopping a listener resolves a future that is listening with `STOPPED`; afterwards no event is handed
over, and every listen call is answered immediately with an error. -/
theorem C29_stopped (pre post : List Ev) (h : InitOnce pre) (hi : .init ∈ pre) (hp : .init ∉ post) :
    (∀ f, (resolved (run new pre).2).count f < (listens pre).count f →
      .act (.resolve f .stopped) ∈ (step (run new pre).1 .stop).2) ∧
    (stop (run new pre).1).2.1 = .ok ∧
    delivered (run (step (run new pre).1 .stop).1 post).2 = [] ∧
    ∀ p f rest, post = p ++ .listen f :: rest → ∃ ec, ec ≠ .ok ∧
      (step (run (step (run new pre).1 .stop).1 p).1 (.listen f)).2 = [.act (.resolve f ec)] := by
  have hg := good_run pre h
  have hini : (run new pre).1.initialized = true := by
    have key : ∀ (es : List Ev) (l : Lst), (l.initialized = true ∨ .init ∈ es) → (run l es).1.initialized = true := by
      intro es
      induction es with
      | nil => intro l h; rcases h with h | h; exact h; cases h
      | cons e es ih =>
        intro l h
        simp only [run]
        apply ih
        rcases h with h | h
        · exact .inl (keep_step l e h)
        · simp only [List.mem_cons] at h
          rcases h with rfl | h
          · left; rfl
          · right; exact h
    exact key pre new (.inr hi)
  generalize hl : (run new pre).1 = l at *
  have hov : (step l .stop).1.initialized = true ∧ (step l .stop).1.ec ≠ .ok := by
    by_cases hec : l.ec = .ok
    · simp [step, stop, setErrorCode, resolveErrorState, hini, hec]
    · simp [step, stop, hini, hec]
  have hov_inv := (exact_step l hg.inv .stop (by simp)).inv
  refine ⟨?_, ?_, ?_, ?_⟩
  · intro f hf
    have hc := (List.perm_iff_count.mp hg.futs) f
    rw [List.count_append] at hc
    have : 0 < l.fut.toList.count f := by omega
    rw [List.count_pos_iff] at this
    have hfut : l.fut = some f := by simpa [Option.mem_toList] using this
    have hec : l.ec = .ok := by
      apply Classical.byContradiction
      intro hec
      have := (hg.inv.over hini hec).2.1
      rw [hfut] at this; cases this
    simp only [step, stop, hini, hec, setErrorCode]
    simp [resolveErrorState, hfut]
  · simp only [stop, hini]
    by_cases hec : l.ec = .ok <;> simp [hec]
  · have key : ∀ (es : List Ev) (l : Lst), .init ∉ es → Inv l → l.initialized = true → l.ec ≠ .ok →
        delivered (run l es).2 = [] := by
      intro es
      induction es with
      | nil => intros; rfl
      | cons e es ih =>
        intro l hne hinv h1 h2
        have hx := exact_step l hinv e (by rintro rfl; simp at hne)
        obtain ⟨h3, -, h5, h6⟩ := hx.late h1 h2
        simp only [run, delivered_append, h3, List.nil_append]
        exact ih _ (fun h => hne (List.mem_cons_of_mem _ h)) hx.inv h5 h6
    exact key post _ hp hov_inv hov.1 hov.2
  · intro p f rest hpost
    have key : ∀ (es : List Ev) (l : Lst), .init ∉ es → Inv l → l.initialized = true → l.ec ≠ .ok →
        (run l es).1.initialized = true ∧ (run l es).1.ec ≠ .ok := by
      intro es
      induction es with
      | nil => intro l _ _ h1 h2; exact ⟨h1, h2⟩
      | cons e es ih =>
        intro l hne hinv h1 h2
        have hx := exact_step l hinv e (by rintro rfl; simp at hne)
        obtain ⟨-, -, h5, h6⟩ := hx.late h1 h2
        simp only [run]
        exact ih _ (fun h => hne (List.mem_cons_of_mem _ h)) hx.inv h5 h6
    obtain ⟨h1, h2⟩ := key p _ (by rw [hpost] at hp; simp at hp; exact hp.1) hov_inv hov.1 hov.2
    generalize (run (step l .stop).1 p).1 = k at *
    refine ⟨_, h2, ?_⟩
    simp [step, listen, h1, h2]

example : resolved (run new [.init, .listen 7]).2 = [] ∧ listens [.init, .listen 7] = [7] ∧
    (step (run new [.init, .listen 7]).1 .stop).2 = [.act (.resolve 7 .stopped), .act .ended] := by decide +kernel

end Verif.Api.Listener
