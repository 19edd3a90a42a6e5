import Verif.Api.Password
import Verif.Api.ListenerProps

/-!
# Password authentication requests — property theorems (C56)
-/

namespace Verif.Api.Pwd

open Verif.Api Verif.Api.Pwd.Spec

/-! ### Helpers -/

theorem run_append (w : World) (a b : List Ev) : run w (a ++ b) = (run w a).bind (run · b) := by
  induction a generalizing w with
  | nil => rfl
  | cons e es ih =>
    simp only [List.cons_append, run]
    cases step w e with
    | none => rfl
    | some w' => exact ih w'

theorem answers_append (i : Nat) (a b : List Obs) : answers i (a ++ b) = answers i a ++ answers i b := by
  induction a with
  | nil => rfl
  | cons o os ih =>
    cases o with
    | ready j v => simp only [List.cons_append, answers, ih]; split <;> rfl
    | refused j => simp only [List.cons_append, answers, ih]; split <;> rfl
    | _ => exact ih

theorem handed_append (i : Nat) (a b : List Obs) : handed i (a ++ b) = handed i a + handed i b := by
  induction a with
  | nil => simp [handed]
  | cons o os ih =>
    cases o with
    | handed j v => simp only [List.cons_append, handed, ih]; omega
    | _ => exact ih

theorem given_append (i : Nat) (a b : List Ev) : given i (a ++ b) = (given i a).or (given i b) := by
  induction a with
  | nil => rfl
  | cons o os ih =>
    cases o with
    | setPassword j v => simp only [List.cons_append, given, ih]; split <;> rfl
    | free j => simp only [List.cons_append, given, ih]; split <;> rfl
    | _ => exact ih

/-- What has happened to a request. -/
structure View where
  freed : Bool := false
  given : Option (Option String) := none
  handed : Nat := 0
  answers : List (Option String) := []
  queued : Nat := 0
  deriving DecidableEq

def view (evs : List Ev) (log : List Obs) (q : List Nat) (i : Nat) : View where
  freed := decide (.free i ∈ evs)
  given := Spec.given i evs
  handed := Spec.handed i log
  answers := Spec.answers i log
  queued := q.count i

inductive Stage
  /-- in the listener's queue -/
  | queued
  /-- with the application, not answered -/
  | held
  /-- with the application, answered -/
  | answered (p : String)
  /-- the application is done with it -/
  | over (p : Option String)
  /-- cleaned up when the listener was stopped -/
  | stopped
  /-- answered by the core: there was no listener -/
  | refused
  /-- dropped because there was no memory -/
  | lost
  deriving DecidableEq

def Stage.req : Stage → Req
  | .queued => {}
  | .held => {}
  | .answered _ => { handled := true }
  | .over p => { handled := p.isSome, freed := true }
  | .stopped => { freed := true }
  | .refused => {}
  | .lost => {}

def Stage.view : Stage → View
  | .queued => { queued := 1 }
  | .held => { handed := 1 }
  | .answered p => { handed := 1, given := some (some p), answers := [some p] }
  | .over p => { handed := 1, given := some p, answers := [p], freed := true }
  | .stopped => { answers := [none] }
  | .refused => { answers := [none] }
  | .lost => {}

/-- All requests are in some stage, with queue `q`; requests are lost only if memory has run out. -/
structure Cells (n : Nat) (reqs : Nat → Req) (log : List Obs) (evs : List Ev) (q : List Nat) : Prop where
  some : ∀ i < n, ∃ s : Stage, reqs i = s.req ∧ view evs log q i = s.view ∧ (s = .lost → .request false ∈ evs)
  none : ∀ i, n ≤ i → reqs i = {} ∧ view evs log q i = {}

theorem set_same (f : Nat → Req) (i : Nat) (r : Req) : set f i r i = r := if_pos rfl
theorem set_other (f : Nat → Req) {i j : Nat} (h : j ≠ i) (r : Req) : set f i r j = f j := if_neg h

/-- Changing one request. -/
theorem Cells.change {n reqs log evs q log' evs' q'} (h : Cells n reqs log evs q) (i : Nat) (hi : i < n) (s : Stage)
    (r : Req) (hr : r = s.req) (hv : view evs' log' q' i = s.view) (hl : s ≠ .lost) (he : ∀ e ∈ evs, e ∈ evs')
    (ho : ∀ j, j ≠ i → view evs' log' q' j = view evs log q j) : Cells n (set reqs i r) log' evs' q' := by
  refine ⟨fun j hj => ?_, fun j hj => ?_⟩
  · by_cases hji : j = i
    · subst hji
      exact ⟨s, by rw [set_same, hr], hv, fun h => absurd h hl⟩
    · rw [set_other _ hji, ho j hji]
      obtain ⟨s, h1, h2, h3⟩ := h.some j hj
      exact ⟨s, h1, h2, fun hs => he _ (h3 hs)⟩
  · rw [ho j (by omega), set_other _ (by omega)]
    exact h.none j hj

/-- Something that concerns no request. -/
theorem Cells.same {n reqs log evs q log' evs' q'} (h : Cells n reqs log evs q) (he : ∀ e ∈ evs, e ∈ evs')
    (ho : ∀ j, view evs' log' q' j = view evs log q j) : Cells n reqs log' evs' q' :=
  ⟨fun j hj => by
    obtain ⟨s, h1, h2, h3⟩ := h.some j hj
    exact ⟨s, h1, (ho j).trans h2, fun hs => he _ (h3 hs)⟩, fun j hj => by rw [ho j]; exact h.none j hj⟩

/-- A new request. -/
theorem Cells.new {n reqs log evs q log' evs' q'} (h : Cells n reqs log evs q) (s : Stage) (hr : s.req = {})
    (hv : view evs' log' q' n = s.view) (hl : s = .lost → .request false ∈ evs') (he : ∀ e ∈ evs, e ∈ evs')
    (ho : ∀ j, j ≠ n → view evs' log' q' j = view evs log q j) : Cells (n + 1) reqs log' evs' q' := by
  refine ⟨fun j hj => ?_, fun j hj => ?_⟩
  · by_cases hjn : j = n
    · subst hjn
      exact ⟨s, by rw [hr]; exact (h.none j (Nat.le_refl _)).1, hv, hl⟩
    · rw [ho j hjn]
      obtain ⟨s, h1, h2, h3⟩ := h.some j (by omega)
      exact ⟨s, h1, h2, fun hs => he _ (h3 hs)⟩
  · rw [ho j (by omega)]
    exact h.none j (by omega)

theorem Cells.queued {n reqs log evs q} (h : Cells n reqs log evs q) {i : Nat} (hq : i ∈ q) :
    i < n ∧ reqs i = Stage.queued.req ∧ view evs log q i = Stage.queued.view := by
  have hc : 0 < (view evs log q i).queued := List.count_pos_iff.mpr hq
  by_cases hi : i < n
  · obtain ⟨s, h1, h2, -⟩ := h.some i hi
    rw [h2] at hc
    cases s with
    | queued => exact ⟨hi, h1, h2⟩
    | _ => exact absurd hc (Nat.lt_irrefl 0)
  · rw [(h.none i (by omega)).2] at hc
    exact absurd hc (Nat.lt_irrefl 0)

theorem view_resolved (evs log q i f ec) : view evs (log ++ [Obs.resolved f ec]) q i = view evs log q i := by
  simp [view, answers_append, handed_append, answers, handed]

/-- An event that is not about a request does not change what has happened to it. -/
theorem view_event (evs log q i e) (h3 : e ≠ .free i) (h4 : ∀ v, e ≠ .setPassword i v) :
    view (evs ++ [e]) log q i = view evs log q i := by
  have : Spec.given i [e] = none := by
    cases e with
    | setPassword j v =>
      by_cases hj : j = i
      · subst hj; exact absurd rfl (h4 v)
      · simp [given, hj]
    | free j =>
      by_cases hj : j = i
      · subst hj; exact absurd rfl h3
      · simp [given, hj]
    | _ => rfl
  simp [view, given_append, this, Ne.symm h3]

/-! ### Parts of the steps -/

theorem act_resolve (w : World) (evs q f ec) (h : Cells w.next w.reqs w.log evs q) :
    ∃ reqs log, act w (.resolve f ec) = some { w with reqs := reqs, log := log } ∧ Cells w.next reqs log evs q :=
  ⟨w.reqs, w.log ++ [.resolved f ec], rfl, h.same (fun _ h => h) fun _ => view_resolved ..⟩

theorem act_deliver (w : World) (evs q i f) (h : Cells w.next w.reqs w.log evs q) (hi : i ∈ q) :
    ∃ reqs log, act w (.deliver i f) = some { w with reqs := reqs, log := log } ∧
      Cells w.next reqs log evs (q.erase i) := by
  obtain ⟨hn, hr, hv⟩ := h.queued hi
  refine ⟨w.reqs, w.log ++ [.handed i f], rfl, ?_⟩
  have hset : w.reqs = set w.reqs i (w.reqs i) := by
    funext j; simp only [set]; split
    · subst_vars; rfl
    · rfl
  rw [hset]
  refine h.change i hn .held _ (by rw [hr]; rfl) ?_ (by simp) (fun _ h => h) ?_
  · simp only [view, Stage.view, View.mk.injEq] at hv ⊢
    simp [handed_append, answers_append, handed, answers, hv]
  · intro j hj
    simp [view, handed_append, answers_append, handed, answers, Ne.symm hj, List.count_erase_of_ne hj]

theorem act_release (w : World) (evs q i) (h : Cells w.next w.reqs w.log evs q) (hi : i ∈ q) :
    ∃ reqs log, act w (.release i .stopped) = some { w with reqs := reqs, log := log } ∧
      Cells w.next reqs log evs (q.erase i) := by
  obtain ⟨hn, hr, hv⟩ := h.queued hi
  refine ⟨set w.reqs i { w.reqs i with freed := true }, w.log ++ [.ready i none], ?_, ?_⟩
  · simp [act, freeInternal, hr, Stage.req]
  · refine h.change i hn .stopped _ (by rw [hr]; rfl) ?_ (by simp) (fun _ h => h) ?_
    · simp only [view, Stage.view, View.mk.injEq] at hv ⊢
      simp [handed_append, answers_append, handed, answers, hv]
    · intro j hj
      simp [view, handed_append, answers_append, handed, answers, Ne.symm hj, List.count_erase_of_ne hj]

theorem acts_release (l : List Nat) (as : List Listener.Act) (w : World) (evs)
    (h : Cells w.next w.reqs w.log evs l) :
    ∃ reqs log, acts w (l.map (.release · .stopped) ++ as) = acts { w with reqs := reqs, log := log } as ∧
      Cells w.next reqs log evs [] := by
  induction l generalizing w with
  | nil => exact ⟨w.reqs, w.log, rfl, h⟩
  | cons i l ih =>
    obtain ⟨reqs, log, h1, h2⟩ := act_release w evs (i :: l) i h (by simp)
    rw [List.erase_cons_head] at h2
    obtain ⟨reqs', log', h3, h4⟩ := ih { w with reqs := reqs, log := log } h2
    refine ⟨reqs', log', ?_, h4⟩
    simp only [List.map_cons, List.cons_append, acts, h1, Option.bind]
    exact h3

/-! ### The invariant -/

/-- The handler is set exactly while the listener is running. -/
structure Inv (w : World) (evs : List Ev) : Prop where
  cells : Cells w.next w.reqs w.log evs w.lst.events
  lst : Listener.Inv w.lst
  handler : w.handler = true ↔ w.lst.initialized = true ∧ w.lst.ec = .ok

theorem inv_init : Inv init [] :=
  ⟨⟨by simp [init], fun i _ => ⟨rfl, rfl⟩⟩, Listener.inv_new, by simp [init, Listener.new]⟩

theorem events_nil {w evs} (h : Inv w evs) (hh : w.handler = false) : w.lst.events = [] := by
  cases hi : w.lst.initialized with
  | false => rw [h.lst.fresh hi]; rfl
  | true =>
    refine (h.lst.over hi ?_).2.2
    intro hec
    rw [h.handler.mpr ⟨hi, hec⟩] at hh; cases hh

theorem inv_step (w : World) (evs : List Ev) (h : Inv w evs) (e : Ev) (ha : Allowed evs w.log e) :
    ∃ w', step w e = some w' ∧ Inv w' (evs ++ [e]) := by
  have hmem : ∀ x ∈ evs, x ∈ evs ++ [e] := fun x hx => List.mem_append_left _ hx
  cases e with
  | request mem =>
    have hev : ∀ j log q, view (evs ++ [.request mem]) log q j = view evs log q j :=
      fun j log q => view_event _ _ _ _ _ (by simp) (by simp)
    have hnew := (h.cells.none w.next (Nat.le_refl _)).2
    cases hh : w.handler with
    | false =>
      refine ⟨{ w with next := w.next + 1, log := w.log ++ [.refused w.next] }, by simp [step, request, hh],
        h.cells.new .refused rfl ?_ (by simp) hmem ?_, h.lst, h.handler⟩
      · rw [hev]
        simp only [view, Stage.view, View.mk.injEq] at hnew ⊢
        simp [answers_append, handed_append, answers, handed, hnew]
      · intro j hj
        rw [hev]
        simp [view, answers_append, handed_append, answers, handed, Ne.symm hj]
    | true =>
      obtain ⟨hini, hec⟩ := h.handler.mp hh
      cases mem with
      | false =>
        refine ⟨{ w with next := w.next + 1 }, by simp [step, request, hh],
          h.cells.new .lost rfl ?_ (by simp) hmem ?_, h.lst, h.handler⟩
        · rw [hev]; exact hnew
        · intro j hj
          exact hev _ _ _
      | true =>
        obtain ⟨hcb, hor⟩ := h.lst.running hini hec
        have hq : Cells (w.next + 1) w.reqs w.log (evs ++ [.request true]) (w.lst.events ++ [w.next]) := by
          refine h.cells.new .queued rfl ?_ (by simp) hmem ?_
          · rw [hev]
            simp only [view, Stage.view, View.mk.injEq] at hnew ⊢
            simp [hnew]
          · intro j hj
            rw [hev]
            simp [view, Ne.symm hj]
        have hreq : ∀ l as, Listener.addEvent w.lst w.next = (l, .ok, as) →
            step w (.request true) = acts { w with next := w.next + 1, lst := l } as := by
          intro l as hadd
          simp only [step, request, hh, hadd]
          rfl
        cases hf : w.lst.fut with
        | none =>
          have hadd : Listener.addEvent w.lst w.next =
              ({ w.lst with events := w.lst.events ++ [w.next] }, .ok, []) := by
            simp [Listener.addEvent, Listener.tryResolve, hini, hec, hf]
          refine ⟨_, hreq _ _ hadd, hq, ⟨?_, ?_, ?_⟩, h.handler⟩
          · intro h'; simp only at h'; rw [hini] at h'; cases h'
          · intro _ _; exact ⟨hcb, .inl hf⟩
          · intro _ h'; exact absurd hec h'
        | some f =>
          have hevs : w.lst.events = [] := by simpa [hf] using hor
          have hadd : Listener.addEvent w.lst w.next =
              ({ w.lst with fut := none }, .ok, [.deliver w.next f, .resolve f .ok]) := by
            simp [Listener.addEvent, Listener.tryResolve, hini, hec, hf, hevs, hcb]
          obtain ⟨reqs, log, h3, h4⟩ := act_deliver
            { w with next := w.next + 1, lst := { w.lst with fut := none } } _ _ w.next f hq (by simp)
          obtain ⟨reqs', log', h5, h6⟩ := act_resolve
            { w with next := w.next + 1, reqs := reqs, log := log, lst := { w.lst with fut := none } } _ _ f .ok h4
          refine ⟨{ w with next := w.next + 1, reqs := reqs', log := log', lst := { w.lst with fut := none } },
            ?_, ?_, ⟨?_, ?_, ?_⟩, h.handler⟩
          · rw [hreq _ _ hadd]
            simp only [acts, h3, Option.bind]
            rw [h5]
          · rw [hevs, List.nil_append, List.erase_cons_head] at h6
            simp only [hevs]
            exact h6
          · intro h'; simp only at h'; rw [hini] at h'; cases h'
          · intro _ _; exact ⟨hcb, .inl rfl⟩
          · intro _ h'; exact absurd hec h'
  | initListener =>
    have hev : ∀ j log q, view (evs ++ [.initListener]) log q j = view evs log q j :=
      fun j log q => view_event _ _ _ _ _ (by simp) (by simp)
    have hcells := h.cells.same hmem fun j => hev j _ _
    refine ⟨_, rfl, ?_⟩
    cases hh : w.handler with
    | true => simp only [initListener, hh, if_true]; exact ⟨hcells, h.lst, h.handler⟩
    | false =>
      simp only [initListener, hh, Bool.false_eq_true, if_false]
      rw [events_nil h hh] at hcells
      exact ⟨hcells, ⟨by simp [Listener.init], by simp [Listener.init, Listener.new],
        by simp [Listener.init]⟩, by simp [Listener.init]⟩
  | listen f =>
    have hev : ∀ j log q, view (evs ++ [.listen f]) log q j = view evs log q j :=
      fun j log q => view_event _ _ _ _ _ (by simp) (by simp)
    have hcells := h.cells.same hmem fun j => hev j _ _
    have hrest : ∀ (l : Listener.Lst) reqs log, l.initialized = w.lst.initialized → l.ec = w.lst.ec →
        Listener.Inv l → Cells w.next reqs log (evs ++ [.listen f]) l.events →
        Inv { w with lst := l, reqs := reqs, log := log } (evs ++ [.listen f]) := by
      intro l reqs log hi he hl hcl
      exact ⟨hcl, hl, by simp only [hi, he]; exact h.handler⟩
    have hinv : Listener.Inv (Listener.listen w.lst f).1 := (Listener.exact_step w.lst h.lst (.listen f) (by simp)).inv
    simp only [step]
    have hsame : ∀ ec, Listener.listen w.lst f = (w.lst, [.resolve f ec]) →
        ∃ w', acts { w with lst := (Listener.listen w.lst f).1 } (Listener.listen w.lst f).2 = some w' ∧
          Inv w' (evs ++ [.listen f]) := by
      intro ec hl
      obtain ⟨reqs, log, h1, h2⟩ := act_resolve { w with lst := w.lst } _ _ f ec hcells
      refine ⟨_, ?_, hrest w.lst reqs log rfl rfl h.lst h2⟩
      rw [hl]
      simp only [acts, h1, Option.bind]
    cases hini : w.lst.initialized with
    | false => exact hsame .invalidArgument (by simp [Listener.listen, hini])
    | true =>
      by_cases hec : w.lst.ec = .ok
      · obtain ⟨hcb, hor⟩ := h.lst.running hini hec
        cases hf : w.lst.fut with
        | some g => exact hsame .operationInProgress (by simp [Listener.listen, Listener.initFuture, hini, hec, hf])
        | none =>
          cases hevs : w.lst.events with
          | nil =>
            have hl : Listener.listen w.lst f = ({ w.lst with fut := some f }, []) := by
              simp [Listener.listen, Listener.initFuture, Listener.tryResolve, hini, hec, hf, hevs]
            rw [hl] at hinv ⊢
            exact ⟨_, rfl, hrest _ _ _ rfl rfl hinv hcells⟩
          | cons i rest =>
            have hl : Listener.listen w.lst f =
                ({ w.lst with events := rest }, [.deliver i f, .resolve f .ok]) := by
              simp only [Listener.listen, Listener.initFuture, Listener.tryResolve]
              simp [hini, hec, hf, hevs, hcb]
            rw [hl] at hinv ⊢
            rw [hevs] at hcells
            obtain ⟨reqs, log, h3, h4⟩ := act_deliver { w with lst := { w.lst with events := rest } } _ _ i f hcells (by simp)
            obtain ⟨reqs', log', h5, h6⟩ := act_resolve
              { w with reqs := reqs, log := log, lst := { w.lst with events := rest } } _ _ f .ok h4
            refine ⟨{ w with lst := { w.lst with events := rest }, reqs := reqs', log := log' }, ?_,
              hrest _ reqs' log' rfl rfl hinv ?_⟩
            · simp only [acts, h3, Option.bind]
              rw [h5]
            · rw [List.erase_cons_head] at h6
              exact h6
      · exact hsame w.lst.ec (by simp [Listener.listen, hini, hec])
  | stopListener =>
    have hev : ∀ j log q, view (evs ++ [.stopListener]) log q j = view evs log q j :=
      fun j log q => view_event _ _ _ _ _ (by simp) (by simp)
    have hcells := h.cells.same hmem fun j => hev j _ _
    have hinv : Listener.Inv (Listener.stop w.lst).1 := (Listener.exact_step w.lst h.lst .stop (by simp)).inv
    simp only [step]
    cases hini : w.lst.initialized with
    | false =>
      have hl : Listener.stop w.lst = (w.lst, .invalidState, []) := by simp [Listener.stop, hini]
      rw [hl]
      exact ⟨_, rfl, hcells, h.lst, h.handler⟩
    | true =>
      by_cases hec : w.lst.ec = .ok
      · obtain ⟨hcb, hor⟩ := h.lst.running hini hec
        have hl : Listener.stop w.lst = (⟨true, .stopped, none, [], false⟩, .ok,
            w.lst.events.map (.release · .stopped) ++ (w.lst.fut.toList.map (.resolve · .stopped) ++ [.ended])) := by
          simp only [Listener.stop, Listener.setErrorCode, hini, hec]
          simp only [Bool.not_true, Bool.false_eq_true, if_false, if_true]
          have := Listener.resolveErrorState_running .stopped w.lst.fut w.lst.events
          simp only [hcb, this]
          simp
        rw [hl] at hinv ⊢
        obtain ⟨reqs, log, h1, h2⟩ := acts_release w.lst.events
          (w.lst.fut.toList.map (.resolve · .stopped) ++ [.ended])
          { w with lst := ⟨true, .stopped, none, [], false⟩ } _ hcells
        simp only [h1]
        have hfin : ∀ reqs log, Cells w.next reqs log (evs ++ [.stopListener]) [] →
            Inv { w with lst := ⟨true, .stopped, none, [], false⟩, reqs := reqs, log := log, handler := false }
              (evs ++ [.stopListener]) := by
          intro reqs log hcl
          exact ⟨hcl, hinv, by simp⟩
        cases w.lst.fut with
        | none => exact ⟨_, rfl, hfin reqs log h2⟩
        | some f =>
          obtain ⟨reqs', log', h3, h4⟩ := act_resolve
            { w with lst := ⟨true, .stopped, none, [], false⟩, reqs := reqs, log := log } _ _ f .stopped h2
          refine ⟨_, ?_, hfin reqs' log' h4⟩
          simp only [Option.toList, List.map_cons, List.map_nil, List.cons_append, List.nil_append, acts, h3, Option.bind]
          rfl
      · have hl : Listener.stop w.lst = (w.lst, .ok, []) := by simp [Listener.stop, hini, hec]
        rw [hl]
        exact ⟨_, rfl, hcells, h.lst, h.handler⟩
  | setPassword i p =>
    obtain ⟨hh, hfr⟩ := ha
    have hn : i < w.next := by
      apply Classical.byContradiction
      intro hn
      have := (h.cells.none i (by omega)).2
      have : Spec.handed i w.log = 0 := congrArg View.handed this
      omega
    obtain ⟨s, h1, h2, -⟩ := h.cells.some i hn
    have e1 : (view evs w.log w.lst.events i).handed ≠ 0 := by simp only [view]; omega
    have e2 : (view evs w.log w.lst.events i).freed = false := by simp [view, hfr]
    rw [h2] at e1 e2
    have hother : ∀ j log, j ≠ i →
        view (evs ++ [.setPassword i p]) log w.lst.events j = view evs log w.lst.events j := by
      intro j log hj
      exact view_event _ _ _ _ _ (by simp) (by intro v h; cases h; exact hj rfl)
    cases s with
    | held =>
      have hstep : step w (.setPassword i p) = some { w with
          reqs := set w.reqs i { w.reqs i with handled := true }
          log := w.log ++ [.ready i (some p)] } := by
        simp [step, setPassword, h1, Stage.req]
      refine ⟨_, hstep, h.cells.change i hn (.answered p) _ (by rw [h1]; rfl) ?_ (by simp) hmem ?_, h.lst, h.handler⟩
      · simp only [view, Stage.view, View.mk.injEq] at h2 ⊢
        simp [answers_append, handed_append, given_append, answers, handed, given, h2]
      · intro j hj
        rw [hother j _ hj]
        simp [view, answers_append, handed_append, answers, handed, Ne.symm hj]
    | answered q =>
      have hstep : step w (.setPassword i p) = some w := by
        simp [step, setPassword, h1, Stage.req]
      refine ⟨_, hstep, h.cells.same hmem ?_, h.lst, h.handler⟩
      intro j
      by_cases hj : j = i
      · subst hj
        rw [h2]
        simp only [view, Stage.view, View.mk.injEq] at h2 ⊢
        simp [given_append, h2]
      · exact hother j _ hj
    | over q => cases e2
    | _ => exact absurd rfl e1
  | free i =>
    obtain ⟨hh, hfr⟩ := ha
    have hn : i < w.next := by
      apply Classical.byContradiction
      intro hn
      have := (h.cells.none i (by omega)).2
      have : Spec.handed i w.log = 0 := congrArg View.handed this
      omega
    obtain ⟨s, h1, h2, -⟩ := h.cells.some i hn
    have e1 : (view evs w.log w.lst.events i).handed ≠ 0 := by simp only [view]; omega
    have e2 : (view evs w.log w.lst.events i).freed = false := by simp [view, hfr]
    rw [h2] at e1 e2
    have hother : ∀ j log, j ≠ i → view (evs ++ [.free i]) log w.lst.events j = view evs log w.lst.events j := by
      intro j log hj
      exact view_event _ _ _ _ _ (by intro h; cases h; exact hj rfl) (by simp)
    cases s with
    | held =>
      have hstep : step w (.free i) = some { w with
          reqs := set w.reqs i { w.reqs i with freed := true }
          log := w.log ++ [.ready i none] } := by
        simp [step, freeInternal, h1, Stage.req]
      refine ⟨_, hstep, h.cells.change i hn (.over none) _ (by rw [h1]; rfl) ?_ (by simp) hmem ?_, h.lst, h.handler⟩
      · simp only [view, Stage.view, View.mk.injEq] at h2 ⊢
        simp [answers_append, handed_append, given_append, answers, handed, given, h2]
      · intro j hj
        rw [hother j _ hj]
        simp [view, answers_append, handed_append, answers, handed, Ne.symm hj]
    | answered q =>
      have hstep : step w (.free i) = some { w with reqs := set w.reqs i { w.reqs i with freed := true } } := by
        simp [step, freeInternal, h1, Stage.req]
      refine ⟨_, hstep, h.cells.change i hn (.over (some q)) _ (by rw [h1]; rfl) ?_ (by simp) hmem ?_, h.lst, h.handler⟩
      · simp only [view, Stage.view, View.mk.injEq] at h2 ⊢
        simp [given_append, given, h2]
      · intro j hj
        exact hother j _ hj
    | over q => cases e2
    | _ => exact absurd rfl e1

theorem inv_run (evs : List Ev) (h : Legal evs) : ∃ w, run init evs = some w ∧ Inv w evs := by
  suffices ∀ r : List Ev, Legal r.reverse → ∃ w, run init r.reverse = some w ∧ Inv w r.reverse by
    have := this evs.reverse; rw [List.reverse_reverse] at this; exact this h
  intro r
  induction r with
  | nil => exact fun _ => ⟨init, rfl, inv_init⟩
  | cons e r ih =>
    intro h
    rw [List.reverse_cons] at h ⊢
    obtain ⟨w, h1, h2⟩ := ih (fun a b c hab => h a b (c ++ [e]) (by rw [hab]; simp))
    obtain ⟨w', h3, h4⟩ := inv_step w _ h2 e (h _ e [] rfl w h1)
    refine ⟨w', ?_, h4⟩
    rw [run_append, h1]
    simp only [Option.bind, run, h3]

instance (evs log e) : Decidable (Allowed evs log e) :=
  match e with
  | .setPassword _ _ => inferInstanceAs (Decidable (_ ∧ _))
  | .free _ => inferInstanceAs (Decidable (_ ∧ _))
  | .request _ => isTrue trivial
  | .initListener => isTrue trivial
  | .listen _ => isTrue trivial
  | .stopListener => isTrue trivial

def legalFrom (w : World) (p : List Ev) : List Ev → Bool
  | [] => true
  | e :: es => decide (Allowed p w.log e) &&
    match step w e with
    | none => true
    | some w' => legalFrom w' (p ++ [e]) es

theorem legal_check (evs : List Ev) (h : legalFrom init [] evs = true) : Legal evs := by
  suffices ∀ (es p : List Ev) (w : World), run init p = some w → legalFrom w p es = true →
      ∀ a e rest, es = a ++ e :: rest → ∀ w', run init (p ++ a) = some w' → Allowed (p ++ a) w'.log e by
    intro a e rest he w hw
    exact this evs [] init rfl h a e rest he w hw
  intro es
  induction es with
  | nil => intro p w _ _ a e rest he; simp at he
  | cons x es ih =>
    intro p w hp hl a e rest he w' hw'
    simp only [legalFrom, Bool.and_eq_true, decide_eq_true_eq] at hl
    cases a with
    | nil =>
      simp only [List.nil_append, List.cons.injEq] at he
      obtain ⟨rfl, rfl⟩ := he
      simp only [List.append_nil] at hw' ⊢
      rw [hp] at hw'
      cases hw'
      exact hl.1
    | cons y a =>
      simp only [List.cons_append, List.cons.injEq] at he
      obtain ⟨rfl, he⟩ := he
      have hpx : run init (p ++ [x]) = (step w x) := by
        rw [run_append, hp]
        simp only [Option.bind, run]
        cases step w x <;> rfl
      rw [show p ++ x :: a = (p ++ [x]) ++ a by simp] at hw' ⊢
      cases hs : step w x with
      | none =>
        rw [hs] at hpx
        rw [run_append, hpx] at hw'
        cases hw'
      | some k =>
        rw [hs] at hpx hl
        exact ih (p ++ [x]) k hpx hl.2 a e rest he w' hw'

/-! ## C56 -/

/-- C56: nothing undefined happens, no request is answered twice, and the answer is the application's first one; a
request the application did not answer or did not get is answered without a password. -/
theorem C56_answered_once (evs : List Ev) (h : Legal evs) :
    ∃ w, run init evs = some w ∧ ∀ i, answers i w.log = [] ∨ answers i w.log = [(given i evs).getD none] := by
  obtain ⟨w, h1, h2⟩ := inv_run evs h
  refine ⟨w, h1, fun i => ?_⟩
  by_cases hn : i < w.next
  · obtain ⟨s, -, hv, -⟩ := h2.cells.some i hn
    have e1 : answers i w.log = s.view.answers := congrArg View.answers hv
    have e2 : given i evs = s.view.given := congrArg View.given hv
    rw [e1, e2]
    cases s with
    | queued => exact .inl rfl
    | held => exact .inl rfl
    | lost => exact .inl rfl
    | _ => exact .inr rfl
  · exact .inl (congrArg View.answers (h2.cells.none i (by omega)).2)

/-- C56: a request that is not answered is in the listener's queue, or is with the application, which has not
answered it, as long as memory has not run out. -/
theorem C56_not_lost_partial (evs : List Ev) (h : Legal evs) (hm : .request false ∉ evs) :
    ∃ w, run init evs = some w ∧ ∀ i < w.next, answers i w.log = [] →
      i ∈ w.lst.events ∨ handed i w.log = 1 ∧ given i evs = none := by
  obtain ⟨w, h1, h2⟩ := inv_run evs h
  refine ⟨w, h1, fun i hn ha => ?_⟩
  obtain ⟨s, -, hv, hl⟩ := h2.cells.some i hn
  have e1 : answers i w.log = s.view.answers := congrArg View.answers hv
  have e2 : given i evs = s.view.given := congrArg View.given hv
  have e4 : handed i w.log = s.view.handed := congrArg View.handed hv
  have e5 : w.lst.events.count i = s.view.queued := congrArg View.queued hv
  rw [e2, e4]
  rw [e1] at ha
  cases s with
  | queued => exact .inl (List.count_pos_iff.mp (by rw [e5]; exact Nat.one_pos))
  | held => exact .inr ⟨rfl, rfl⟩
  | lost => exact absurd (hl rfl) hm
  | _ => cases ha

/-- C56: no request is handed to the application twice. -/
theorem C56_handed_once (evs : List Ev) (h : Legal evs) :
    ∃ w, run init evs = some w ∧ ∀ i, handed i w.log ≤ 1 := by
  obtain ⟨w, h1, h2⟩ := inv_run evs h
  refine ⟨w, h1, fun i => ?_⟩
  by_cases hn : i < w.next
  · obtain ⟨s, -, hv, -⟩ := h2.cells.some i hn
    have e1 : handed i w.log = s.view.handed := congrArg View.handed hv
    rw [e1]
    cases s <;> simp [Stage.view]
  · have : handed i w.log = 0 := congrArg View.handed (h2.cells.none i (by omega)).2
    omega

/-- C56: when the listener is stopped, every request in its queue is answered without a password, and from then
on clients are refused until there is a new listener. -/
theorem C56_stopped (evs : List Ev) (h : Legal (evs ++ [.stopListener])) :
    ∃ w, run init (evs ++ [.stopListener]) = some w ∧ w.lst.events = [] ∧
      ∀ mem, ∃ w', step w (.request mem) = some w' ∧ answers w.next w'.log = [none] := by
  obtain ⟨w, h1, h2⟩ := inv_run _ h
  have hw : w.handler = false := by
    cases hh : w.handler with
    | false => rfl
    | true =>
      exfalso
      obtain ⟨hi, hec⟩ := h2.handler.mp hh
      rw [run_append] at h1
      cases h0 : run init evs with
      | none => rw [h0] at h1; cases h1
      | some k =>
        rw [h0] at h1
        have h3 : acts { k with lst := (Listener.stop k.lst).1 } (Listener.stop k.lst).2.2 = some w := by
          simp only [Option.bind, run, step] at h1
          cases hx : acts { k with lst := (Listener.stop k.lst).1 } (Listener.stop k.lst).2.2 with
          | none => rw [hx] at h1; cases h1
          | some _ => rw [hx] at h1; exact h1
        have hlst : ∀ (as : List Listener.Act) (w w' : World), acts w as = some w' → w'.lst = w.lst := by
          intro as
          induction as with
          | nil => intro w w' h; cases h; rfl
          | cons a as ih =>
            intro w w' h
            simp only [acts] at h
            cases ha : act w a with
            | none => rw [ha] at h; cases h
            | some k =>
              rw [ha] at h
              rw [ih k w' h]
              cases a with
              | deliver i f => cases ha; rfl
              | release i c =>
                simp only [act] at ha
                split at ha
                · simp only [freeInternal] at ha
                  split at ha
                  · cases ha
                  · cases ha
                    split <;> rfl
                · cases ha; rfl
              | resolve f c => cases ha; rfl
              | ended => cases ha; rfl
        rw [hlst _ _ _ h3] at hi hec
        simp only [Listener.stop] at hi hec
        cases hki : k.lst.initialized with
        | false => simp [hki] at hi
        | true =>
          by_cases hke : k.lst.ec = .ok
          · simp [hki, hke, Listener.setErrorCode, Listener.resolveErrorState] at hec
          · simp [hki, hke] at hec
  refine ⟨w, h1, events_nil h2 hw, fun mem => ?_⟩
  refine ⟨{ w with next := w.next + 1, log := w.log ++ [.refused w.next] }, by simp [step, request, hw], ?_⟩
  have : answers w.next w.log = [] := congrArg View.answers (h2.cells.none w.next (Nat.le_refl _)).2
  simp [answers_append, this, answers]

/-- A history with one request for each fate: refused without a listener, answered with a password, freed by the
application, cleaned up when the listener is stopped. -/
def sample : List Ev :=
  [.request true, .initListener, .request true, .listen 7, .setPassword 1 "secret", .free 1, .listen 8, .request true,
   .free 2, .request true, .stopListener, .initListener, .request true]

example : Legal sample ∧ .request false ∉ sample := ⟨legal_check _ (by decide +kernel), by decide⟩

example : ((run init sample).map fun w => (w.log, w.lst.events)) =
    some ([.refused 0, .handed 1 7, .resolved 7 .ok, .ready 1 (some "secret"), .handed 2 8, .resolved 8 .ok,
      .ready 2 none, .ready 3 none], [4]) := by decide +kernel

/-- C56 is violated when memory runs out: the client's request is not answered, and nobody has it. -/
theorem C56_out_of_memory_violated :
    ∃ evs, Legal evs ∧ ∃ w, run init evs = some w ∧
      0 < w.next ∧ answers 0 w.log = [] ∧ 0 ∉ w.lst.events ∧ handed 0 w.log = 0 :=
  ⟨[.initListener, .request false], legal_check _ (by decide +kernel), _, rfl, by decide, by decide, by decide, by decide⟩

end Verif.Api.Pwd
