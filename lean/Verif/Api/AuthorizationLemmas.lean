import Verif.Api.AuthorizationSpec
import Verif.Api.ListenerProps

/-!
# Authorization requests — lemmas

Every request is in one of a few stages; a stage determines the memory of the request and what has happened to it.
-/

namespace Verif.Api.Auth

open Verif.Api Verif.Api.Auth.Spec

theorem run_append (w : World) (a b : List Ev) : run w (a ++ b) = (run w a).bind (run · b) := by
  induction a generalizing w with
  | nil => rfl
  | cons e es ih =>
    simp only [List.cons_append, run]
    cases step w e with
    | none => rfl
    | some w' => exact ih w'

theorem given_append (i : Nat) (a b : List Obs) : given i (a ++ b) = given i a ++ given i b := by
  induction a with
  | nil => rfl
  | cons o os ih =>
    cases o with
    | given j v =>
      simp only [List.cons_append, given, ih]
      split <;> rfl
    | _ => exact ih

theorem handed_append (i : Nat) (a b : List Obs) : handed i (a ++ b) = handed i a + handed i b := by
  induction a with
  | nil => simp [handed]
  | cons o os ih =>
    cases o with
    | handed j v => simp only [List.cons_append, handed, ih]; omega
    | _ => exact ih

theorem answer_append (i : Nat) (a b : List Ev) : answer i (a ++ b) = (answer i a).or (answer i b) := by
  induction a with
  | nil => rfl
  | cons o os ih =>
    cases o with
    | verdict j v => simp only [List.cons_append, answer, ih]; split <;> rfl
    | free j => simp only [List.cons_append, answer, ih]; split <;> rfl
    | _ => exact ih

/-- What has happened to a request. -/
structure View where
  checked : Bool := false
  discarded : Bool := false
  freed : Bool := false
  answer : Option Bool := none
  handed : Nat := 0
  given : List Bool := []
  queued : Nat := 0
  deriving DecidableEq

def view (evs : List Ev) (log : List Obs) (q : List Nat) (i : Nat) : View where
  checked := decide (.check i ∈ evs)
  discarded := decide (.discard i ∈ evs)
  freed := decide (.free i ∈ evs)
  answer := Spec.answer i evs
  handed := Spec.handed i log
  given := Spec.given i log
  queued := q.count i

inductive Stage
  | fresh | discarded
  /-- in the listener's queue -/
  | queued
  /-- with the application, without a verdict -/
  | held
  /-- with the application, verdict given, not yet with the core -/
  | decided (v : Bool)
  /-- with the application, the core has its verdict -/
  | told (v : Bool)
  /-- the application is done with it, the core does not have the verdict yet -/
  | left (v : Bool)
  | over (v : Bool)
  /-- denied without asking the application -/
  | denied | deniedOver
  deriving DecidableEq

def Stage.req : Stage → Req
  | .fresh => { refs := 1 }
  | .discarded => { refs := 0, freed := true }
  | .queued => { refs := 1, callback := true }
  | .held => { refs := 2, callback := true }
  | .decided v => { refs := 2, callback := true, verdict := some v, posted := true }
  | .told v => { refs := 1, callback := true, verdict := some v }
  | .left v => { refs := 1, callback := true, verdict := some v, posted := true }
  | .over v => { refs := 0, callback := true, verdict := some v, freed := true }
  | .denied => { refs := 1, callback := true, verdict := some false, posted := true }
  | .deniedOver => { refs := 0, callback := true, verdict := some false, freed := true }

def Stage.view : Stage → View
  | .fresh => {}
  | .discarded => { discarded := true }
  | .queued => { checked := true, queued := 1 }
  | .held => { checked := true, handed := 1 }
  | .decided v => { checked := true, handed := 1, answer := some v }
  | .told v => { checked := true, handed := 1, answer := some v, given := [v] }
  | .left v => { checked := true, handed := 1, answer := some v, freed := true }
  | .over v => { checked := true, handed := 1, answer := some v, freed := true, given := [v] }
  | .denied => { checked := true }
  | .deniedOver => { checked := true, given := [false] }

/-- All requests are in some stage, with queue `q`. -/
structure Cells (n : Nat) (reqs : Nat → Req) (log : List Obs) (evs : List Ev) (q : List Nat) : Prop where
  some : ∀ i < n, ∃ s : Stage, reqs i = s.req ∧ view evs log q i = s.view
  none : ∀ i, n ≤ i → reqs i = {} ∧ view evs log q i = {}

theorem set_same (f : Nat → Req) (i : Nat) (r : Req) : set f i r i = r := if_pos rfl
theorem set_other (f : Nat → Req) {i j : Nat} (h : j ≠ i) (r : Req) : set f i r j = f j := if_neg h

/-- Changing one request. -/
theorem Cells.change {n reqs log evs q log' evs' q'} (h : Cells n reqs log evs q) (i : Nat) (hi : i < n) (s : Stage)
    (r : Req) (hr : r = s.req) (hv : view evs' log' q' i = s.view)
    (ho : ∀ j, j ≠ i → view evs' log' q' j = view evs log q j) : Cells n (set reqs i r) log' evs' q' := by
  refine ⟨fun j hj => ?_, fun j hj => ?_⟩
  · by_cases hji : j = i
    · subst hji
      exact ⟨s, by rw [set_same, hr], hv⟩
    · rw [set_other _ hji, ho j hji]
      exact h.some j hj
  · rw [ho j (by omega), set_other _ (by omega)]
    exact h.none j hj

/-- Something that concerns no request. -/
theorem Cells.same {n reqs log evs q log' evs' q'} (h : Cells n reqs log evs q)
    (ho : ∀ j, view evs' log' q' j = view evs log q j) : Cells n reqs log' evs' q' :=
  ⟨fun j hj => by rw [ho j]; exact h.some j hj, fun j hj => by rw [ho j]; exact h.none j hj⟩

theorem Cells.queued {n reqs log evs q} (h : Cells n reqs log evs q) {i : Nat} (hq : i ∈ q) :
    i < n ∧ reqs i = Stage.queued.req ∧ view evs log q i = Stage.queued.view := by
  have hc : 0 < (view evs log q i).queued := List.count_pos_iff.mpr hq
  by_cases hi : i < n
  · obtain ⟨s, h1, h2⟩ := h.some i hi
    rw [h2] at hc
    cases s with
    | queued => exact ⟨hi, h1, h2⟩
    | _ => exact absurd hc (Nat.lt_irrefl 0)
  · rw [(h.none i (by omega)).2] at hc
    exact absurd hc (Nat.lt_irrefl 0)

theorem view_resolved (evs log q i f ec) : view evs (log ++ [Obs.resolved f ec]) q i = view evs log q i := by
  simp [view, given_append, handed_append, given, handed]

theorem view_erase_other (evs log i) {j : Nat} (q : List Nat) (h : j ≠ i) :
    view evs log (q.erase i) j = view evs log q j := by
  simp [view, List.count_erase_of_ne h]

/-! ### Parts of the steps -/

theorem act_resolve (w : World) (evs q f ec) (h : Cells w.next w.reqs w.log evs q) :
    ∃ reqs log, act w (.resolve f ec) = some { w with reqs := reqs, log := log } ∧ Cells w.next reqs log evs q :=
  ⟨w.reqs, w.log ++ [.resolved f ec], rfl, h.same fun _ => view_resolved ..⟩

theorem act_deliver (w : World) (evs q i f) (h : Cells w.next w.reqs w.log evs q) (hi : i ∈ q) :
    ∃ reqs log, act w (.deliver i f) = some { w with reqs := reqs, log := log } ∧
      Cells w.next reqs log evs (q.erase i) := by
  obtain ⟨hn, hr, hv⟩ := h.queued hi
  refine ⟨set w.reqs i { w.reqs i with refs := (w.reqs i).refs + 1 }, w.log ++ [.handed i f], ?_, ?_⟩
  · simp [act, refInc, hr, Stage.req]
  · refine h.change i hn .held _ ?_ ?_ ?_
    · rw [hr]; rfl
    · simp only [view, Stage.view, View.mk.injEq] at hv ⊢
      simp [handed_append, given_append, handed, given, hv]
    · intro j hj
      simp [view, handed_append, given_append, handed, given, Ne.symm hj, List.count_erase_of_ne hj]

theorem deny (w : World) (evs q i) (h : Cells w.next w.reqs w.log evs q) (hi : i ∈ q) :
    ∃ reqs log, doVerdict w i false = some { w with reqs := reqs, log := log } ∧
      Cells w.next reqs log evs (q.erase i) := by
  obtain ⟨hn, hr, hv⟩ := h.queued hi
  refine ⟨set w.reqs i { w.reqs i with verdict := some false, posted := true }, w.log, ?_, ?_⟩
  · simp [doVerdict, hr, Stage.req]
  · refine h.change i hn .denied _ ?_ ?_ ?_
    · rw [hr]; rfl
    · simp only [view, Stage.view, View.mk.injEq] at hv ⊢
      simp [hv]
    · intro j hj
      exact view_erase_other _ _ _ _ hj

theorem acts_release (l : List Nat) (c : Listener.Ec) (as : List Listener.Act) (w : World) (evs)
    (h : Cells w.next w.reqs w.log evs l) :
    ∃ reqs log, acts w (l.map (.release · c) ++ as) = acts { w with reqs := reqs, log := log } as ∧
      Cells w.next reqs log evs [] := by
  induction l generalizing w with
  | nil => exact ⟨w.reqs, w.log, rfl, h⟩
  | cons i l ih =>
    obtain ⟨reqs, log, h1, h2⟩ := deny w evs (i :: l) i h (by simp)
    rw [List.erase_cons_head] at h2
    obtain ⟨reqs', log', h3, h4⟩ := ih { w with reqs := reqs, log := log } h2
    refine ⟨reqs', log', ?_, h4⟩
    simp only [List.map_cons, List.cons_append, acts, act, h1, Option.bind]
    exact h3

/-! ### The invariant -/

structure Inv (w : World) (evs : List Ev) : Prop where
  cells : Cells w.next w.reqs w.log evs w.lst.events
  lst : Listener.Inv w.lst
  null : w.listener = .null ↔ w.lst.initialized = false
  dangling : w.listener = .dangling → .freeListener ∈ evs
  stopped : .stopListener ∈ evs → w.lst.initialized = true → w.lst.ec ≠ .ok

theorem inv_init : Inv init [] :=
  ⟨⟨by simp [init], fun i _ => ⟨rfl, rfl⟩⟩, Listener.inv_new, by simp [init, Listener.new], by simp [init], by simp⟩

/-- An event that is not about requests does not change what has happened to them. -/
theorem view_event (evs log q i e) (h1 : e ≠ .check i) (h2 : e ≠ .discard i) (h3 : e ≠ .free i)
    (h4 : ∀ v, e ≠ .verdict i v) : view (evs ++ [e]) log q i = view evs log q i := by
  have : Spec.answer i [e] = none := by
    cases e with
    | verdict j v =>
      by_cases hj : j = i
      · subst hj; exact absurd rfl (h4 v)
      · simp [answer, hj]
    | free j =>
      by_cases hj : j = i
      · subst hj; exact absurd rfl h3
      · simp [answer, hj]
    | _ => rfl
  simp [view, answer_append, this, Ne.symm h1, Ne.symm h2, Ne.symm h3]

/-- A step that changes one request only. -/
theorem Inv.change {w evs} (h : Inv w evs) (e : Ev) (he : e ≠ .stopListener) (i : Nat) (hi : i < w.next) (s : Stage)
    (r : Req) (log : List Obs) (hr : r = s.req) (hv : view (evs ++ [e]) log w.lst.events i = s.view)
    (ho : ∀ j, j ≠ i → view (evs ++ [e]) log w.lst.events j = view evs w.log w.lst.events j) :
    Inv { w with reqs := set w.reqs i r, log := log } (evs ++ [e]) :=
  ⟨h.cells.change i hi s r hr hv ho, h.lst, h.null, fun hd => List.mem_append_left _ (h.dangling hd), fun hs => by
    have : .stopListener ∈ evs := by
      rcases List.mem_append.mp hs with hs | hs
      · exact hs
      · simp only [List.mem_singleton] at hs
        exact absurd hs.symm he
    exact h.stopped this⟩

theorem acts_nil (w : World) : acts w [] = some w := rfl

theorem set_set (f : Nat → Req) (i : Nat) (r r' : Req) : set (set f i r) i r' = set f i r' := by
  funext j
  simp only [set]
  split <;> rfl

theorem submit_accepted (w : World) (k i l as) (hp : w.listener = .alive) (hk : w.lst = k) (h : Listener.addEvent k i = (l, .ok, as)) :
    submit w i = acts { w with lst := l } as := by
  simp only [submit, hp, hk, h]

theorem submit_refused (w : World) (i ec) (hp : w.listener = .alive) (h : Listener.addEvent w.lst i = (w.lst, ec, []))
    (hec : ec ≠ .ok) : submit w i = doVerdict w i false := by
  simp only [submit, hp, h]
  cases ec with
  | ok => exact absurd rfl hec
  | _ =>
    obtain ⟨p, l, n, r, o⟩ := w
    simp only at hp
    subst hp
    rfl

theorem inv_step (w : World) (evs : List Ev) (h : Inv w evs) (e : Ev) (ha : Allowed w.next evs w.log e)
    (hc : ∀ i, e = .check i → .freeListener ∉ evs) : ∃ w', step w e = some w' ∧ Inv w' (evs ++ [e]) := by
  cases e with
  | create =>
    refine ⟨_, rfl, ?_⟩
    have hv : ∀ j, view (evs ++ [.create]) w.log w.lst.events j = view evs w.log w.lst.events j :=
      fun j => view_event _ _ _ _ _ (by simp) (by simp) (by simp) (by simp)
    refine ⟨⟨fun j hj => ?_, fun j hj => ?_⟩, h.lst, h.null, fun hd => List.mem_append_left _ (h.dangling hd),
      fun hs => h.stopped (by simpa using hs)⟩
    · by_cases hjn : j = w.next
      · subst hjn
        refine ⟨.fresh, set_same .., ?_⟩
        exact (hv _).trans (h.cells.none _ (Nat.le_refl _)).2
      · have : j < w.next := by have : j < w.next + 1 := hj; omega
        obtain ⟨s, h1, h2⟩ := h.cells.some j this
        exact ⟨s, (set_other _ hjn _).trans h1, (hv j).trans h2⟩
    · have hj : w.next + 1 ≤ j := hj
      have := h.cells.none j (by omega)
      exact ⟨(set_other _ (by omega) _).trans this.1, (hv j).trans this.2⟩
  | discard i =>
    obtain ⟨hn, hd, hch⟩ := ha
    obtain ⟨s, h1, h2⟩ := h.cells.some i hn
    have hs : s = .fresh := by
      have e1 : (view evs w.log w.lst.events i).checked = false := by simp [view, hch]
      have e2 : (view evs w.log w.lst.events i).discarded = false := by simp [view, hd]
      rw [h2] at e1 e2
      cases s <;> simp_all [Stage.view]
    subst hs
    have hstep : step w (.discard i) = some { w with reqs := set w.reqs i { w.reqs i with refs := 0, posted := false, freed := true } } := by
      simp [step, refDec, h1, Stage.req]
    refine ⟨_, hstep, h.change (.discard i) (by simp) i hn .discarded _ _ (by rw [h1]; rfl) ?_ ?_⟩
    · simp only [view, Stage.view, View.mk.injEq] at h2 ⊢
      simp [h2, answer_append, answer]
    · intro j hj
      exact view_event _ _ _ _ _ (by simp) (by simpa using Ne.symm hj) (by simp) (by simp)
  | check i =>
    obtain ⟨hn, hd, hch⟩ := ha
    obtain ⟨s, h1, h2⟩ := h.cells.some i hn
    have hs : s = .fresh := by
      have e1 : (view evs w.log w.lst.events i).checked = false := by simp [view, hch]
      have e2 : (view evs w.log w.lst.events i).discarded = false := by simp [view, hd]
      rw [h2] at e1 e2
      cases s <;> simp_all [Stage.view]
    subst hs
    -- first the request is marked as checked and queued
    have hq : Cells w.next (set w.reqs i { w.reqs i with callback := true }) w.log (evs ++ [.check i])
        (w.lst.events ++ [i]) := by
      refine h.cells.change i hn .queued _ (by rw [h1]; rfl) ?_ ?_
      · simp only [view, Stage.view, View.mk.injEq] at h2 ⊢
        simp [h2, answer_append, answer]
      · intro j hj
        rw [view_event _ _ _ _ _ (by simpa using Ne.symm hj) (by simp) (by simp) (by simp)]
        simp [view, Ne.symm hj]
    have hfr : (w.reqs i).freed = false := by rw [h1]; rfl
    have hcheck : step w (.check i) = submit (setCallback w i) i := by
      show check w i = _
      rw [check, hfr]; rfl
    have hw : Cells (setCallback w i).next (setCallback w i).reqs (setCallback w i).log (evs ++ [.check i])
        (w.lst.events ++ [i]) := hq
    have hwl : (setCallback w i).lst = w.lst := rfl
    have hwp : (setCallback w i).listener = w.listener := rfl
    rw [hcheck]
    have hstop : .stopListener ∈ evs ++ [.check i] → .stopListener ∈ evs := by simp
    have hnot : i ∉ w.lst.events := by
      have : (view evs w.log w.lst.events i).queued = 0 := by rw [h2]; rfl
      exact List.count_eq_zero.mp this
    have hlast : (w.lst.events ++ [i]).erase i = w.lst.events := by
      rw [List.erase_append_right _ hnot]; simp
    generalize setCallback w i = k at *
    have hdeny : ∃ w', doVerdict k i false = some w' ∧ Inv w' (evs ++ [.check i]) := by
      obtain ⟨reqs, log, h3, h4⟩ := deny k _ _ i hw (by simp)
      refine ⟨_, h3, ?_, ?_, ?_, ?_, ?_⟩
      · rw [hlast] at h4
        simp only [hwl]
        exact h4
      · simp only [hwl]; exact h.lst
      · simp only [hwl, hwp]; exact h.null
      · simp only [hwp]; exact fun hd => List.mem_append_left _ (h.dangling hd)
      · simp only [hwl]; exact fun hs => h.stopped (hstop hs)
    cases hp : w.listener with
    | dangling => exact absurd (h.dangling hp) (hc i rfl)
    | null =>
      rw [hp] at hwp
      rw [submit, hwp]
      exact hdeny
    | alive =>
      have hini : w.lst.initialized = true := by
        cases hi : w.lst.initialized with
        | true => rfl
        | false => rw [h.null.mpr hi] at hp; cases hp
      by_cases hec : w.lst.ec = .ok
      · obtain ⟨hcb, hor⟩ := h.lst.running hini hec
        cases hf : w.lst.fut with
        | none =>
          have hadd : Listener.addEvent w.lst i = ({ w.lst with events := w.lst.events ++ [i] }, .ok, []) := by
            simp [Listener.addEvent, Listener.tryResolve, hini, hec, hf]
          rw [submit_accepted k _ i _ _ (hwp.trans hp) hwl hadd]
          refine ⟨_, rfl, hw, ⟨?_, ?_, ?_⟩, ?_, ?_, fun hs => h.stopped (hstop hs)⟩
          · intro h'; simp only at h'; rw [hini] at h'; cases h'
          · intro _ _; exact ⟨hcb, .inl hf⟩
          · intro _ h'; exact absurd hec h'
          · simp only [hwp]; exact h.null
          · simp only [hwp]; exact fun hd => List.mem_append_left _ (h.dangling hd)
        | some f =>
          have hev : w.lst.events = [] := by simpa [hf] using hor
          have hadd : Listener.addEvent w.lst i =
              ({ w.lst with fut := none }, .ok, [.deliver i f, .resolve f .ok]) := by
            simp [Listener.addEvent, Listener.tryResolve, hini, hec, hf, hev, hcb]
          rw [submit_accepted k _ i _ _ (hwp.trans hp) hwl hadd]
          obtain ⟨reqs, log, h3, h4⟩ := act_deliver { k with lst := { w.lst with fut := none } } _ _ i f hw (by simp)
          obtain ⟨reqs', log', h5, h6⟩ := act_resolve
            { k with reqs := reqs, log := log, lst := { w.lst with fut := none } } _ _ f .ok h4
          have h7 : acts { k with lst := { w.lst with fut := none } } [.deliver i f, .resolve f .ok] =
              some { k with reqs := reqs', log := log', lst := { w.lst with fut := none } } := by
            simp only [acts, h3, Option.bind]
            rw [h5]
          refine ⟨_, h7, ?_, ⟨?_, ?_, ?_⟩, ?_, ?_, fun hs => h.stopped (hstop hs)⟩
          · rw [hlast] at h6
            exact h6
          · intro h'; simp only at h'; rw [hini] at h'; cases h'
          · intro _ _; exact ⟨hcb, .inl rfl⟩
          · intro _ h'; exact absurd hec h'
          · simp only [hwp]; exact h.null
          · simp only [hwp]; exact fun hd => List.mem_append_left _ (h.dangling hd)
      · have hadd : Listener.addEvent k.lst i = (k.lst, k.lst.ec, []) := by
          rw [hwl]
          simp [Listener.addEvent, hini, hec]
        rw [submit_refused k i _ (hwp.trans hp) hadd (hwl ▸ hec)]
        exact hdeny
  | run i =>
    have hev : ∀ j log, view (evs ++ [.run i]) log w.lst.events j = view evs log w.lst.events j :=
      fun j log => view_event _ _ _ _ _ (by simp) (by simp) (by simp) (by simp)
    have hskip : Inv w (evs ++ [.run i]) :=
      ⟨h.cells.same fun j => hev j _, h.lst, h.null, fun hd => List.mem_append_left _ (h.dangling hd),
        fun hs => h.stopped (by simpa using hs)⟩
    by_cases hpo : (w.reqs i).posted = true
    · by_cases hn : i < w.next
      · obtain ⟨s, h1, h2⟩ := h.cells.some i hn
        have hgo : ∀ v (t : Stage), (w.reqs i).callback = true → (w.reqs i).verdict = some v →
            (w.reqs i).freed = false →
            (if (w.reqs i).refs = 1 then { w.reqs i with refs := 0, posted := false, freed := true }
              else { w.reqs i with refs := (w.reqs i).refs - 1, posted := false }) = t.req →
            { s.view with given := s.view.given ++ [v] } = t.view →
            ∃ w', step w (.run i) = some w' ∧ Inv w' (evs ++ [.run i]) := by
          intro v t hcb hve hfr ht hv
          have hstep : step w (.run i) = some { w with
              reqs := set w.reqs i (if (w.reqs i).refs = 1 then { w.reqs i with refs := 0, posted := false, freed := true }
                else { w.reqs i with refs := (w.reqs i).refs - 1, posted := false })
              log := w.log ++ [.given i v] } := by
            simp only [step, hpo, if_true, handleVerdict, hcb, hve, refDec, set_same, hfr, set_set]
            by_cases hr : (w.reqs i).refs = 1 <;> simp [hr, hve]
          refine ⟨_, hstep, h.change (.run i) (by simp) i hn t _ _ ht ?_ ?_⟩
          · rw [← hv, ← h2, hev]
            simp [view, given_append, handed_append, given, handed]
          · intro j hj
            rw [hev]
            simp [view, given_append, handed_append, given, handed, Ne.symm hj]
        rw [h1] at hpo hgo
        cases s with
        | decided v => exact hgo v (.told v) rfl rfl rfl rfl rfl
        | left v => exact hgo v (.over v) rfl rfl rfl rfl rfl
        | denied => exact hgo false .deniedOver rfl rfl rfl rfl rfl
        | _ => cases hpo
      · rw [(h.cells.none i (by omega)).1] at hpo
        cases hpo
    · exact ⟨w, by simp [step, hpo], hskip⟩
  | initListener =>
    obtain ⟨hnf, hns⟩ := ha
    have hev : ∀ j log, view (evs ++ [.initListener]) log w.lst.events j = view evs log w.lst.events j :=
      fun j log => view_event _ _ _ _ _ (by simp) (by simp) (by simp) (by simp)
    have hcells := h.cells.same fun j => hev j _
    refine ⟨_, rfl, ?_⟩
    by_cases hp : w.listener = .null
    · have hl := h.lst.fresh (h.null.mp hp)
      rw [hl] at hcells
      simp only [initListener, hp, hl, ne_eq, not_true_eq_false, if_false]
      exact ⟨hcells, ⟨by simp [Listener.init], by simp [Listener.init, Listener.new], by simp [Listener.init]⟩,
        by simp [Listener.init], by simp, fun hs => absurd (by simpa using hs) hns⟩
    · simp only [initListener, hp, ne_eq, not_false_eq_true, if_true]
      exact ⟨hcells, h.lst, h.null, fun hd => List.mem_append_left _ (h.dangling hd),
        fun hs => h.stopped (by simpa using hs)⟩
  | listen f =>
    have hev : ∀ j log, view (evs ++ [.listen f]) log w.lst.events j = view evs log w.lst.events j :=
      fun j log => view_event _ _ _ _ _ (by simp) (by simp) (by simp) (by simp)
    have hcells := h.cells.same fun j => hev j _
    have hp : w.listener ≠ .dangling := fun hp => ha (h.dangling hp)
    have hrest : ∀ (l : Listener.Lst) reqs log, l.initialized = w.lst.initialized → l.ec = w.lst.ec →
        Listener.Inv l → Cells w.next reqs log (evs ++ [.listen f]) l.events →
        Inv { w with lst := l, reqs := reqs, log := log } (evs ++ [.listen f]) := by
      intro l reqs log hi he hl hcl
      exact ⟨hcl, hl, by simp only [hi]; exact h.null, fun hd => List.mem_append_left _ (h.dangling hd),
        fun hs => by simp only [hi, he]; exact h.stopped (by simpa using hs)⟩
    have hinv : Listener.Inv (Listener.listen w.lst f).1 := (Listener.exact_step w.lst h.lst (.listen f) (by simp)).inv
    simp only [step, hp, if_false]
    have hsame : ∀ ec, Listener.listen w.lst f = (w.lst, [.resolve f ec]) →
        ∃ w', acts { w with lst := (Listener.listen w.lst f).1 } (Listener.listen w.lst f).2 = some w' ∧
          Inv w' (evs ++ [.listen f]) := by
      intro ec hl
      obtain ⟨reqs, log, h1, h2⟩ := act_resolve { w with lst := w.lst } _ _ f ec hcells
      refine ⟨_, ?_, hrest w.lst reqs log rfl rfl h.lst h2⟩
      rw [hl]
      simp only [acts, h1, Option.bind]
    cases hini : w.lst.initialized with
    | false => exact hsame .invalidArgument (by simp [Listener.listen, hini])
    | true =>
      by_cases hec : w.lst.ec = .ok
      · obtain ⟨hcb, hor⟩ := h.lst.running hini hec
        cases hf : w.lst.fut with
        | some g => exact hsame .operationInProgress (by simp [Listener.listen, Listener.initFuture, hini, hec, hf])
        | none =>
          cases hevs : w.lst.events with
          | nil =>
            have hl : Listener.listen w.lst f = ({ w.lst with fut := some f }, []) := by
              simp [Listener.listen, Listener.initFuture, Listener.tryResolve, hini, hec, hf, hevs]
            rw [hl] at hinv ⊢
            exact ⟨_, rfl, hrest _ _ _ rfl rfl hinv hcells⟩
          | cons i rest =>
            have hl : Listener.listen w.lst f =
                ({ w.lst with events := rest }, [.deliver i f, .resolve f .ok]) := by
              simp only [Listener.listen, Listener.initFuture, Listener.tryResolve]
              simp [hini, hec, hf, hevs, hcb]
            rw [hl] at hinv ⊢
            rw [hevs] at hcells
            obtain ⟨reqs, log, h3, h4⟩ := act_deliver { w with lst := { w.lst with events := rest } } _ _ i f hcells (by simp)
            obtain ⟨reqs', log', h5, h6⟩ := act_resolve
              { w with reqs := reqs, log := log, lst := { w.lst with events := rest } } _ _ f .ok h4
            refine ⟨{ w with lst := { w.lst with events := rest }, reqs := reqs', log := log' }, ?_, hrest _ reqs' log' rfl rfl hinv ?_⟩
            · simp only [acts, h3, Option.bind]
              rw [h5]
            · rw [List.erase_cons_head] at h6
              exact h6
      · exact hsame w.lst.ec (by simp [Listener.listen, hini, hec])
  | stopListener =>
    have hev : ∀ j log, view (evs ++ [.stopListener]) log w.lst.events j = view evs log w.lst.events j :=
      fun j log => view_event _ _ _ _ _ (by simp) (by simp) (by simp) (by simp)
    have hcells := h.cells.same fun j => hev j _
    have hp : w.listener ≠ .dangling := fun hp => ha (h.dangling hp)
    simp only [step, hp, if_false]
    have hinv : Listener.Inv (Listener.stop w.lst).1 := (Listener.exact_step w.lst h.lst .stop (by simp)).inv
    cases hini : w.lst.initialized with
    | false =>
      have hl : Listener.stop w.lst = (w.lst, .invalidState, []) := by simp [Listener.stop, hini]
      rw [hl]
      exact ⟨_, rfl, hcells, h.lst, h.null, fun hd => absurd hd hp, fun _ hi => by
        simp only [hini] at hi; cases hi⟩
    | true =>
      by_cases hec : w.lst.ec = .ok
      · obtain ⟨hcb, hor⟩ := h.lst.running hini hec
        have hl : Listener.stop w.lst = (⟨true, .stopped, none, [], false⟩, .ok,
            w.lst.events.map (.release · .stopped) ++ (w.lst.fut.toList.map (.resolve · .stopped) ++ [.ended])) := by
          simp only [Listener.stop, Listener.setErrorCode, hini, hec]
          simp only [Bool.not_true, Bool.false_eq_true, if_false, if_true]
          have := Listener.resolveErrorState_running .stopped w.lst.fut w.lst.events
          simp only [hcb, this]
          simp
        rw [hl] at hinv ⊢
        obtain ⟨reqs, log, h1, h2⟩ := acts_release w.lst.events .stopped
          (w.lst.fut.toList.map (.resolve · .stopped) ++ [.ended])
          { w with lst := ⟨true, .stopped, none, [], false⟩ } _ hcells
        simp only [h1]
        have hfin : ∀ reqs log, Cells w.next reqs log (evs ++ [.stopListener]) [] →
            Inv { w with lst := ⟨true, .stopped, none, [], false⟩, reqs := reqs, log := log } (evs ++ [.stopListener]) := by
          intro reqs log hcl
          refine ⟨hcl, hinv, ?_, fun hd => absurd hd hp, fun _ _ => by simp⟩
          have := h.null
          rw [hini] at this
          exact this
        cases w.lst.fut with
        | none => exact ⟨_, rfl, hfin reqs log h2⟩
        | some f =>
          obtain ⟨reqs', log', h3, h4⟩ := act_resolve
            { w with lst := ⟨true, .stopped, none, [], false⟩, reqs := reqs, log := log } _ _ f .stopped h2
          refine ⟨_, ?_, hfin reqs' log' h4⟩
          simp only [Option.toList, List.map_cons, List.map_nil, List.cons_append, List.nil_append, acts, h3, Option.bind]
          rfl
      · have hl : Listener.stop w.lst = (w.lst, .ok, []) := by simp [Listener.stop, hini, hec]
        rw [hl]
        exact ⟨_, rfl, hcells, h.lst, h.null, fun hd => absurd hd hp, fun _ _ => hec⟩
  | freeListener =>
    obtain ⟨hnf, hs⟩ := ha
    have hev : ∀ j log, view (evs ++ [.freeListener]) log w.lst.events j = view evs log w.lst.events j :=
      fun j log => view_event _ _ _ _ _ (by simp) (by simp) (by simp) (by simp)
    have hcells := h.cells.same fun j => hev j _
    cases hp : w.listener with
    | dangling => exact absurd (h.dangling hp) hnf
    | null =>
      exact ⟨w, by simp only [step, hp], hcells, h.lst, h.null, by simp [hp], fun _ => h.stopped hs⟩
    | alive =>
      refine ⟨{ w with listener := .dangling }, by simp only [step, hp], hcells, h.lst, ?_, by simp,
        fun _ => h.stopped hs⟩
      have := h.null
      simp [hp] at this
      simp [this]
  | verdict i v =>
    obtain ⟨hh, hfr⟩ := ha
    have hn : i < w.next := by
      apply Classical.byContradiction
      intro hn
      have := (h.cells.none i (by omega)).2
      have : Spec.handed i w.log = 0 := congrArg View.handed this
      omega
    obtain ⟨s, h1, h2⟩ := h.cells.some i hn
    have e1 : (view evs w.log w.lst.events i).handed ≠ 0 := by simp only [view]; omega
    have e2 : (view evs w.log w.lst.events i).freed = false := by simp [view, hfr]
    rw [h2] at e1 e2
    have hother : ∀ j, j ≠ i →
        view (evs ++ [.verdict i v]) w.log w.lst.events j = view evs w.log w.lst.events j := by
      intro j hj
      exact view_event _ _ _ _ _ (by simp) (by simp) (by simp) (by intro v h; cases h; exact hj rfl)
    have hmine : view (evs ++ [.verdict i v]) w.log w.lst.events i =
        { s.view with answer := s.view.answer.or (some v) } := by
      rw [← h2]
      simp [view, answer_append, answer]
    have hkeep : ∀ u, s.view.answer = some u → (w.reqs i).freed = false → (w.reqs i).verdict = some u →
        ∃ w', step w (.verdict i v) = some w' ∧ Inv w' (evs ++ [.verdict i v]) := by
      intro u hu hf hv
      refine ⟨w, by simp [step, doVerdict, hf, hv], h.cells.same ?_, h.lst, h.null,
        fun hd => List.mem_append_left _ (h.dangling hd), fun hs => h.stopped (by simpa using hs)⟩
      intro j
      by_cases hj : j = i
      · subst hj
        rw [hmine, h2, hu, Option.or, ← hu]
      · exact hother j hj
    cases s with
    | held =>
      have hstep : step w (.verdict i v) = some { w with
          reqs := set w.reqs i { w.reqs i with verdict := some v, posted := true } } := by
        simp [step, doVerdict, h1, Stage.req]
      refine ⟨_, hstep, h.change (.verdict i v) (by simp) i hn (.decided v) _ _ (by rw [h1]; rfl) ?_ hother⟩
      rw [hmine]
      rfl
    | decided u => exact hkeep u rfl (by rw [h1]; rfl) (by rw [h1]; rfl)
    | told u => exact hkeep u rfl (by rw [h1]; rfl) (by rw [h1]; rfl)
    | left u => cases e2
    | over u => cases e2
    | _ => exact absurd rfl e1
  | free i =>
    obtain ⟨hh, hfr⟩ := ha
    have hn : i < w.next := by
      apply Classical.byContradiction
      intro hn
      have := (h.cells.none i (by omega)).2
      have : Spec.handed i w.log = 0 := congrArg View.handed this
      omega
    obtain ⟨s, h1, h2⟩ := h.cells.some i hn
    have e1 : (view evs w.log w.lst.events i).handed ≠ 0 := by simp only [view]; omega
    have e2 : (view evs w.log w.lst.events i).freed = false := by simp [view, hfr]
    rw [h2] at e1 e2
    have hother : ∀ j, j ≠ i → view (evs ++ [.free i]) w.log w.lst.events j = view evs w.log w.lst.events j := by
      intro j hj
      exact view_event _ _ _ _ _ (by simp) (by simp) (by intro h; cases h; exact hj rfl) (by simp)
    have hmine : view (evs ++ [.free i]) w.log w.lst.events i =
        { s.view with answer := s.view.answer.or (some false), freed := true } := by
      rw [← h2]
      simp [view, answer_append, answer]
    have hgo : ∀ r (t : Stage), free w i = some { w with reqs := set w.reqs i r } → r = t.req →
        { s.view with answer := s.view.answer.or (some false), freed := true } = t.view →
        ∃ w', step w (.free i) = some w' ∧ Inv w' (evs ++ [.free i]) := by
      intro r t hf hr hv
      exact ⟨_, hf, h.change (.free i) (by simp) i hn t r _ hr (hmine.trans hv) hother⟩
    cases s with
    | held =>
      refine hgo { refs := 1, callback := true, verdict := some false, posted := true } (.left false) ?_ rfl rfl
      simp [free, doVerdict, refDec, h1, Stage.req, set_same, set_set]
    | decided u =>
      refine hgo { refs := 1, callback := true, verdict := some u, posted := true } (.left u) ?_ rfl rfl
      simp [free, refDec, h1, Stage.req]
    | told u =>
      refine hgo { refs := 0, callback := true, verdict := some u, freed := true } (.over u) ?_ rfl rfl
      simp [free, refDec, h1, Stage.req]
    | left u => cases e2
    | over u => cases e2
    | _ => exact absurd rfl e1

/-- Nothing undefined happens in a legal history in which no access is checked after the listener was freed. -/
theorem inv_run (evs : List Ev) (h : Legal evs) (hc : NoCheckAfterFree evs) :
    ∃ w, run init evs = some w ∧ Inv w evs := by
  suffices ∀ r : List Ev, Legal r.reverse → NoCheckAfterFree r.reverse →
      ∃ w, run init r.reverse = some w ∧ Inv w r.reverse by
    have := this evs.reverse; rw [List.reverse_reverse] at this; exact this h hc
  intro r
  induction r with
  | nil => exact fun _ _ => ⟨init, rfl, inv_init⟩
  | cons e r ih =>
    intro h hc
    rw [List.reverse_cons] at h hc ⊢
    obtain ⟨w, h1, h2⟩ := ih (fun a b c hab => h a b (c ++ [e]) (by rw [hab]; simp))
      (fun a b c hab => hc a b (c ++ [e]) (by rw [hab]; simp))
    obtain ⟨w', h3, h4⟩ := inv_step w _ h2 e (h _ e [] rfl w h1) (by
      intro i hi
      subst hi
      exact hc _ i [] rfl)
    refine ⟨w', ?_, h4⟩
    rw [run_append, h1]
    simp only [Option.bind, run, h3]

end Verif.Api.Auth
