import Verif.Core.AttacherProps

/-!
# The attach watchdog

Model of `src/core/nc_attacher_watchdog.c`. The library never calls `nc_attacher_watchdog_init`: only the test
`test_cpp/tests/core/watchdog_test.cpp` does. The theorems are about the component.

Time is a natural number of milliseconds. The event queue runs a timer at some time at or after its deadline.
-/

namespace Verif.Core.Watchdog

open Verif.Core.Attacher (AState)

/-- `struct nc_watchdog_ctx`, `nc_attacher_watchdog.h`, with the clock and the number of events reported. -/
structure St where
  timeout : Nat := 600000
  now : Nat := 0
  timer : Option Nat := none
  fired : Nat := 0
  deriving DecidableEq, Repr

/-- `handle_state_changed`, `nc_attacher_watchdog.c:44-50`. -/
def St.changed (s : St) (x : AState) : St :=
  if x = .attached then { s with timer := none } else { s with timer := some (s.now + s.timeout) }

/-- `nc_attacher_watchdog_init`, `nc_attacher_watchdog.c:11-28`, when the event can be created; `x` is the state of
the attacher. -/
def create (x : AState) : St := ({} : St).changed x

inductive Act
  /-- `nc_attacher_watchdog_state_changed`, `nc_attacher_watchdog.c:38-42` -/
  | notify (x : AState)
  /-- `nc_attacher_watchdog_set_timeout`, `nc_attacher_watchdog.c:58-61` -/
  | setTimeout (t : Nat)
  /-- time passes -/
  | advance (d : Nat)
  /-- `timeout`, `nc_attacher_watchdog.c:52-56` -/
  | fire
  deriving DecidableEq, Repr

def step (s : St) : Act → Option St
  | .notify x => some (s.changed x)
  | .setTimeout t => some { s with timeout := t }
  | .advance d => some { s with now := s.now + d }
  | .fire =>
    match s.timer with
    | none => none
    | some d => if d ≤ s.now then some { s with timer := none, fired := s.fired + 1 } else none

def run (s : St) : List Act → Option St
  | [] => some s
  | a :: as => (step s a).bind (fun s => run s as)

/-! ### Specification -/

namespace Spec

/-- How much time passes. -/
def elapsed : List Act → Nat
  | [] => 0
  | .advance d :: as => d + elapsed as
  | _ :: as => elapsed as

/-- The timeout which is set after some actions. -/
def timeoutAfter : List Act → Nat
  | as => as.foldl (fun t a => match a with | .setTimeout t' => t' | _ => t) 600000

/-- Neither a state change nor a watchdog event. -/
def calm : Act → Bool
  | .notify _ | .fire => false
  | _ => true

/-- The last state change in a history was to a state other than attached, no watchdog event has been reported since,
and the timeout which was set at this time has passed. -/
def Overdue (as : List Act) : Prop :=
  ∃ p x q, as = p ++ .notify x :: q ∧ x ≠ .attached ∧ (∀ a ∈ q, calm a = true) ∧ timeoutAfter p ≤ elapsed q

end Spec

open Spec

/-! ### Invariant -/

/-- The last state change, if it is to be reported. -/
def Armed (as : List Act) (p : List Act) (q : List Act) : Prop :=
  ∃ x, as = p ++ .notify x :: q ∧ x ≠ .attached ∧ ∀ a ∈ q, calm a = true

structure Inv (as : List Act) (s : St) : Prop where
  now : s.now = elapsed as
  timeout : s.timeout = timeoutAfter as
  armed : ∀ d, s.timer = some d → ∃ p q, Armed as p q ∧ d = elapsed p + timeoutAfter p
  unarmed : s.timer = none → ∀ p q, ¬ Armed as p q

theorem elapsed_append (as bs : List Act) : elapsed (as ++ bs) = elapsed as + elapsed bs := by
  induction as with
  | nil => simp [elapsed]
  | cons a as ih => cases a <;> simp [elapsed, ih]; omega

theorem timeoutAfter_snoc (as : List Act) (a : Act) :
    timeoutAfter (as ++ [a]) = match a with | .setTimeout t => t | _ => timeoutAfter as := by
  unfold timeoutAfter
  rw [List.foldl_append]
  cases a <;> rfl

/-- The last state change of a history is unique. -/
theorem split_unique {as p q x p' q' x'} (h : as = p ++ .notify x :: q) (h' : as = p' ++ .notify x' :: q')
    (hq : ∀ a ∈ q, calm a = true) (hq' : ∀ a ∈ q', calm a = true) : p = p' ∧ x = x' ∧ q = q' := by
  subst h
  rcases List.append_eq_append_iff.1 h' with ⟨l, h1, h2⟩ | ⟨l, h1, h2⟩
  · cases l with
    | nil => simp at h1 h2; exact ⟨h1.symm, h2.1, h2.2⟩
    | cons b l =>
      simp only [List.cons_append, List.cons.injEq] at h2
      have : Act.notify x' ∈ q := by rw [h2.2]; simp
      exact absurd (hq _ this) (by simp [calm])
  · cases l with
    | nil => simp at h1 h2; exact ⟨h1, h2.1.symm, h2.2.symm⟩
    | cons b l =>
      simp only [List.cons_append, List.cons.injEq] at h2
      have : Act.notify x ∈ q' := by rw [h2.2]; simp
      exact absurd (hq' _ this) (by simp [calm])

theorem armed_notify {as x p q} (h : Armed (as ++ [.notify x]) p q) : p = as ∧ q = [] ∧ x ≠ .attached := by
  obtain ⟨y, h1, h2, h3⟩ := h
  obtain ⟨a, b, c⟩ := split_unique (p := as) (q := []) (x := x) rfl h1 (by simp) h3
  exact ⟨a.symm, c.symm, b ▸ h2⟩

theorem armed_calm {as a p q} (ha : calm a = true) : Armed (as ++ [a]) p q ↔ ∃ q', q = q' ++ [a] ∧ Armed as p q' := by
  constructor
  · rintro ⟨y, h1, h2, h3⟩
    have hne : (Act.notify y :: q) ≠ [] := by simp
    rcases List.eq_nil_or_concat q with rfl | ⟨q, b, rfl⟩
    · have := (List.append_inj' h1 rfl).2
      simp at this
      subst this
      cases ha
    · have h1' : as ++ [a] = (p ++ .notify y :: q) ++ [b] := by simpa using h1
      obtain ⟨e1, e2⟩ := List.append_inj' h1' rfl
      simp at e2
      subst e2
      exact ⟨q, List.concat_eq_append, y, e1, h2, fun c hc => h3 c (by simp [hc])⟩
  · rintro ⟨q', rfl, y, h1, h2, h3⟩
    refine ⟨y, by rw [h1]; simp, h2, ?_⟩
    intro c hc
    rcases List.mem_append.1 hc with hc | hc
    · exact h3 c hc
    · simp at hc; subst hc; exact ha

theorem armed_fire {as p q} : ¬ Armed (as ++ [.fire]) p q := by
  rintro ⟨y, h1, h2, h3⟩
  rcases List.eq_nil_or_concat q with rfl | ⟨q, b, rfl⟩
  · have := (List.append_inj' h1 rfl).2
    simp at this
  · have h1' : as ++ [.fire] = (p ++ .notify y :: q) ++ [b] := by simpa using h1
    obtain ⟨e1, e2⟩ := List.append_inj' h1' rfl
    simp at e2
    subst e2
    have := h3 .fire (by simp)
    cases this

theorem Inv.changed {as s} (h : Inv as s) (x : AState) : Inv (as ++ [.notify x]) (s.changed x) := by
  unfold St.changed
  split
  · next hx =>
    refine ⟨?_, ?_, (by intro d h; cases h), ?_⟩
    · rw [elapsed_append]; exact h.now
    · rw [timeoutAfter_snoc]; exact h.timeout
    · intro _ p q hp
      exact (armed_notify hp).2.2 hx
  · next hx =>
    refine ⟨?_, ?_, ?_, (by intro h; cases h)⟩
    · rw [elapsed_append]; exact h.now
    · rw [timeoutAfter_snoc]; exact h.timeout
    · intro d hd
      cases hd
      exact ⟨as, [], ⟨x, rfl, hx, by simp⟩, by rw [h.now, h.timeout]⟩

theorem Inv.step {as s a t} (h : Inv as s) (hst : step s a = some t) : Inv (as ++ [a]) t := by
  cases a with
  | notify x => cases hst; exact h.changed x
  | setTimeout n =>
    cases hst
    refine ⟨by rw [elapsed_append]; exact h.now, by rw [timeoutAfter_snoc], ?_, ?_⟩
    · intro d hd
      obtain ⟨p, q, h1, h2⟩ := h.armed d hd
      exact ⟨p, q ++ [.setTimeout n], (armed_calm rfl).2 ⟨q, rfl, h1⟩, h2⟩
    · intro hn p q hp
      obtain ⟨q', _, h1⟩ := (armed_calm rfl).1 hp
      exact h.unarmed hn p q' h1
  | advance n =>
    cases hst
    refine ⟨by rw [elapsed_append, ← h.now]; rfl, by rw [timeoutAfter_snoc]; exact h.timeout, ?_, ?_⟩
    · intro d hd
      obtain ⟨p, q, h1, h2⟩ := h.armed d hd
      exact ⟨p, q ++ [.advance n], (armed_calm rfl).2 ⟨q, rfl, h1⟩, h2⟩
    · intro hn p q hp
      obtain ⟨q', _, h1⟩ := (armed_calm rfl).1 hp
      exact h.unarmed hn p q' h1
  | fire =>
    simp only [Watchdog.step] at hst
    split at hst
    · cases hst
    · split at hst
      · cases hst
        refine ⟨by rw [elapsed_append]; exact h.now, by rw [timeoutAfter_snoc]; exact h.timeout, (by intro d h; cases h), ?_⟩
        intro _ p q
        exact armed_fire
      · cases hst

theorem Inv.create (x : AState) : Inv [.notify x] (create x) := by
  have h : Inv [] {} := ⟨rfl, rfl, (by intro d h; cases h), (by
    rintro _ p q ⟨y, h1, _⟩
    cases p <;> cases h1)⟩
  exact h.changed x

theorem Inv.run {hist s as t} (h : Inv hist s) (hr : run s as = some t) : Inv (hist ++ as) t := by
  induction as generalizing s hist with
  | nil => cases hr; simpa using h
  | cons a as ih =>
    simp only [Watchdog.run] at hr
    cases hs : Watchdog.step s a with
    | none => rw [hs] at hr; cases hr
    | some u =>
      rw [hs] at hr
      have := ih (h.step hs) hr
      simpa using this

/-! ### C55 -/

/-- C55, for the component: after any history the watchdog can report an event exactly if the last state change was
to a state other than attached, at least the timeout which was set then has passed since, and no event has been
reported since. In particular there is none while the device is attached, and one per state change at most. -/
theorem C55_fires_iff_partial {x as s} (h : run (create x) as = some s) :
    (step s .fire).isSome = true ↔ Overdue (.notify x :: as) := by
  have hi := (Inv.create x).run h
  simp only [List.singleton_append] at hi
  constructor
  · intro hf
    simp only [step] at hf
    split at hf
    · cases hf
    · next d hd =>
      split at hf
      · next hle =>
        obtain ⟨p, q, ⟨y, h1, h2, h3⟩, h4⟩ := hi.armed d hd
        refine ⟨p, y, q, h1, h2, h3, ?_⟩
        have := hi.now
        rw [h1, elapsed_append] at this
        have e : elapsed (Act.notify y :: q) = elapsed q := rfl
        omega
      · cases hf
  · rintro ⟨p, y, q, h1, h2, h3, h4⟩
    simp only [step]
    cases ht : s.timer with
    | none => exact absurd ⟨y, h1, h2, h3⟩ (hi.unarmed ht p q)
    | some d =>
      obtain ⟨p', q', ⟨y', g1, g2, g3⟩, g4⟩ := hi.armed d ht
      obtain ⟨e1, _, e2⟩ := split_unique h1 g1 h3 g3
      subst e1 e2
      have hn := hi.now
      rw [h1, elapsed_append] at hn
      have e : elapsed (Act.notify y :: q) = elapsed q := rfl
      simp only
      rw [if_pos (by omega)]
      rfl

/-- Both sides of the equivalence occur. -/
example : ∃ s, run (create .dns) [.notify .request, .advance 599999, .setTimeout 5] = some s ∧ step s .fire = none ∧
    ((step s (.advance 1)).bind (step · .fire)).isSome = true := ⟨_, rfl, by decide, by decide⟩

/-- A new timeout counts from the next state change on. -/
example : (run (create .dns) [.setTimeout 5, .advance 6, .fire]) = none ∧
    ((run (create .dns) [.setTimeout 5, .notify .request, .advance 6, .fire]).map (·.fired)) = some 1 := by decide

/-- The states of the attacher which a listener is told, as actions of the watchdog. -/
def notifications (l : List Attacher.Obs) : List Act :=
  l.filterMap (fun o => match o with | .notify x => some (.notify x) | _ => none)

/-- A watchdog which is told the states of an attacher never has a timer running while the device is attached, in
regular executions of the attacher. -/
theorem C55_attached_partial {as s w} (h : Attacher.Spec.Run Attacher.init as s) (ha : s.state = .attached)
    (hw : run (create .dns) (notifications s.out) = some w) : w.timer = none := by
  have ht : Attacher.Told s := Attacher.Told.run Attacher.Inv.init (by simp [Attacher.Told, Attacher.lastTold, Attacher.init]) h
  have hl := ht.2 ha
  clear ht ha h as
  generalize s.out = l at *
  generalize create .dns = w0 at hw
  induction l generalizing w0 with
  | nil => cases hl
  | cons o l ih =>
    cases hb : Attacher.lastTold l with
    | some y =>
      have hl' : Attacher.lastTold l = some .attached := by
        rw [Attacher.lastTold, hb] at hl
        rw [hb]; exact hl
      cases o with
      | notify x => exact ih hl' _ hw
      | _ => exact ih hl' _ hw
    | none =>
      rw [Attacher.lastTold, hb] at hl
      cases o with
      | notify x =>
        simp [Attacher.told] at hl
        subst hl
        have : notifications l = [] := by
          clear ih hw
          induction l with
          | nil => rfl
          | cons o l ih =>
            rw [Attacher.lastTold] at hb
            cases hc : Attacher.lastTold l with
            | some z => rw [hc] at hb; cases hb
            | none =>
              rw [hc] at hb
              cases o <;> first | exact ih hc | cases hb
        have hn : notifications (Attacher.Obs.notify .attached :: l) = Act.notify .attached :: notifications l := rfl
        rw [hn, this] at hw
        simp only [run, step, Option.bind_some, Option.some.injEq] at hw
        subst hw
        rfl
      | _ => cases hl

example : ∃ s w, Attacher.run Attacher.init (.start "h" 443 true :: Attacher.Props.attach 0) = some s ∧ s.state = .attached ∧
    run (create .dns) (notifications s.out) = some w := by
  refine ⟨_, _, rfl, rfl, rfl⟩

end Verif.Core.Watchdog
