import Verif.Event.Thread
import Verif.Event.QueueProps

/-!
# C33 and C66: cancelled events, and waiting of the event thread
-/

namespace Verif.Event

open Spec Util.Timestamp

/-- Whether a step posts the event. -/
def Act.posts (e : Nat) : Act → Bool
  | .post _ e' | .postMaybeDouble _ e' | .postTimed _ e' _ => e' == e
  | _ => false

theorem Sys.run_cons {s : Sys} {now a h r} (hr : s.run ((now, a) :: h) = some r) : ∃ s' o os,
    s.step now a = some (s', o) ∧ s'.run h = some (r.1, os) ∧ r.2 = o ++ os := by
  simp only [Sys.run] at hr
  split at hr
  · simp at hr
  · rename_i s' o hs
    split at hr
    · simp at hr
    · rename_i s'' os hs'
      simp at hr
      subst hr
      exact ⟨s', o, os, hs, hs', rfl⟩

@[simp] theorem Sys.signal_q (s : Sys) : s.signal.q = s.q := by
  unfold Sys.signal; split <;> rfl

theorem Sys.signal_phase {s : Sys} {e} : s.signal.phase = .taken e ↔ s.phase = .taken e := by
  unfold Sys.signal; split <;> simp_all

theorem Sys.signal_waiting {s : Sys} {u} : s.signal.phase ≠ .waiting u := by
  unfold Sys.signal
  split
  · simp
  · rename_i h; exact fun c => h u c

@[simp] theorem Sys.signal_stopped (s : Sys) : s.signal.stopped = s.stopped := by
  unfold Sys.signal; split <;> rfl

/-! ## Cancelling -/

/-- The event is neither queued nor taken. -/
structure Gone (e : Nat) (s : Sys) : Prop where
  queue : s.q.inList e = false
  phase : s.phase ≠ .taken e

theorem inList_erase (q : Queue) (e f : Nat) : (q.erase f).inList e = true → e ≠ f ∧ q.inList e = true := by
  intro h
  unfold Queue.inList Queue.erase at *
  rw [Bool.or_eq_true, List.contains_iff_mem, List.any_eq_true] at *
  rcases h with h | ⟨x, hx, he⟩
  · obtain ⟨h1, h2⟩ := List.mem_filter.1 h
    exact ⟨by simpa using h2, .inl h1⟩
  · obtain ⟨h1, h2⟩ := List.mem_filter.1 hx
    simp only [beq_iff_eq, bne_iff_ne, ne_eq] at he h2
    exact ⟨by rw [← he]; exact h2, .inr ⟨x, h1, by simp [he]⟩⟩

theorem inList_cancel (q : Queue) (e f : Nat) : (q.cancel f).inList e = true → e ≠ f ∧ q.inList e = true := by
  unfold Queue.cancel
  split
  · exact inList_erase q e f
  · rename_i h
    intro h2
    exact ⟨fun c => h (by rw [← c]; exact h2), h2⟩

theorem inList_post (q : Queue) (e f : Nat) (h : ((q.post f).1).inList e = true) : e = f ∨ q.inList e = true := by
  unfold Queue.post at h
  split at h
  · exact .inr h
  · unfold Queue.inList at *
    rw [Bool.or_eq_true, List.contains_iff_mem] at *
    simp only [List.mem_append, List.mem_singleton] at h
    rcases h with (h | h) | h
    · exact .inr (.inl h)
    · exact .inl h
    · exact .inr (.inr h)

theorem any_insert {e f : Nat} {t l} (h : (Queue.insert f t l).any (fun x => x.1 == e) = true) :
    e = f ∨ l.any (fun x => x.1 == e) = true := by
  induction l with
  | nil => simp [Queue.insert] at h; exact .inl h.symm
  | cons x l ih =>
    simp only [Queue.insert] at h
    split at h
    · simp only [List.any_cons, Bool.or_eq_true, beq_iff_eq] at h ⊢
      rcases h with h | h | h
      · exact .inl h.symm
      · exact .inr (.inl h)
      · exact .inr (.inr h)
    · simp only [List.any_cons, Bool.or_eq_true, beq_iff_eq] at h ⊢
      rcases h with h | h
      · exact .inr (.inl h)
      · rcases ih h with h | h
        · exact .inl h
        · exact .inr (.inr h)

theorem inList_postTimed (q : Queue) (e f : Nat) (t) (h : (q.postTimed f t).inList e = true) :
    e = f ∨ q.inList e = true := by
  have key : ∀ q' : Queue, (({ q' with timed := Queue.insert f t q'.timed } : Queue).inList e = true) →
      e = f ∨ q'.inList e = true := by
    intro q' h
    unfold Queue.inList at *
    rw [Bool.or_eq_true] at *
    rcases h with h | h
    · exact .inr (.inl h)
    · rcases any_insert h with h | h
      · exact .inl h
      · exact .inr (.inr h)
  unfold Queue.postTimed at h
  rcases key _ h with h | h
  · exact .inl h
  · split at h
    · exact .inr (inList_erase q e f h).2
    · exact .inr h

theorem take_inList {q : Queue} {now e q'} (h : q.take now = some (e, q')) :
    q.inList e = true ∧ ∀ f, q'.inList f = true → q.inList f = true := by
  unfold Queue.take Queue.takeEvent at h
  cases he : q.events with
  | cons x l =>
    rw [he] at h
    simp at h
    obtain ⟨rfl, rfl⟩ := h
    unfold Queue.inList
    rw [he]
    refine ⟨by simp, fun f hf => ?_⟩
    simp only [Bool.or_eq_true, List.contains_iff_mem, List.mem_cons] at hf ⊢
    rcases hf with hf | hf
    · exact .inl (.inr hf)
    · exact .inr hf
  | nil =>
    rw [he] at h
    simp only [Queue.takeTimed] at h
    cases ht : q.timed with
    | nil => rw [ht] at h; simp at h
    | cons x l =>
      rw [ht] at h
      obtain ⟨x1, x2⟩ := x
      simp only at h
      split at h
      · simp at h
        obtain ⟨rfl, rfl⟩ := h
        unfold Queue.inList
        rw [ht]
        refine ⟨by simp, fun f hf => ?_⟩
        simp only [Bool.or_eq_true, List.any_cons] at hf ⊢
        rcases hf with hf | hf
        · exact .inl hf
        · exact .inr (.inr hf)
      · simp at h

theorem Gone.step {e s now a s' o} (g : Gone e s) (hp : a.posts e = false) (hs : Sys.step s now a = some (s', o)) :
    Gone e s' ∧ .ran e ∉ o ∧ .crash e ∉ o := by
  have hq : ¬ s.q.inList e = true := by rw [g.queue]; simp
  cases a with
  | post a f =>
    simp only [Sys.step] at hs
    split at hs
    · simp only [Option.some.injEq, Prod.mk.injEq] at hs
      obtain ⟨rfl, rfl⟩ := hs
      refine ⟨⟨?_, fun c => g.phase (by have := Sys.signal_phase.1 c; exact this)⟩, by simp, by simp⟩
      rw [Sys.signal_q, Bool.eq_false_iff]
      intro c
      rcases inList_post _ _ _ c with h | h
      · simp [Act.posts, h] at hp
      · exact hq h
    · simp at hs
  | postMaybeDouble a f =>
    simp only [Sys.step] at hs
    split at hs
    · simp only [Option.some.injEq, Prod.mk.injEq] at hs
      obtain ⟨rfl, rfl⟩ := hs
      refine ⟨⟨?_, fun c => g.phase (by have := Sys.signal_phase.1 c; exact this)⟩, by simp, by simp⟩
      rw [Sys.signal_q, Bool.eq_false_iff]
      intro c
      rcases inList_post _ _ _ c with h | h
      · simp [Act.posts, h] at hp
      · exact hq h
    · simp at hs
  | postTimed a f ms =>
    simp only [Sys.step] at hs
    split at hs
    · simp only [Option.some.injEq, Prod.mk.injEq] at hs
      obtain ⟨rfl, rfl⟩ := hs
      refine ⟨⟨?_, fun c => g.phase (by have := Sys.signal_phase.1 c; exact this)⟩, by simp, by simp⟩
      rw [Sys.signal_q, Bool.eq_false_iff]
      intro c
      rcases inList_postTimed _ _ _ _ c with h | h
      · simp [Act.posts, h] at hp
      · exact hq h
    · simp at hs
  | cancel a f =>
    simp only [Sys.step] at hs
    split at hs
    · simp only [Option.some.injEq, Prod.mk.injEq] at hs
      obtain ⟨rfl, rfl⟩ := hs
      refine ⟨⟨?_, g.phase⟩, by simp, by simp⟩
      rw [Bool.eq_false_iff]
      exact fun c => hq (inList_cancel _ _ _ c).2
    · simp at hs
  | destroy a f =>
    simp only [Sys.step] at hs
    split at hs
    · simp only [Option.some.injEq, Prod.mk.injEq] at hs
      obtain ⟨rfl, rfl⟩ := hs
      refine ⟨⟨?_, g.phase⟩, by simp, by simp⟩
      rw [Bool.eq_false_iff]
      exact fun c => hq (inList_cancel _ _ _ c).2
    · simp at hs
  | lockCore n =>
    simp only [Sys.step] at hs
    split at hs
    · simp only [Option.some.injEq, Prod.mk.injEq] at hs
      obtain ⟨rfl, rfl⟩ := hs
      exact ⟨⟨g.queue, g.phase⟩, by simp, by simp⟩
    · simp at hs
  | unlockCore n =>
    simp only [Sys.step] at hs
    split at hs
    · simp only [Option.some.injEq, Prod.mk.injEq] at hs
      obtain ⟨rfl, rfl⟩ := hs
      exact ⟨⟨g.queue, g.phase⟩, by simp, by simp⟩
    · simp at hs
  | take =>
    simp only [Sys.step] at hs
    split at hs
    · simp only [Option.some.injEq, Prod.mk.injEq] at hs
      obtain ⟨rfl, rfl⟩ := hs
      refine ⟨?_, by simp, by simp⟩
      unfold Sys.loop
      split
      · rename_i f q' ht
        obtain ⟨h1, h2⟩ := take_inList ht
        refine ⟨?_, ?_⟩
        · rw [Bool.eq_false_iff]; exact fun c => hq (h2 e c)
        · simp only [ne_eq, Phase.taken.injEq]
          intro c
          exact hq (by rw [← c]; exact h1)
      · split
        · exact ⟨g.queue, by simp⟩
        · exact ⟨g.queue, by simp⟩
    · simp at hs
  | begin =>
    simp only [Sys.step] at hs
    split at hs
    · rename_i f hf
      split at hs
      · simp only [Option.some.injEq, Prod.mk.injEq] at hs
        obtain ⟨rfl, rfl⟩ := hs
        have hne : f ≠ e := fun c => g.phase (by rw [hf, c])
        refine ⟨⟨g.queue, by simp⟩, ?_, ?_⟩
        · split <;> simp [Ne.symm hne]
        · split <;> simp [Ne.symm hne]
      · simp at hs
    · simp at hs
  | finish =>
    simp only [Sys.step] at hs
    split at hs
    · simp only [Option.some.injEq, Prod.mk.injEq] at hs
      obtain ⟨rfl, rfl⟩ := hs
      exact ⟨⟨g.queue, by simp⟩, by simp, by simp⟩
    · simp at hs
  | wake =>
    simp only [Sys.step] at hs
    split at hs
    · simp only [Option.some.injEq, Prod.mk.injEq] at hs
      obtain ⟨rfl, rfl⟩ := hs
      exact ⟨⟨g.queue, by simp⟩, by simp, by simp⟩
    · simp at hs
  | stop =>
    simp only [Sys.step] at hs
    split at hs
    · simp at hs
    · simp only [Option.some.injEq, Prod.mk.injEq] at hs
      obtain ⟨rfl, rfl⟩ := hs
      refine ⟨⟨by rw [Sys.signal_q]; exact g.queue, fun c => g.phase (by have := Sys.signal_phase.1 c; exact this)⟩, by simp, by simp⟩

theorem Gone.run {e h} : ∀ {s r}, Gone e s → (∀ x ∈ h, x.2.posts e = false) → Sys.run s h = some r →
    .ran e ∉ r.2 ∧ .crash e ∉ r.2 := by
  induction h with
  | nil => intro s r _ _ hr; simp [Sys.run] at hr; subst hr; simp
  | cons x h ih =>
    intro s r g hp hr
    obtain ⟨now, a⟩ := x
    obtain ⟨s', o, os, h1, h2, h3⟩ := Sys.run_cons hr
    obtain ⟨g', h4, h5⟩ := g.step (hp _ (List.mem_cons_self)) h1
    obtain ⟨h6, h7⟩ := ih g' (fun y hy => hp y (List.mem_cons_of_mem _ hy)) h2
    rw [h3]
    simp only [List.mem_append, not_or]
    exact ⟨⟨h4, h6⟩, h5, h7⟩

/-- **C33 (partial).** If an event is cancelled or destroyed by a callback on the event thread, or at a moment when the
event thread has not taken it off the queue, then from that moment its callback is not called unless the event is
posted again. -/
theorem C33_cancel_partial (s : Sys) (now : Nat) (a : Actor) (e : Nat) (c : Act)
    (hc : c = .cancel a e ∨ c = .destroy a e) (hw : a = .loop ∨ s.phase ≠ .taken e)
    (h : List (Nat × Act)) (hp : ∀ x ∈ h, x.2.posts e = false) (r : Sys × List Obs)
    (hr : s.run ((now, c) :: h) = some r) : .ran e ∉ r.2 ∧ .crash e ∉ r.2 := by
  obtain ⟨s', o, os, h1, h2, h3⟩ := Sys.run_cons hr
  have hact : s.active a = true := by
    rcases hc with rfl | rfl <;> simp only [Sys.step] at h1 <;> split at h1 <;> simp_all
  have hph : s.phase ≠ .taken e := by
    rcases hw with rfl | hw
    · intro c; simp [Sys.active, c] at hact
    · exact hw
  have key : Gone e s' ∧ o = [] := by
    rcases hc with rfl | rfl
    all_goals
      simp only [Sys.step, hact, if_true, Option.some.injEq, Prod.mk.injEq] at h1
      obtain ⟨rfl, rfl⟩ := h1
      refine ⟨⟨?_, hph⟩, rfl⟩
      rw [Bool.eq_false_iff]
      exact fun c => (inList_cancel _ _ _ c).1 rfl
  have := Gone.run key.1 hp h2
  rw [h3, key.2]
  simpa using this

/-- A timer expires and the event thread takes it, then an application thread with the core's lock cancels (or
destroys) it before the event thread has the core's lock. -/
def raceBefore : List (Nat × Act) :=
  [(0, .lockCore 1), (0, .postTimed (.other 1) 7 100), (0, .unlockCore 1), (0, .take), (100, .wake), (100, .lockCore 1),
    (100, .take)]

/-- **C33 is violated.** A thread that holds the core's lock cancels a timer, and the callback is called later although
the timer was not set again. -/
theorem C33_cancel_violated : ∃ s : Sys, (Sys.run {} raceBefore).map Prod.fst = some s ∧ s.core = some (.other 1) ∧
    ∃ r, s.run [(101, .cancel (.other 1) 7), (101, .unlockCore 1), (101, .begin)] = some r ∧ .ran 7 ∈ r.2 :=
  ⟨{ phase := .taken 7, core := some (.other 1) }, by decide +kernel, by decide +kernel, _, rfl, by decide +kernel⟩

/-- **C33 is violated.** In the same way the event thread uses an event that was destroyed and freed. -/
theorem C33_destroy_violated : ∃ s : Sys, (Sys.run {} raceBefore).map Prod.fst = some s ∧ s.core = some (.other 1) ∧
    ∃ r, s.run [(101, .destroy (.other 1) 7), (101, .unlockCore 1), (101, .begin)] = some r ∧ .crash 7 ∈ r.2 :=
  ⟨{ phase := .taken 7, core := some (.other 1) }, by decide +kernel, by decide +kernel, _, rfl, by decide +kernel⟩

/-- The hypotheses of `C33_cancel_partial`: a timer is cancelled in time by another thread, and in a callback. -/
example : (∃ r, Sys.run {} [(0, .postTimed (.other 1) 7 100), (0, .take)] = some r ∧ r.1.phase ≠ .taken 7 ∧
    ∃ r', r.1.run [(50, .cancel (.other 1) 7), (100, .wake), (100, .take)] = some r' ∧
      r'.1.phase = .waiting none) :=
  ⟨_, rfl, by decide +kernel, _, rfl, by decide +kernel⟩

example : ∃ r, Sys.run {} [(0, .post (.other 1) 6), (0, .postTimed (.other 1) 7 5), (6, .take), (6, .begin)] = some r ∧
    r.2 = [.ran 6] ∧ ∃ r', r.1.run [(6, .cancel .loop 7), (6, .finish), (6, .take)] = some r' ∧
      r'.1.phase = .waiting none :=
  ⟨_, rfl, by decide +kernel, _, rfl, by decide +kernel⟩

/-! ## Posting and running -/

/-- How often an event is in the queue. -/
def queued (e : Nat) (q : Queue) : Nat := q.events.count e + (q.timed.map Prod.fst).count e

/-- How often an event is on its way to its callback. -/
def held (e : Nat) (s : Sys) : Nat := queued e s.q + (if s.phase = .taken e then 1 else 0)

theorem inList_queued {q : Queue} {e} : q.inList e = false ↔ queued e q = 0 := by
  unfold Queue.inList queued
  rw [Bool.or_eq_false_iff, Nat.add_eq_zero_iff, List.count_eq_zero, List.count_eq_zero]
  refine and_congr ?_ ?_
  · rw [Bool.eq_false_iff, ne_eq, List.contains_iff_mem]
  · rw [List.any_eq_false]
    simp only [beq_iff_eq, List.mem_map, not_exists, not_and]

theorem count_filter_ne {l : List Nat} {e f : Nat} :
    (l.filter (fun x => x != f)).count e = if e = f then 0 else l.count e := by
  split
  · rename_i h
    rw [List.count_eq_zero]
    intro c
    have := (List.mem_filter.1 c).2
    simp [h] at this
  · rename_i h
    rw [List.count_filter]
    simpa using h

theorem queued_erase {q : Queue} {e f} : queued e (q.erase f) = if e = f then 0 else queued e q := by
  unfold queued Queue.erase
  have : (q.timed.filter (fun x => x.1 != f)).map Prod.fst = (q.timed.map Prod.fst).filter (fun x => x != f) := by
    rw [List.filter_map]; rfl
  simp only [this, count_filter_ne]
  split <;> rfl

theorem queued_cancel {q : Queue} {e f} : queued e (q.cancel f) = if e = f then 0 else queued e q := by
  unfold Queue.cancel
  split
  · exact queued_erase
  · rename_i h
    split
    · rename_i h2; rw [h2]; exact inList_queued.1 (Bool.eq_false_iff.2 h)
    · rfl

theorem queued_post {q : Queue} {e f} :
    queued e (q.post f).1 = if e = f then max 1 (queued e q) else queued e q := by
  unfold Queue.post
  by_cases h : q.inList f = true
  · rw [if_pos h]
    split
    · rename_i h2
      have : queued e q ≠ 0 := fun c => by
        have := inList_queued.2 c
        rw [h2, h] at this; simp at this
      show queued e q = _
      omega
    · rfl
  · rw [if_neg h]
    have hz := inList_queued.1 (Bool.eq_false_iff.2 h)
    unfold queued at *
    simp only [List.count_append, List.count_singleton]
    by_cases h2 : e = f
    · subst h2; simp; omega
    · have : (f == e) = false := by simpa using fun c => h2 c.symm
      simp [h2, this]

theorem count_insert {e f : Nat} {t l} :
    ((Queue.insert f t l).map Prod.fst).count e = (l.map Prod.fst).count e + if f = e then 1 else 0 := by
  induction l with
  | nil => simp [Queue.insert, List.count_cons]
  | cons x l ih =>
    simp only [Queue.insert]
    split
    · simp [List.count_cons]
    · simp only [List.map_cons, List.count_cons, ih]
      omega

theorem queued_postTimed {q : Queue} {e f t} : queued e (q.postTimed f t) = if e = f then 1 else queued e q := by
  have h1 : q.postTimed f t = { q.cancel f with timed := Queue.insert f t (q.cancel f).timed } := rfl
  have h2 := queued_cancel (q := q) (e := e) (f := f)
  rw [h1]
  unfold queued at *
  rw [count_insert]
  by_cases h : e = f
  · subst h
    simp only [if_true] at h2 ⊢
    omega
  · rw [if_neg h] at h2 ⊢
    rw [if_neg (fun c => h c.symm)]
    omega

theorem queued_take {q q' : Queue} {now e f} (h : q.take now = some (f, q')) :
    queued e q = queued e q' + if e = f then 1 else 0 := by
  unfold Queue.take Queue.takeEvent at h
  cases he : q.events with
  | cons x l =>
    rw [he] at h
    simp at h
    obtain ⟨rfl, rfl⟩ := h
    unfold queued
    rw [he, List.count_cons]
    by_cases hx : e = x
    · subst hx; simp; omega
    · have : (x == e) = false := by simpa using fun c => hx c.symm
      simp [hx, this]
  | nil =>
    rw [he] at h
    simp only [Queue.takeTimed] at h
    cases ht : q.timed with
    | nil => rw [ht] at h; simp at h
    | cons x l =>
      rw [ht] at h
      obtain ⟨x1, x2⟩ := x
      simp only at h
      split at h
      · simp at h
        obtain ⟨rfl, rfl⟩ := h
        unfold queued
        rw [ht, List.map_cons, List.count_cons]
        by_cases hx : e = x1
        · subst hx; simp; omega
        · have : (x1 == e) = false := by simpa using fun c => hx c.symm
          simp [hx, this]
      · simp at h

/-- How often a callback was called, with the event destroyed or not. -/
def ranTimes (e : Nat) (o : List Obs) : Nat := o.count (.ran e) + o.count (.crash e)

theorem held_signal {e} {s : Sys} : held e s.signal = held e s := by
  unfold held
  rw [Sys.signal_q]
  simp only [Sys.signal_phase]

theorem held_step {e s now a s' o} (hs : Sys.step s now a = some (s', o)) :
    ranTimes e o + held e s' ≤ held e s + if a.posts e = true then 1 else 0 := by
  have h0 : ranTimes e [] = 0 := rfl
  cases a with
  | post a f =>
    simp only [Sys.step] at hs
    split at hs
    · simp only [Option.some.injEq, Prod.mk.injEq] at hs
      obtain ⟨rfl, rfl⟩ := hs
      rw [held_signal]
      have : queued e (s.q.step now (.post f)).1 = _ := queued_post
      simp only [held, Act.posts, beq_iff_eq, this, h0]
      by_cases h : e = f
      · simp [h]; omega
      · simp [h]
    · simp at hs
  | postMaybeDouble a f =>
    simp only [Sys.step] at hs
    split at hs
    · simp only [Option.some.injEq, Prod.mk.injEq] at hs
      obtain ⟨rfl, rfl⟩ := hs
      rw [held_signal]
      have : queued e (s.q.step now (.postMaybeDouble f)).1 = _ := queued_post
      simp only [held, Act.posts, beq_iff_eq, this, h0]
      by_cases h : e = f
      · simp [h]; omega
      · simp [h]
    · simp at hs
  | postTimed a f ms =>
    simp only [Sys.step] at hs
    split at hs
    · simp only [Option.some.injEq, Prod.mk.injEq] at hs
      obtain ⟨rfl, rfl⟩ := hs
      rw [held_signal]
      have : queued e (s.q.step now (.postTimed f ms)).1 = _ := queued_postTimed
      simp only [held, Act.posts, beq_iff_eq, this, h0]
      by_cases h : e = f
      · simp [h]; omega
      · simp [h]
    · simp at hs
  | cancel a f =>
    simp only [Sys.step] at hs
    split at hs
    · simp only [Option.some.injEq, Prod.mk.injEq] at hs
      obtain ⟨rfl, rfl⟩ := hs
      have : queued e (s.q.step now (.cancel f)).1 = _ := queued_cancel
      simp only [held, this, h0]
      split <;> omega
    · simp at hs
  | destroy a f =>
    simp only [Sys.step] at hs
    split at hs
    · simp only [Option.some.injEq, Prod.mk.injEq] at hs
      obtain ⟨rfl, rfl⟩ := hs
      have : queued e (s.q.step now (.cancel f)).1 = _ := queued_cancel
      simp only [held, this, h0]
      split <;> omega
    · simp at hs
  | lockCore n =>
    simp only [Sys.step] at hs
    split at hs
    · simp only [Option.some.injEq, Prod.mk.injEq] at hs
      obtain ⟨rfl, rfl⟩ := hs
      simp [held, h0]
    · simp at hs
  | unlockCore n =>
    simp only [Sys.step] at hs
    split at hs
    · simp only [Option.some.injEq, Prod.mk.injEq] at hs
      obtain ⟨rfl, rfl⟩ := hs
      simp [held, h0]
    · simp at hs
  | take =>
    simp only [Sys.step] at hs
    split at hs
    · rename_i hi
      simp only [Option.some.injEq, Prod.mk.injEq] at hs
      obtain ⟨rfl, rfl⟩ := hs
      unfold Sys.loop
      split
      · rename_i f q' ht
        have := queued_take (e := e) ht
        simp only [held, hi, h0, Phase.taken.injEq]
        simp only [eq_comm (a := f)]
        simp
        omega
      · split <;> simp [held, h0] <;> omega
    · simp at hs
  | begin =>
    simp only [Sys.step] at hs
    split at hs
    · rename_i f hf
      split at hs
      · simp only [Option.some.injEq, Prod.mk.injEq] at hs
        obtain ⟨rfl, rfl⟩ := hs
        simp only [held, hf, Phase.taken.injEq]
        by_cases hfe : f = e
        · subst hfe; unfold ranTimes; split <;> simp <;> omega
        · unfold ranTimes; split <;> simp [hfe]
      · simp at hs
    · simp at hs
  | finish =>
    simp only [Sys.step] at hs
    split at hs
    · simp only [Option.some.injEq, Prod.mk.injEq] at hs
      obtain ⟨rfl, rfl⟩ := hs
      simp [held, h0]
      omega
    · simp at hs
  | wake =>
    simp only [Sys.step] at hs
    split at hs
    · simp only [Option.some.injEq, Prod.mk.injEq] at hs
      obtain ⟨rfl, rfl⟩ := hs
      simp [held, h0]
      omega
    · simp at hs
  | stop =>
    simp only [Sys.step] at hs
    split at hs
    · simp at hs
    · simp only [Option.some.injEq, Prod.mk.injEq] at hs
      obtain ⟨rfl, rfl⟩ := hs
      rw [held_signal]
      simp [held, h0]

theorem held_run {e h} : ∀ {s r}, Sys.run s h = some r →
    ranTimes e r.2 + held e r.1 ≤ held e s + h.countP (fun x => x.2.posts e) := by
  induction h with
  | nil => intro s r hr; simp [Sys.run] at hr; subst hr; simp [ranTimes]
  | cons x h ih =>
    intro s r hr
    obtain ⟨now, a⟩ := x
    obtain ⟨s', o, os, h1, h2, h3⟩ := Sys.run_cons hr
    have := held_step (e := e) h1
    have := ih h2
    rw [List.countP_cons, h3]
    unfold ranTimes at *
    simp only [List.count_append]
    simp only at *
    omega

/-- **C32, threads.** Whatever the threads do, the callback of an event is called at most once for each time the event
was posted. -/
theorem C32_once_per_post (h : List (Nat × Act)) (r : Sys × List Obs) (hr : Sys.run {} h = some r) (e : Nat) :
    r.2.count (.ran e) ≤ h.countP (fun x => x.2.posts e) := by
  have := held_run (e := e) hr
  have h0 : held e ({} : Sys) = 0 := by simp [held, queued]
  unfold ranTimes at this
  omega

theorem queued_step {s now a s' o} (hs : Sys.step s now a = some (s', o)) (h : ∀ e, queued e s.q ≤ 1) (e : Nat) :
    queued e s'.q ≤ 1 := by
  have h1 := h e
  have hid : ∀ {b : Bool} {s1 : Sys} {p : Prop} [Decidable p], (if p then some (s1, ([] : List Obs)) else none) = some (s', o) →
      s1 = s' := by
    intro b s1 p _ hh
    split at hh
    · simp at hh; exact hh.1
    · simp at hh
  cases a with
  | post a f =>
    have := hid (b := true) hs
    subst this
    rw [Sys.signal_q]
    have : queued e (s.q.step now (.post f)).1 = _ := queued_post
    rw [this]; split <;> omega
  | postMaybeDouble a f =>
    have := hid (b := true) hs
    subst this
    rw [Sys.signal_q]
    have : queued e (s.q.step now (.postMaybeDouble f)).1 = _ := queued_post
    rw [this]; split <;> omega
  | postTimed a f ms =>
    have := hid (b := true) hs
    subst this
    rw [Sys.signal_q]
    have : queued e (s.q.step now (.postTimed f ms)).1 = _ := queued_postTimed
    rw [this]; split <;> omega
  | cancel a f =>
    have := hid (b := true) hs
    subst this
    have : queued e (s.q.step now (.cancel f)).1 = _ := queued_cancel
    show queued e (s.q.step now (.cancel f)).1 ≤ 1
    rw [this]; split <;> omega
  | destroy a f =>
    have := hid (b := true) hs
    subst this
    have : queued e (s.q.step now (.cancel f)).1 = _ := queued_cancel
    show queued e (s.q.step now (.cancel f)).1 ≤ 1
    rw [this]; split <;> omega
  | lockCore n => have := hid (b := true) hs; subst this; exact h1
  | unlockCore n => have := hid (b := true) hs; subst this; exact h1
  | take =>
    have := hid (b := true) hs
    subst this
    unfold Sys.loop
    split
    · rename_i ht
      have := queued_take (e := e) ht
      exact Nat.le_trans (by rw [this]; exact Nat.le_add_right _ _) h1
    · split <;> exact h1
  | begin =>
    simp only [Sys.step] at hs
    split at hs
    · split at hs
      · simp only [Option.some.injEq, Prod.mk.injEq] at hs
        obtain ⟨rfl, _⟩ := hs
        exact h1
      · simp at hs
    · simp at hs
  | finish =>
    simp only [Sys.step] at hs
    split at hs
    · simp only [Option.some.injEq, Prod.mk.injEq] at hs
      obtain ⟨rfl, _⟩ := hs
      exact h1
    · simp at hs
  | wake =>
    simp only [Sys.step] at hs
    split at hs
    · simp only [Option.some.injEq, Prod.mk.injEq] at hs
      obtain ⟨rfl, _⟩ := hs
      exact h1
    · simp at hs
  | stop =>
    simp only [Sys.step] at hs
    split at hs
    · simp at hs
    · simp only [Option.some.injEq, Prod.mk.injEq] at hs
      obtain ⟨rfl, _⟩ := hs
      rw [Sys.signal_q]; exact h1

/-- **C32, no duplication.** An event is never in the queue twice, whatever the threads do and whatever the clock
shows. -/
theorem C32_queued_once (h : List (Nat × Act)) (r : Sys × List Obs) (hr : Sys.run {} h = some r) (e : Nat) :
    r.1.q.events.count e + (r.1.q.timed.map Prod.fst).count e ≤ 1 := by
  have key : ∀ (h : List (Nat × Act)) (s : Sys) r, (∀ e, queued e s.q ≤ 1) → s.run h = some r →
      ∀ e, queued e r.1.q ≤ 1 := by
    intro h
    induction h with
    | nil => intro s r h hr; simp [Sys.run] at hr; subst hr; exact h
    | cons x h ih =>
      intro s r hs hr
      obtain ⟨now, a⟩ := x
      obtain ⟨s', o, os, h1, h2, _⟩ := Sys.run_cons hr
      exact ih s' (r.1, os) (queued_step h1 hs) h2
  exact key h {} r (by simp [queued]) hr e

/-! ## Waiting -/

/-- What is pending after some uses of the queue. -/
def pending : List Pending → Queue → List (Nat × Op) → List Pending
  | p, _, [] => p
  | p, q, (now, op) :: h => pending (after p now op (q.step now op).2) (q.step now op).1 h

/-- What is kept true of a waiting event thread. -/
structure Wakes (p : List Pending) (s : Sys) : Prop where
  time : ∀ u, s.phase = .waiting u → ∀ x ∈ p, ∃ t d, x.when = .at t ∧ u = some (stamp d) ∧ d ≤ t
  go : ∀ u, s.phase = .waiting u → s.stopped = false

theorem Wakes.signal {p s} : Wakes p (Sys.signal s) :=
  ⟨fun _ h => absurd h Sys.signal_waiting, fun _ h => absurd h Sys.signal_waiting⟩

/-- What is pending when nothing is ready, and the stamp the thread waits for. -/
theorem nextTimed_le {p q} (r : Rep p q) {now} (hn : Next p now none) :
    ∀ x ∈ p, ∃ t d, x.when = .at t ∧ q.nextTimed = some (stamp d) ∧ d ≤ t ∧ now < d := by
  intro x hx
  cases hn with
  | none hn =>
    obtain ⟨t, ht, hlt⟩ := hn x hx
    have hm : (x.event, t) ∈ sortT (timers p) := mem_sortT.2 (mem_timers.2 (by rw [← ht]; exact hx))
    cases hs : sortT (timers p) with
    | nil => rw [hs] at hm; simp at hm
    | cons y l =>
      refine ⟨t, y.2, ht, ?_, ?_, ?_⟩
      · simp [Queue.nextTimed, r.timed, hs, stamped]
      · have := sortT_sorted (timers p)
        rw [hs, List.pairwise_cons] at this
        rw [hs] at hm
        rcases List.mem_cons.1 hm with h | h
        · rw [← h]; exact Nat.le_refl _
        · exact this.1 _ h
      · have hy : y ∈ sortT (timers p) := by rw [hs]; exact List.mem_cons_self
        obtain ⟨t', ht', hlt'⟩ := hn _ (mem_timers.1 (mem_sortT.1 hy))
        simp only [When.at.injEq] at ht'
        omega

theorem wakes_run {h : List (Nat × Act)} : ∀ {p s last r}, Good p s.q last → Wakes p s →
    Legal p last (ops h) (s.q.run (ops h)) → Sys.run s h = some r → Wakes (pending p s.q (ops h)) r.1 := by
  induction h with
  | nil => intro p s last r g w _ hr; simp [Sys.run] at hr; subst hr; exact w
  | cons x h ih =>
    intro p s last r g w hl hr
    obtain ⟨now, a⟩ := x
    obtain ⟨s', o, os, h1, h2, _⟩ := Sys.run_cons hr
    -- a step that uses the queue
    have use : ∀ op, a.op = some op → s'.q = (s.q.step now op).1 →
        (Good (after p now op (s.q.step now op).2) (s.q.step now op).1 now → Allowed p now op (s.q.step now op).2 →
          Wakes (after p now op (s.q.step now op).2) s') →
        Wakes (pending p s.q (ops ((now, a) :: h))) r.1 := by
      intro op ho hq hw
      have e1 : ops ((now, a) :: h) = (now, op) :: ops h := by simp [ops, ho]
      rw [e1] at hl ⊢
      simp only [Queue.run] at hl
      cases hl with
      | cons l1 l2 l3 l4 =>
        obtain ⟨ha, hg⟩ := g.step l1 l2 l3
        simp only [pending]
        rw [← hq] at hg l4 ⊢
        exact ih (r := (r.1, os)) hg (hw (hq ▸ hg) ha) l4 h2
    have nouse : a.op = none → s'.q = s.q → Wakes p s' → Wakes (pending p s.q (ops ((now, a) :: h))) r.1 := by
      intro ho hq hw
      have e1 : ops ((now, a) :: h) = ops h := by simp [ops, ho]
      rw [e1] at hl ⊢
      rw [← hq] at hl g ⊢
      exact ih (r := (r.1, os)) g hw hl h2
    have sub : ∀ f, ∀ x ∈ without f p, x ∈ p := fun f x hx => (List.mem_filter.1 hx).1
    cases a with
    | post a f =>
      simp only [Sys.step] at h1
      split at h1
      · simp only [Option.some.injEq, Prod.mk.injEq] at h1
        obtain ⟨rfl, rfl⟩ := h1
        exact use _ rfl (Sys.signal_q _) (fun _ _ => .signal)
      · simp at h1
    | postMaybeDouble a f =>
      simp only [Sys.step] at h1
      split at h1
      · simp only [Option.some.injEq, Prod.mk.injEq] at h1
        obtain ⟨rfl, rfl⟩ := h1
        exact use _ rfl (Sys.signal_q _) (fun _ _ => .signal)
      · simp at h1
    | postTimed a f ms =>
      simp only [Sys.step] at h1
      split at h1
      · simp only [Option.some.injEq, Prod.mk.injEq] at h1
        obtain ⟨rfl, rfl⟩ := h1
        exact use _ rfl (Sys.signal_q _) (fun _ _ => .signal)
      · simp at h1
    | cancel a f =>
      simp only [Sys.step] at h1
      split at h1
      · simp only [Option.some.injEq, Prod.mk.injEq] at h1
        obtain ⟨rfl, rfl⟩ := h1
        exact use _ rfl rfl (fun _ _ => ⟨fun u hu x hx => w.time u hu x (sub f x hx), w.go⟩)
      · simp at h1
    | destroy a f =>
      simp only [Sys.step] at h1
      split at h1
      · simp only [Option.some.injEq, Prod.mk.injEq] at h1
        obtain ⟨rfl, rfl⟩ := h1
        exact use _ rfl rfl (fun _ _ => ⟨fun u hu x hx => w.time u hu x (sub f x hx), w.go⟩)
      · simp at h1
    | lockCore n =>
      simp only [Sys.step] at h1
      split at h1
      · simp only [Option.some.injEq, Prod.mk.injEq] at h1
        obtain ⟨rfl, rfl⟩ := h1
        exact nouse rfl rfl ⟨w.time, w.go⟩
      · simp at h1
    | unlockCore n =>
      simp only [Sys.step] at h1
      split at h1
      · simp only [Option.some.injEq, Prod.mk.injEq] at h1
        obtain ⟨rfl, rfl⟩ := h1
        exact nouse rfl rfl ⟨w.time, w.go⟩
      · simp at h1
    | take =>
      simp only [Sys.step] at h1
      split at h1
      · simp only [Option.some.injEq, Prod.mk.injEq] at h1
        obtain ⟨rfl, rfl⟩ := h1
        cases ht : s.q.take (stamp now) with
        | some x =>
          obtain ⟨f, q'⟩ := x
          have e1 : s.loop now = { s with q := q', phase := .taken f } := by unfold Sys.loop; rw [ht]
          have e2 : s.q.step now .take = (q', .took (some f)) := by simp only [Queue.step]; rw [ht]
          refine use .take rfl (by rw [e1, e2]) (fun _ _ => ?_)
          rw [e1]
          exact ⟨fun u hu => by simp at hu, fun u hu => by simp at hu⟩
        | none =>
          have e2 : s.q.step now .take = (s.q, .took none) := by simp only [Queue.step]; rw [ht]
          have e3 : (s.loop now).q = s.q := by unfold Sys.loop; rw [ht]; cases s.stopped <;> rfl
          refine use .take rfl (by rw [e2]; exact e3) (fun hg ha => ?_)
          rw [e2] at hg ha ⊢
          obtain ⟨r', hr', hn⟩ := ha
          simp only [Out.took.injEq] at hr'
          subst hr'
          by_cases hst : s.stopped = true
          · have e1 : s.loop now = { s with phase := .exited } := by unfold Sys.loop; rw [ht]; simp [hst]
            rw [e1]
            exact ⟨fun u hu => by simp at hu, fun u hu => by simp at hu⟩
          · have e1 : s.loop now = { s with phase := .waiting s.q.nextTimed } := by unfold Sys.loop; rw [ht]; simp [hst]
            rw [e1]
            refine ⟨fun u hu x hx => ?_, fun u hu => by simpa using hst⟩
            simp only [Phase.waiting.injEq] at hu
            obtain ⟨t, d, a1, a2, a3, _⟩ := nextTimed_le hg.rep hn x hx
            exact ⟨t, d, a1, by rw [← hu]; exact a2, a3⟩
      · simp at h1
    | begin =>
      simp only [Sys.step] at h1
      split at h1
      · split at h1
        · simp only [Option.some.injEq, Prod.mk.injEq] at h1
          obtain ⟨rfl, rfl⟩ := h1
          exact nouse rfl rfl ⟨fun u hu => by simp at hu, fun u hu => by simp at hu⟩
        · simp at h1
      · simp at h1
    | finish =>
      simp only [Sys.step] at h1
      split at h1
      · simp only [Option.some.injEq, Prod.mk.injEq] at h1
        obtain ⟨rfl, rfl⟩ := h1
        exact nouse rfl rfl ⟨fun u hu => by simp at hu, fun u hu => by simp at hu⟩
      · simp at h1
    | wake =>
      simp only [Sys.step] at h1
      split at h1
      · simp only [Option.some.injEq, Prod.mk.injEq] at h1
        obtain ⟨rfl, rfl⟩ := h1
        exact nouse rfl rfl ⟨fun u hu => by simp at hu, fun u hu => by simp at hu⟩
      · simp at h1
    | stop =>
      simp only [Sys.step] at h1
      split at h1
      · simp at h1
      · simp only [Option.some.injEq, Prod.mk.injEq] at h1
        obtain ⟨rfl, rfl⟩ := h1
        exact nouse rfl (Sys.signal_q _) .signal

/-- **C66.** No wake-up is lost: whenever the event thread sleeps, no event is pending that is to run as soon as
possible, it will wake up no later than the time of any pending timer, and it was not asked to stop. -/
theorem C66_no_lost_wakeup (h : List (Nat × Act)) (r : Sys × List Obs) (hr : Sys.run {} h = some r)
    (hl : Legal [] 0 (ops h) (Queue.run {} (ops h))) (u : Option UInt32) (hw : r.1.phase = .waiting u) :
    (∀ x ∈ pending [] {} (ops h), ∃ t d, x.when = .at t ∧ u = some (stamp d) ∧ d ≤ t) ∧ r.1.stopped = false := by
  have w := wakes_run (p := []) (s := {}) (last := 0) Good.init ⟨fun u h => by simp at h, fun u h => by simp at h⟩ hl hr
  exact ⟨w.time u hw, w.go u hw⟩

/-! ## Concrete cases -/

/-- Two events posted, one of them twice while pending, and both run once. -/
example : ∃ r, Sys.run {} [(0, .post (.other 1) 6), (0, .post (.other 1) 6), (0, .postTimed (.other 1) 7 5), (6, .take),
    (6, .begin), (6, .post .loop 6), (6, .finish), (6, .take), (6, .begin), (6, .finish), (6, .take), (6, .begin)] =
    some r ∧ r.2 = [.ran 6, .ran 6, .ran 7] := ⟨_, rfl, by decide +kernel⟩

/-- The event thread sleeps with a timer pending. -/
example : ∃ r, Sys.run {} [(3, .postTimed (.other 1) 7 5), (4, .take)] = some r ∧ r.1.phase = .waiting (some 8) ∧
    Legal [] 0 (ops [(3, .postTimed (.other 1) 7 5), (4, .take)])
      (Queue.run {} (ops [(3, .postTimed (.other 1) 7 5), (4, .take)])) ∧
    pending [] {} (ops [(3, .postTimed (.other 1) 7 5), (4, .take)]) = [⟨7, .at 8⟩] :=
  ⟨_, rfl, by decide +kernel, legal_check (by decide +kernel), by decide +kernel⟩

end Verif.Event
