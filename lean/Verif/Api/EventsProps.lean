import Verif.Api.EventsHistory

/-!
# Listeners for events — property theorems (C138)
-/

namespace Verif.Api.Events.Props

open Spec

/-- What the application observes of each listener is what the listener says for itself. -/
theorem C138_observed (cs : List Call) (h : Contract cs) (l : Nat) :
    (Events.run {} cs).2.filter (of l) = (Spec.run l {} cs).2 :=
  (run_spec cs {} (fun _ => {}) inv_init rel_init h).2.2 l

/-- Freed memory is not used; an event is held exactly while it is in the queue of a listener; when all listeners are
at an end, or were never initialised, nothing is left. -/
theorem C138_memory (cs : List Call) (h : Contract cs) :
    (Events.run {} cs).1.bad = false ∧
    ((∀ l, ¬ open' l cs) → (∀ c, (Events.run {} cs).1.ctxs c = none) ∧
      (∀ k, (Events.run {} cs).1.regs k = []) ∧ (Events.run {} cs).1.made = (Events.run {} cs).1.freed) := by
  obtain ⟨hi, hr, _⟩ := run_spec cs {} (fun _ => {}) inv_init rel_init h
  refine ⟨hi.good, fun hno => ?_⟩
  have hshape : ∀ l X k x, (Events.run {} cs).1.lsts l = some X → ¬ Open (Events.run {} cs).1 l X k x := by
    intro l X k x hX ho
    refine hno l ⟨look X x, ?_, by simp [look, L.isOpen, ho.type, ho.ec]⟩
    rw [← (hr l).1]; exact ho.view hX
  have hctx : ∀ c, (Events.run {} cs).1.ctxs c = none := by
    intro c
    cases hc : (Events.run {} cs).1.ctxs c with
    | none => rfl
    | some x =>
      obtain ⟨X, hX, _, he, ht⟩ := hi.ctx c x hc
      obtain ⟨y, hy⟩ := hi.live hX ht he
      exact absurd hy (hshape _ _ _ _ hX)
  refine ⟨hctx, fun k => ?_, ?_⟩
  · cases hk : (Events.run {} cs).1.regs k with
    | nil => rfl
    | cons c rest =>
      obtain ⟨x, hx, _⟩ := hi.reg k c (by rw [hk]; simp)
      rw [hctx c] at hx; cases hx
  · have hc := hi.count
    have : total (Events.run {} cs).1 = 0 := by
      unfold total
      have : ∀ l ∈ (Events.run {} cs).1.all, held (Events.run {} cs).1 l = (fun _ => 0) l := by
        intro l _
        unfold held
        cases hX : (Events.run {} cs).1.lsts l with
        | none => rfl
        | some X =>
          cases hi.shape l X hX with
          | raw hr => subst hr; rfl
          | over k ho => simp [ho.events]
          | live k x ho => exact absurd ho (hshape _ _ _ _ hX)
      rw [sum_same _ (fun _ => 0) _ this]
      induction (Events.run {} cs).1.all <;> simp_all
    omega

/-- The numbers handed over are those of what happened while the listener was open, each once and in order. While it is
open, what was not handed over is in its queue, and no future waits while there is something in the queue. -/
theorem C138_order (cs : List Call) (h : Contract cs) (l : Nat) (hg : Given l cs) :
    handed ((Events.run {} cs).2.filter (of l)) <+: (offered l {} cs).map nums ∧
    (open' l cs → handed ((Events.run {} cs).2.filter (of l)) ++ (queue (Spec.run l {} cs).1).map nums =
      (offered l {} cs).map nums ∧ (waits (Spec.run l {} cs).1 ≠ [] → queue (Spec.run l {} cs).1 = [])) := by
  rw [C138_observed cs h l]
  obtain ⟨hs, _, d, he, hd⟩ := order_run l cs {} sane_init (by intro a ha; cases ha) (h l) hg
  have he : (offered l {} cs).map nums = handed (Spec.run l {} cs).2 ++ ((queue (Spec.run l {} cs).1).map nums ++ d) := by
    simpa [queue] using he
  refine ⟨⟨_, he.symm⟩, ?_⟩
  rintro ⟨a, ha, hao⟩
  have hdn : d = [] := Classical.byContradiction fun hne => by
    rcases hd hne with ⟨hn, _⟩ | ⟨b, hb, hbe⟩
    · rw [ha] at hn; cases hn
    · rw [ha] at hb; injection hb with hb; subst hb
      simp [L.isOpen, hbe] at hao
  subst hdn
  refine ⟨by rw [he, List.append_nil], fun hw => ?_⟩
  rcases hs.one a ha with h1 | h1
  · simp [waits, ha, h1] at hw
  · simp [queue, ha, h1]

/-- Every future given to a listener is resolved exactly once, or it is the one which waits; when the listener is not
open any more all are resolved. -/
theorem C138_futures (cs : List Call) (h : Contract cs) (l : Nat) :
    (asked l cs).Perm (resolved ((Events.run {} cs).2.filter (of l)) ++ waits (Spec.run l {} cs).1) ∧
    (¬ open' l cs → waits (Spec.run l {} cs).1 = []) := by
  rw [C138_observed cs h l]
  obtain ⟨hs, hp⟩ := futures_run l cs {} sane_init (h l)
  refine ⟨by simpa [waits] using hp, fun hno => ?_⟩
  unfold waits
  cases ha : (Spec.run l {} cs).1.me with
  | none => rfl
  | some a =>
    have : a.waiting = none := by
      cases hk : a.kind with
      | none => exact (hs.raw a ha hk).2.1
      | some k =>
        refine (hs.over a ha fun he => hno ⟨a, ha, by simp [L.isOpen, hk, he]⟩).1
    simp [this]

/-- A listener does not depend on the others: without all calls the application made for another listener it observes
the same, also if the other one ran out of memory or was stopped. -/
theorem C138_others (cs : List Call) (h : Contract cs) (l m : Nat) (hn : l ≠ m) :
    Contract (without m cs) ∧
    (Events.run {} (without m cs)).2.filter (of l) = (Events.run {} cs).2.filter (of l) := by
  have hc : Contract (without m cs) := by
    intro j
    by_cases e : j = m
    · subst e; exact without_self j cs {}
    · exact without_fine j m e cs {} (h j)
  exact ⟨hc, by rw [C138_observed _ hc, C138_observed _ h, without_run l m hn]⟩

/-! ### A concrete case -/

/-- Two listeners for connections and one for the device. -/
def sample : List Call :=
  [.new true, .new true, .new true, .new false, .init .conn 0 true, .init .conn 1 true, .init .dev 2 true,
    .listen .conn 0 100 (some 1) (some 2), .notify (.conn 7 0) (fun _ => true), .notify (.conn 7 2) (fun l => l ≠ 1),
    .listen .conn 0 101 (some 1) (some 2), .listen .conn 1 102 (some 3) (some 4), .listen .dev 2 103 none (some 5),
    .listen .dev 2 104 none (some 5), .notify (.dev 0) (fun _ => true), .stop 0, .free 0, .stopAll, .free 1,
    .stop 2, .free 2]

theorem sample_fine : Contract sample := by
  intro l
  by_cases h0 : l = 0
  · subst h0
    simp [sample, Fine, fine, Spec.step, Spec.on, Spec.listen, Spec.offer, Spec.hand, Spec.stop, Spec.close, L.isOpen,
      Val.kind, refFor]
  by_cases h1 : l = 1
  · subst h1
    simp [sample, Fine, fine, Spec.step, Spec.on, Spec.listen, Spec.offer, Spec.hand, Spec.stop, Spec.close, L.isOpen,
      Val.kind, refFor]
  by_cases h2 : l = 2
  · subst h2
    simp [sample, Fine, fine, Spec.step, Spec.on, Spec.listen, Spec.offer, Spec.hand, Spec.stop, Spec.close, L.isOpen,
      Val.kind, refFor]
  simp [sample, Fine, fine, Spec.step, Ne.symm h0, Ne.symm h1, Ne.symm h2]

example : (Events.run {} sample).2 =
    [.made (some 0), .made (some 1), .made (some 2), .made none, .ret 0 .ok, .ret 1 .ok, .ret 2 .ok,
      .hand 0 [(1, 7), (2, 0)], .resolve 0 100 .ok, .hand 0 [(1, 7), (2, 2)], .resolve 0 101 .ok,
      .resolve 1 102 .outOfMemory, .resolve 2 104 .operationInProgress, .hand 2 [(5, 0)], .resolve 2 103 .ok, .ret 0 .ok,
      .ret 2 .ok] := by decide +kernel

example : Given 0 sample := by
  intro k f ref ev h
  simp [sample] at h
  rcases h with ⟨_, _, rfl, rfl⟩ | ⟨_, _, rfl, rfl⟩ <;> simp

example : (offered 0 {} sample).map nums = [[7, 0], [7, 2]] ∧ asked 0 sample = [100, 101] := by decide +kernel

/-- Violated: the library lets a listener be initialised twice and then forgets the first context, which stays
registered. When the listener was stopped and freed, as it should be, the next event uses it although it was freed. -/
theorem C138_twice_violated (v : Val) (mem : Nat → Bool) (hm : mem 0 = true) (k : Kind) (hv : v.kind = k) :
    let cs := [.new true, .init k 0 true, .init k 0 true, .stop 0, .free 0]
    (Events.run {} cs).1.bad = false ∧ (Events.run {} cs).2 = [.made (some 0), .ret 0 .ok, .ret 0 .ok, .ret 0 .ok] ∧
    (Events.run {} (cs ++ [.notify v mem])).1.bad = true := by
  subst hv
  refine ⟨rfl, rfl, ?_⟩
  cases v <;> simp [Events.run, Events.step, new, init, stop, stopInternal, setErrorCode, resolveErrorState, cbAborted,
    free, notify, notifyGo, coreCb, addEvent, W.setL, W.setC, W.fault, Val.kind, hm]

end Verif.Api.Events.Props
