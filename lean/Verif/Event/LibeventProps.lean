import Verif.Event.LibeventLemmas

/-! # C156: the event queue on libevent -/

namespace Verif.Event.Libevent.Props
open Verif.Event.Libevent Spec

/-- **C156**: when the callback starts, it was asked to: since the last cancellation which returned the event was posted, or it was
posted with a delay which is over. -/
theorem C156_asked {as : List Act} {s t : St} (h : run init as = some s) (hs : step s .enter = some t) :
    ∃ d ∈ due s.log, d ≤ s.now := by
  have hi := Inv.init.run h
  simp only [step] at hs
  split at hs
  case isFalse => cases hs
  case isTrue hc => exact hi.due (.inr hc.1)

/-- **C156**: the callback never runs more often than it was asked to. -/
theorem C156_once {as : List Act} {s : St} (h : run init as = some s) : runs s.log ≤ requests s.log :=
  Nat.le_trans (Nat.le_add_right _ _) (Inv.init.run h).count

/-- **C156**, while no thread hangs in a cancellation: an event which was posted, and since then neither ran nor was cancelled, is going to
run. -/
theorem C156_post_partial {as : List Act} {s : St} (h : run init as = some s) (ha : s.app ≠ .deleting) (ho : owed s.log = true) :
    WillRun s :=
  willRun_pending (Inv.init.run h) ha ((Inv.init.run h).owed ho)

/-- **C156**, if the event is never cancelled: after `post_maybe_double` the event is going to run, also if it was told to be
posted already. -/
theorem C156_maybe_partial {as : List Act} {s : St} (h : run init as = some s) (hc : ∀ w, .cancel w ∉ as)
    (ho : owedMaybe s.log = true) : WillRun s := by
  have hk : Kept init := ⟨(by decide), (fun h => nomatch h), (fun h => nomatch h)⟩
  have hk := hk.run hc h
  exact willRun_pending (Inv.init.run h) hk.app (hk.owed ho)

/-- The event is posted, and delayed. -/
def busy0 : List Act := [.lock, .postTimed .app 5, .post .app, .postTimed .app 1000, .unlock]

/-- **C156**, while no thread hangs in a cancellation: an event which was posted, and since then neither ran nor was cancelled or delayed,
runs without waiting for a timer. -/
theorem C156_now_partial {as : List Act} {s : St} (h : run init as = some s) (ha : s.app ≠ .deleting) (ho : owedNow s.log = true) :
    WillRunNow s :=
  now_ready (Inv.init.run h) ha (now_run (s := init) (by intro h; cases h) h ho)

/-- **C156**, if no timer has expired: also if it was delayed after it was posted. -/
theorem C156_unexpired_partial {as : List Act} {s : St} (h : run init as = some s) (ha : s.app ≠ .deleting) (hx : .expire ∉ as)
    (ho : owed s.log = true) : WillRunNow s :=
  now_ready (Inv.init.run h) ha (unexpired_run (s := init) (by intro h; cases h) (by decide) hx h ho)

example : (run init busy0).map (fun s => (owed s.log, owedNow s.log)) = some (true, false) ∧ .expire ∉ busy0 := by decide +kernel

/-- **C156** is violated by the code: if the timer of an event expired before the event was posted, the posted event waits for
the timer which is set next, however long that is. -/
theorem C156_late_violated (ms : Nat) (hm : 0 < ms) : ∃ as s, run init as = some s ∧ owed s.log = true ∧ ¬ WillRunNow s := by
  refine ⟨[.lock, .postTimed .app 0, .expire, .post .app, .postTimed .app ms], _, rfl, rfl, ?_⟩
  rintro ⟨cs, t, h1, h2, h3⟩
  have hl := Later.run (n := 0) (d := ms) ⟨rfl, (by simp [postTimed, post, timeval_ms]; rfl), hm, rfl, rfl, rfl⟩ h1 h2
  rw [hl.runs] at h3
  cases h3

/-- A timer expires, the event is posted too, and its timer is set again before it runs; the callback posts the event again. -/
def busy : List Act :=
  [.lock, .postTimed .app 1500, .unlock, .tick 1500, .expire, .lock, .post .app, .postMaybe .app, .postTimed .app 10, .unlock, .tick 10, .expire,
   .take, .enter, .postMaybe .callback, .leave]

example : (run init busy).map (fun s => (due s.log, s.now, owed s.log, runs s.log, requests s.log)) =
    some ([1510, 1510, 1500, 1500], 1510, true, 1, 4) ∧ (run init (busy ++ [.take, .enter])).isSome ∧ (∀ w, .cancel w ∉ busy) := by
  refine ⟨by decide +kernel, by decide +kernel, ?_⟩
  intro w; cases w <;> decide +kernel

/-- A cancelled event does not run. -/
example : (run init [.lock, .post .app, .cancel .app, .unlock]).map (fun s => (due s.log, step s .take)) = some ([], none) := by
  decide +kernel

/-- **C156** is violated by the code: an event which was posted and cancelled is refused by `post_maybe_double` for ever, and it
does not run. -/
theorem C156_lost_violated : ∃ as s, run init as = some s ∧ ∀ cs t, run s cs = some t →
    (∀ w, .post w ∉ cs) → (∀ w ms, .postTimed w ms ∉ cs) →
    runs t.log = 0 ∧ requests t.log = 1 ∧ ∀ w u, step t (.postMaybe w) = some u → u.log = .refused :: t.log := by
  refine ⟨[.lock, .post .app, .cancel .app], _, rfl, ?_⟩
  intro cs t hr hp ht
  have hl := Lost.run ⟨rfl, rfl, rfl, rfl, rfl, rfl, by decide⟩ hp ht hr
  refine ⟨hl.runs, hl.requests, ?_⟩
  intro w u hs
  simp only [step] at hs
  split at hs <;> cases hs
  simp [postMaybe, hl.posted]

/-- **C156** is violated by the code: if an event is cancelled while libevent is about to call it, the device hangs: the mutex is never
given back, no call returns, and the callback does not run. -/
theorem C156_hang_violated : ∃ as s, run init as = some s ∧ ∀ cs t, run s cs = some t → t.app = .deleting ∧ t.log = s.log := by
  refine ⟨[.lock, .post .app, .take, .cancel .app], _, rfl, ?_⟩
  intro cs t hr
  have hh := Hung.run ⟨rfl, rfl, rfl, rfl, rfl⟩ hr
  exact ⟨hh.app, hh.log⟩

end Verif.Event.Libevent.Props
