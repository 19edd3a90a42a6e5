import Verif.Dtls.TimerLemmas

/-!
# C144: the timer of an mbed TLS session
-/

namespace Verif.Dtls.Timer

open Util.Timestamp Event Spec

theorem inv_of_run {ops : List Op} {w : World} (hr : run {} ops = some w) (hs : Short ops) (ht : OnEventThread ops) :
    Inv w ∧ Fair w.trace := run_inv Inv.init fair_nil hs ht hr

/-- **C144 (answers).** Whatever happens on the device, the timer answers as mbed TLS expects, with one exception: if
the final delay has passed and the event thread has not got round to calling back, it still answers 1 (0 if the
intermediate delay is longer than the final one). Missing: callers on other threads, delays of 25 days. -/
theorem C144_delay_partial (ops : List Op) (w : World) (hr : run {} ops = some w) (hs : Short ops)
    (ht : OnEventThread ops) (hn : ∀ s, (view w.trace).shot = some s → w.now < s.at_ + 2 ^ 31) :
    getDelay w = delay (view w.trace).shot w.now ∨
    ∃ s, (view w.trace).shot = some s ∧ (view w.trace).given = false ∧ s.at_ + s.final ≤ w.now ∧
      getDelay w = if s.at_ + s.inter ≤ w.now then 1 else 0 := by
  have g := (inv_of_run hr hs ht).1
  cases hsh : (view w.trace).shot with
  | none =>
    left
    unfold getDelay delay
    rw [(g.off hsh).1]
    rfl
  | some s =>
    have o := g.on s hsh
    have hp : passedOrNow (stamp w.now) w.intermediateTp = decide (s.at_ + s.inter ≤ w.now) := by
      unfold passedOrNow
      rw [o.tp]
      have h1 := hn s hsh
      have h2 := o.past
      have h3 := o.inter
      exact C35_compare _ _ (by omega) (by omega)
    unfold getDelay
    rw [o.armed, o.exp, hp]
    unfold delay
    dsimp only
    cases hg : (view w.trace).given with
    | true => left; rw [if_pos (o.due hg)]; rfl
    | false =>
      by_cases hf : s.at_ + s.final ≤ w.now
      · right
        refine ⟨s, rfl, rfl, hf, ?_⟩
        simp
      · left
        rw [if_neg hf]
        simp

/-- **C144 (never early).** The answer is never ahead of what mbed TLS expects, and -1 exactly if the timer is off. -/
theorem C144_never_early_partial (ops : List Op) (w : World) (hr : run {} ops = some w) (hs : Short ops)
    (ht : OnEventThread ops) (hn : ∀ s, (view w.trace).shot = some s → w.now < s.at_ + 2 ^ 31) :
    getDelay w ≤ delay (view w.trace).shot w.now ∧ (getDelay w = -1 ↔ (view w.trace).shot = none) := by
  have g := (inv_of_run hr hs ht).1
  refine ⟨?_, ?_⟩
  · rcases C144_delay_partial ops w hr hs ht hn with h | ⟨s, h1, _, h3, h4⟩
    · omega
    · rw [h4, h1]
      unfold delay
      dsimp only
      rw [if_pos h3]
      split <;> omega
  · cases hsh : (view w.trace).shot with
    | none =>
      unfold getDelay
      rw [(g.off hsh).1]
      simp
    | some s =>
      unfold getDelay
      rw [(g.on s hsh).armed]
      simp only [if_true, reduceCtorEq, iff_false]
      split
      · omega
      · split <;> omega

/-- **C144 (in the callback).** From the callback on the timer says that the final delay has passed, however long it is
not asked, until it is set again. -/
theorem C144_after_callback_partial (ops : List Op) (w : World) (hr : run {} ops = some w) (hs : Short ops)
    (ht : OnEventThread ops) (s : Shot) (h : (view w.trace).shot = some s) (hg : (view w.trace).given = true) :
    getDelay w = 2 := by
  have o := (inv_of_run hr hs ht).1.on s h
  unfold getDelay
  rw [o.armed, o.exp, hg]
  rfl

/-- **C144 (callbacks).** The timer calls back only for the delays in force, once, if it was not cancelled since, and
not before the final delay has passed. -/
theorem C144_callback_partial (ops : List Op) (w : World) (hr : run {} ops = some w) (hs : Short ops)
    (ht : OnEventThread ops) (before after : List Ev) (t : Nat) (h : w.trace = before ++ .ran t :: after) :
    (view before).owed = true ∧ (view before).given = false ∧
      ∃ s, (view before).shot = some s ∧ s.at_ + s.final ≤ t := by
  obtain ⟨h1, s, h2, h3⟩ := (inv_of_run hr hs ht).2 before t after h
  refine ⟨h1, ?_, s, h2, h3⟩
  -- a view which owes a callback has not given it
  have : ∀ tr : List Ev, (view tr).owed = true → (view tr).given = false := by
    intro tr
    induction tr using snocInd with
    | h0 => intro h; cases h
    | h1 tr e ih =>
      rw [view_snoc]
      cases e with
      | set t i f => unfold View.next; dsimp only; split <;> simp
      | cancel => intro h; cases h
      | ran t => intro h; cases h
  exact this _ h1

/-- **C144 (no timer is lost).** As long as a callback is owed it is on its way: it is in the event queue with the right
stamp, or the event thread has taken it and waits for the core's lock. After a callback, a cancellation or switching the
timer off nothing is on its way. -/
theorem C144_pending_partial (ops : List Op) (w : World) (hr : run {} ops = some w) (hs : Short ops)
    (ht : OnEventThread ops) :
    ((view w.trace).owed = true → ∃ s, (view w.trace).shot = some s ∧ OnItsWay w.sys (s.at_ + s.final)) ∧
    ((view w.trace).owed = false → ∀ d, ¬ OnItsWay w.sys d) := by
  have g := (inv_of_run hr hs ht).1
  refine ⟨fun h => ?_, fun h d hd => ?_⟩
  · cases hsh : (view w.trace).shot with
    | none => rw [(g.off hsh).2] at h; cases h
    | some s =>
      refine ⟨s, rfl, ?_⟩
      rcases (g.on s hsh).way h with ⟨h1, _⟩ | ⟨_, h1, _⟩
      · left
        have : (0, stamp (s.at_ + s.final)) ∈ slot w.sys.q := by rw [h1]; exact List.mem_singleton.2 rfl
        exact (List.mem_filter.1 this).1
      · exact .inr h1
  · obtain ⟨h1, h2⟩ := g.quiet h
    rcases hd with hd | hd
    · have : (0, stamp d) ∈ slot w.sys.q := List.mem_filter.2 ⟨hd, rfl⟩
      rw [h1] at this
      cases this
    · exact h2 hd

/-- **C144 (late).** The contract is violated as long as the callback has not run: however much time passes, the timer
does not say that its final delay has passed. -/
theorem C144_late_violated (ops : List Op) (w : World) (hr : run {} ops = some w) (hs : Short ops)
    (ht : OnEventThread ops) (s : Shot) (h : (view w.trace).shot = some s) (hg : (view w.trace).given = false) (ms : Nat)
    (hm : s.at_ + s.final ≤ w.now + ms) :
    ∃ w', run w [.tick ms] = some w' ∧ delay (view w'.trace).shot w'.now = 2 ∧ getDelay w' ≠ 2 := by
  have o := (inv_of_run hr hs ht).1.on s h
  refine ⟨{ w with now := w.now + ms }, rfl, ?_, ?_⟩
  · dsimp only
    rw [h]
    unfold delay
    dsimp only
    rw [if_pos hm]
  · unfold getDelay
    dsimp only
    rw [o.armed, o.exp, hg]
    simp only [if_true, Bool.false_eq_true, if_false]
    split <;> omega

/-! ## Concrete cases -/

/-- The event thread runs some event, whose callback sets the timer to 1 s and 4 s. -/
def setOnThread : List Op :=
  [.tick 7, .act (.post (.other 1) 5), .act .take, .act .begin, .set .loop 1000 4000, .act .finish]

/-- Then the timer runs out, the event thread calls back, and the callback doubles the delays. -/
def wholeRound : List Op :=
  setOnThread ++ [.act .take, .tick 4000, .act .wake, .act .take, .act .begin]

theorem short_check {ops : List Op} (h : ops.all (fun o => match o with
    | .set _ i f => decide (i.toNat < 2 ^ 31 ∧ f.toNat < 2 ^ 31)
    | _ => true) = true) : Short ops :=
  fun _ _ _ hm => of_decide_eq_true (List.all_eq_true.1 h _ hm)

theorem thread_check {ops : List Op} (h : ops.all (fun o => match o with
    | .set a _ _ | .cancel a => decide (a = .loop)
    | _ => true) = true) : OnEventThread ops :=
  ⟨fun _ _ _ hm => of_decide_eq_true (List.all_eq_true.1 h _ hm), fun _ hm => of_decide_eq_true (List.all_eq_true.1 h _ hm)⟩

/-- A timer is set and answers 0, then 1, then its callback runs once, at 4 s, and it answers 2. -/
example : Short wholeRound ∧ OnEventThread wholeRound ∧
    (run {} setOnThread).map getDelay = some 0 ∧ (run {} (setOnThread ++ [.tick 999])).map getDelay = some 0 ∧
    (run {} (setOnThread ++ [.tick 1000])).map getDelay = some 1 ∧
    (run {} wholeRound).map (fun w => (getDelay w, w.trace)) = some (2, [.set 7 1000 4000, .ran 4007]) :=
  ⟨short_check (by decide +kernel), thread_check (by decide +kernel), by decide +kernel⟩

/-- The hypotheses on the view are met: the delays are in force, and the callback is owed or given. -/
example : (run {} setOnThread).map (fun w => view w.trace) = some ⟨some ⟨7, 1000, 4000⟩, true, false⟩ ∧
    (run {} wholeRound).map (fun w => view w.trace) = some ⟨some ⟨7, 1000, 4000⟩, false, true⟩ := by
  decide +kernel

/-- The timer runs out while another thread holds the core's lock: the event thread has taken the event. -/
def taken : List Op :=
  setOnThread ++ [.act .take, .tick 4000, .act .wake, .act (.lockCore 1), .act .take]

/-- **C144 (set by another thread).** If another thread sets the timer while the event thread has taken the old event, the
old callback runs for the new delays: the new final delay is said to have passed at once, and the callback which is owed
comes a second time. -/
theorem C144_set_raced_violated : ∃ w w', run {} (taken ++ [.set (.other 1) 1000 4000, .act (.unlockCore 1),
      .act .begin]) = some w ∧ delay (view w.trace).shot w.now = 0 ∧ getDelay w = 2 ∧
    run w [.act .finish, .act .take, .tick 4000, .act .wake, .act .take, .act .begin] = some w' ∧
    w'.trace = [.set 7 1000 4000, .set 4007 1000 4000, .ran 4007, .ran 8007] :=
  ⟨_, _, rfl, by decide +kernel, by decide +kernel, rfl, by decide +kernel⟩

/-- **C144 (cancelled by another thread).** If another thread cancels the timer at that point, as closing a connection does
(`nm_mbedtls_srv.c:501`), the callback runs nevertheless. -/
theorem C144_cancel_raced_violated : ∃ w, run {} (taken ++ [.cancel (.other 1), .act (.unlockCore 1), .act .begin]) =
    some w ∧ w.trace = [.set 7 1000 4000, .cancel, .ran 4007] :=
  ⟨_, rfl, by decide +kernel⟩

/-- **C144 (25 days).** A timer with an intermediate delay of 2^31 ms or more says at once that the delay has passed, if it
was set at the instant 0 of the clock. -/
theorem C144_long_violated (i : UInt32) (hi : 2 ^ 31 ≤ i.toNat) : ∃ w,
    run {} [.act (.post (.other 1) 5), .act .take, .act .begin, .set .loop i 4294967295] = some w ∧
    delay (view w.trace).shot w.now = 0 ∧ getDelay w = 1 := by
  refine ⟨_, rfl, ?_, ?_⟩
  · show delay (some ⟨0, i.toNat, 4294967295⟩) 0 = 0
    unfold delay
    dsimp only
    rw [if_neg (by omega), if_neg (by omega)]
  · show (if passedOrNow (stamp 0) (future (stamp 0) i) = true then (1 : Int) else 0) = 1
    rw [if_pos]
    have h0 : future (stamp 0) i = i := by simp [future, stamp]
    have h1 : i - stamp 0 = i := by simp [stamp]
    have h2 := i.toNat_lt
    unfold passedOrNow lessOrEqual toInt32
    rw [h0, h1, if_neg (by omega)]
    simp only [decide_eq_true_eq]
    omega

end Verif.Dtls.Timer
