import Verif.Event.ClockLemmas

/-!
# C129: a timed wait lasts as long as asked for, and a timer fires when its time has passed

True on machines of 64 bits as long as nobody sets the clock. On machines of 32 bits a wait does not wait, or is undefined; when the
wall clock is set back, waits and timers are late by as much.
-/

namespace Verif.Event.Clock

open Spec

/-- 64 bits, a clock which is not set: a wait of `ms` milliseconds is over after `ms` milliseconds, and not more than one millisecond
before. -/
theorem C129_wait_partial (wall : Wall) (t : Nat) (ms : UInt32) (hs : Sane wall t) (hst : Steady wall t) :
    ∃ d, deadline lp64 wall t ms = some d ∧
      (∀ t', t ≤ t' → t' + 1000 ≤ t + 1000 * ms.toNat → Waits wall d t t') ∧
      (∀ t', t + 1000 * ms.toNat ≤ t' → ¬ Waits wall d t t') := by
  refine ⟨_, deadline_lp64 wall t hs.2 ms, ?_, ?_⟩
  · intro t' h1 h2 u hu1 hu2
    rw [hst u hu1]
    omega
  · intro t' h hw
    have := hw t' (by omega) (Nat.le_refl _)
    rw [hst t' (by omega)] at this
    omega

/-- Violated with a `time_t` of 32 bits: from 26 January 1970 on, every timed wait is undefined (`tv_sec * 1000` overflows). -/
theorem C129_wait_undefined_violated (wall : Wall) (t : Nat) (ms : UInt32) (hs : Sane wall t) :
    deadline ilp32 wall t ms = none := by
  unfold deadline
  rw [futureMs_32 _ hs.1]
  rfl

/-- Violated with a `long` of 32 bits and a `time_t` of 64 bits: no timed wait waits at all, however long it should
(`(long)future_ms` is cut off). The thread of the event queue then runs without a pause until its next timer is due. -/
theorem C129_wait_none_violated (wall : Wall) (t : Nat) (ms : UInt32) (hs : Sane wall t) :
    ∃ d, deadline ilp32Time64 wall t ms = some d ∧ ∀ t', t ≤ t' → ¬ Waits wall d t t' := by
  obtain ⟨d, hd, hlt⟩ := deadline_ilp32Time64 wall t hs.2 ms
  refine ⟨d, hd, ?_⟩
  intro t' h hw
  have := hw t (Nat.le_refl _) h
  have := hs.1
  omega

/-- Violated: if the wall clock is set back by `d` microseconds during the wait, nobody is woken before `d` more have passed. -/
theorem C129_wait_set_back_violated (wall : Wall) (t d : Nat) (ms : UInt32) (hs : Sane wall t) (hb : SetBack wall t d)
    (hms : 0 < ms.toNat) :
    ∃ e, deadline lp64 wall t ms = some e ∧
      ∀ t', t ≤ t' → t' + 1000 ≤ t + 1000 * ms.toNat + d → Waits wall e t t' := by
  refine ⟨_, deadline_lp64 wall t hs.2 ms, ?_⟩
  intro t' h1 h2 u hu1 hu2
  by_cases hu : u = t
  · subst hu; omega
  · have := hb u (by omega)
    omega

/-- 64 bits of time, a clock which is not set: the stamps of two instants differ by the time between them, to a millisecond. -/
theorem C129_elapsed_partial (impl : Impl) (a : Arch) (ha : a.time = 64) (wall : Wall) (t t' : Nat) (h : t ≤ t')
    (hlt : t' - t < 1000 * (2 ^ 31 - 1)) (hs : Sane wall t) (hst : Steady wall t) (hs' : wall t' < 2 ^ 60) :
    ∃ n n', nowMs impl a wall t = some n ∧ nowMs impl a wall t' = some n' ∧
      1000 * Verif.Util.Timestamp.difference n' n ≤ (t' - t : Nat) + 999 ∧
      (t' - t : Nat) ≤ 1000 * Verif.Util.Timestamp.difference n' n + 999 := by
  have hw := hst t' h
  refine ⟨_, _, nowMs_eq impl ha wall t hs.2, nowMs_eq impl ha wall t' hs', ?_⟩
  rw [Verif.Util.Timestamp.C35_difference _ _ (by omega) (by omega)]
  omega

/-- Violated with a `time_t` of 32 bits: the time stamp of the unix module is undefined. -/
theorem C129_stamp_undefined_violated (wall : Wall) (t : Nat) (hs : Sane wall t) : nowMs .unix ilp32 wall t = none := by
  have : signed ilp32.time (((wall t / 1000000 : Nat) : Int) * 1000) = none := signed_none (by
    have := hs.1
    show (2 : Int) ^ 31 ≤ _
    omega)
  unfold nowMs
  dsimp only
  rw [this, Option.bind_none]

/-- Violated: a timer set for `ms` milliseconds from now does not count as passed before `d` more microseconds have gone by, if the
wall clock is set back by `d`. -/
theorem C129_timer_set_back_violated (impl : Impl) (wall : Wall) (t t' d : Nat) (ms : Nat) (hms : ms < 2 ^ 30)
    (hs : Sane wall t) (hb : SetBack wall t d) (hs' : wall t' < 2 ^ 60) (hdw : d < 1000 * 2 ^ 30) (h : t < t')
    (hlate : t' + 1000 ≤ t + 1000 * ms + d) :
    ∃ n n', nowMs impl lp64 wall t = some n ∧ nowMs impl lp64 wall t' = some n' ∧
      Verif.Util.Timestamp.passedOrNow n' (Verif.Util.Timestamp.future n (UInt32.ofNat ms)) = false := by
  have hw := hb t' h
  have := hs.2
  refine ⟨_, _, nowMs_eq impl rfl wall t hs.2, nowMs_eq impl rfl wall t' hs', ?_⟩
  have hf : Verif.Util.Timestamp.future (Verif.Util.Timestamp.stamp (wall t / 1000)) (UInt32.ofNat ms) =
      Verif.Util.Timestamp.stamp (wall t / 1000 + ms) := by
    simp [Verif.Util.Timestamp.future, Verif.Util.Timestamp.stamp]
  unfold Verif.Util.Timestamp.passedOrNow
  rw [hf, Verif.Util.Timestamp.C35_compare _ _ (by omega) (by omega), decide_eq_false_iff_not]
  omega

/-- Violated: if the wall clock is set forward by `d`, a timer set for up to `d` microseconds from now has passed at once. -/
theorem C129_timer_set_forward_violated (impl : Impl) (wall : Wall) (t d ms : Nat) (hms : 1000 * ms ≤ d) (hs : Sane wall t)
    (hs' : wall (t + 1) < 2 ^ 60) (hf : SetForward wall t d) (hd : d < 1000 * (2 ^ 31 - 1)) :
    ∃ n n', nowMs impl lp64 wall t = some n ∧ nowMs impl lp64 wall (t + 1) = some n' ∧
      Verif.Util.Timestamp.passedOrNow n' (Verif.Util.Timestamp.future n (UInt32.ofNat ms)) = true := by
  have hw := hf (t + 1) (by omega)
  refine ⟨_, _, nowMs_eq impl rfl wall t hs.2, nowMs_eq impl rfl wall (t + 1) hs', ?_⟩
  have hf : Verif.Util.Timestamp.future (Verif.Util.Timestamp.stamp (wall t / 1000)) (UInt32.ofNat ms) =
      Verif.Util.Timestamp.stamp (wall t / 1000 + ms) := by
    simp [Verif.Util.Timestamp.future, Verif.Util.Timestamp.stamp]
  unfold Verif.Util.Timestamp.passedOrNow
  rw [hf, Verif.Util.Timestamp.C35_compare _ _ (by omega) (by omega), decide_eq_true_iff]
  omega

/-! Cases which meet the hypotheses. -/

/-- A clock which runs with real time from 16 November 2026 on. -/
example : Sane (fun u => 1794800000123456 + u) 5 ∧ Steady (fun u => 1794800000123456 + u) 5 :=
  ⟨⟨by decide, by decide⟩, fun u hu => by show 1794800000123456 + u = 1794800000123456 + 5 + (u - 5); omega⟩

/-- A clock which is set back by an hour. -/
example : Sane (fun u => if u ≤ 5 then 1794800000123456 + u else 1794796400123456 + u) 5 ∧
    SetBack (fun u => if u ≤ 5 then 1794800000123456 + u else 1794796400123456 + u) 5 3600000000 :=
  ⟨⟨by decide, by decide⟩, fun u hu => by
    show (if u ≤ 5 then _ else _) + _ = (if 5 ≤ 5 then _ else _) + _
    rw [if_neg (by omega), if_pos (Nat.le_refl 5)]
    omega⟩

/-- A clock which is set forward by an hour. -/
example : SetForward (fun u => if u ≤ 5 then 1794800000123456 + u else 1794803600123456 + u) 5 3600000000 :=
  fun u hu => by
    show (if u ≤ 5 then _ else _) = (if 5 ≤ 5 then _ else _) + _ + _
    rw [if_neg (by omega), if_pos (Nat.le_refl 5)]
    omega

/-- The deadline of a wait of two seconds. -/
example : deadline lp64 (fun u => 1794800000123456 + u) 5 2000 = some 1794800002123000000 := by decide

/-- The same with a `long` of 32 bits. -/
example : deadline ilp32Time64 (fun u => 1794800000123456 + u) 5 2000 = some (-496326877000000) := by decide

end Verif.Event.Clock
