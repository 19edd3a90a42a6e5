import Verif.Device.CreateLemmas

/-!
# C132: a device is made or not

Proved: a device which was made is freed without a trace, whatever was missing when it was made; a failed creation leaves nothing behind if
what failed is not one of the `unhandled` things; no thread is left running, and the process is broken at most if the thread of the event queue cannot be
started. Violated: each of the unhandled failures.
-/

namespace Verif.Device.Create

/-- C132. A device which was made is freed without a trace, whatever failed on the way. -/
theorem C132_freed (ok : Res → Bool) (s : St) (h : new ok = (true, s)) : Spec.Clean (free s) := by
  rcases new_cases ok with ⟨h', hj⟩ | ⟨_, _, _, _, _, h'⟩
  · rw [h] at h'
    cases h'
    simp only [judgeEnd, Bool.and_eq_true, decide_eq_true_eq] at hj
    exact hj.1.1.1
  · rw [h] at h'
    cases h'

example : (new fun _ => true).1 = true := by decide +kernel

/-- C132. A device which was made has everything but what was neglected, and that exactly if it could be had. -/
theorem C132_whole (ok : Res → Bool) (s : St) (h : new ok = (true, s)) :
    s.ub = none ∧ s.raw = [] ∧ (∀ r ∈ Spec.neglected, (r ∈ s.held ↔ ok r = true)) ∧ ∀ r ∈ Spec.needed, r ∈ s.held := by
  rcases new_cases ok with ⟨h', hj⟩ | ⟨_, _, _, _, _, h'⟩
  · rw [h] at h'
    cases h'
    simp only [judgeEnd, Bool.and_eq_true, decide_eq_true_eq] at hj
    refine ⟨hj.1.1.2, hj.1.2, ?_, ?_⟩
    · intro r hr
      have hall : ∀ r ∈ Spec.neglected, (creation.any fun t => decide (t.cmd = .ask r)) = true ∧
          (creation.flatMap fun t => takes (fun _ => false) t.cmd).contains r = false := by decide +kernel
      exact takes_asked ok r (hall r hr)
    · intro r hr
      have hall : ∀ r ∈ Spec.needed, r = .dtlsClient ∨
          (creation.flatMap fun t => takes (fun _ => false) t.cmd).contains r = true := by decide +kernel
      rcases hall r hr with e | e
      · rw [e]
        simpa using hj.2
      · exact takes_always ok r (by simpa using e)
  · rw [h] at h'
    cases h'

/-- C132, partial. A creation which fails leaves nothing behind unless what failed is one of the unhandled things. -/
theorem C132_undone_partial (ok : Res → Bool) (s : St) (h : new ok = (false, s)) (hu : ∀ r ∈ Spec.unhandled, ok r = true) :
    Spec.Clean s := by
  rcases new_cases ok with ⟨h', -⟩ | ⟨s₁, t, s', hj, hc, h'⟩
  · rw [h] at h'
    cases h'
  · rw [h] at h'
    simp only [Prod.mk.injEq, true_and] at h'
    rw [← h'] at hj
    have hno : owned s₁ t.cmd = true → (∀ r ∈ blame t.cmd, r ∈ Spec.unhandled) → False := by
      intro ho hb
      rcases cause_blame hc with h | ⟨r, hr, hf⟩
      · rw [ho] at h
        cases h
      · have := hu r (hb r hr)
        rw [hf] at this
        cases this
    rcases judge_cases hj with h | ⟨h, ho⟩ | ⟨-, ho, hb, -⟩
    · exact h
    · exact absurd (hno ho (by rw [h.1]; decide)) id
    · exact absurd (hno ho hb) id

/-- Every other failure is undone, for instance the last one of the core. -/
example : (∀ r ∈ Spec.unhandled, (fun r => r != Res.socketBound) r = true) ∧ (new fun r => r != Res.socketBound).1 = false := by
  decide +kernel

/-- C132. Whatever fails, no thread is left running unless the process is broken, and the device object and the mutex are given back. -/
theorem C132_no_thread (ok : Res → Bool) (s : St) (h : new ok = (false, s)) (hn : s.ub = none) :
    (∀ r ∈ Spec.threads, r ∉ s.held) ∧ Res.context ∉ s.held ∧ Res.eventMutex ∉ s.held := by
  rcases new_cases ok with ⟨h', -⟩ | ⟨s₁, t, s', hj, hc, h'⟩
  · rw [h] at h'
    cases h'
  · rw [h] at h'
    simp only [Prod.mk.injEq, true_and] at h'
    rw [← h'] at hj
    rcases judge_cases hj with h | ⟨h, ho⟩ | ⟨-, -, -, h⟩
    · rw [h.1]
      simp
    · rw [hn] at h
      cases h.2
    · exact ⟨fun r hr => h r (List.mem_append_left _ hr), h _ (by decide), h _ (by decide)⟩

/-- The hypotheses are met also by a failure which leaves something behind. -/
example : (new fun r => r != Res.stunTimer).1 = false ∧ (new fun r => r != Res.stunTimer).2.ub = none := by decide +kernel

/-- C132. Only a thread which cannot be started breaks the process: nothing is given back twice, or while it is in use. -/
theorem C132_broken (ok : Res → Bool) (u : Ub) (h : (new ok).2.ub = some u) :
    u = .joinedUnstarted .queueThread ∧ ok .queueRuns = false := by
  rcases new_cases ok with ⟨h', -⟩ | ⟨s₁, t, s', hj, hc, h'⟩
  · have := (C132_whole ok (new ok).2 (by rw [h'])).1
    rw [h] at this
    cases this
  · rw [h'] at h
    simp only at h
    rcases judge_cases hj with h1 | ⟨h1, -⟩ | ⟨h1, -⟩
    · rw [h1.2.1] at h
      cases h
    · rw [h1.2] at h
      cases h
      rw [h1.1] at hc
      exact ⟨rfl, hc⟩
    · rw [h1] at h
      cases h

/-- C132, violated: after each of the unhandled failures the process is not as before. (After all others it is: C132_undone_partial.) -/
theorem C132_leak_violated (r : Res) (h : r ∈ Spec.unhandled) :
    (new fun x => x != r).1 = false ∧ ¬ Spec.Clean (new fun x => x != r).2 := by
  revert r h
  decide +kernel

/-- C132, violated: without the first event of the mDNS server, what was made of the platform is never given back. -/
theorem C132_platform_violated :
    (new fun x => x != .mdnsClose).2.held = [.dnsBase, .dnsMutex, .queueCondition, .queueMutex, .eventBase, .platform, .libeventUse] := by
  decide +kernel

/-- C132, violated: if the thread of the event queue cannot be started, a thread which does not exist is joined. -/
theorem C132_crash_violated : (new fun x => x != .queueRuns).2.ub = some (.joinedUnstarted .queueThread) := by decide +kernel

/-- C132, violated: a device may be made without a source of random numbers, without the timer of the password tokens and without the
event to answer unknown streams with. -/
theorem C132_half_made_violated (r : Res) (h : r ∈ Spec.neglected) :
    (new fun x => x != r).1 = true ∧ r ∉ (new fun x => x != r).2.held := by
  revert r h
  decide +kernel

end Verif.Device.Create
