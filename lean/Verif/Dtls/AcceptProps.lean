import Verif.Dtls.AcceptLemmas

/-!
# C142: opening connections is all or nothing

The full property: whatever fails when a client opens a connection, nothing is left allocated, nothing undefined
happens, and the other connections are not touched.  The last part is `C142_others`.  The first two are false
of the code: `C142_leak_violated` (both libraries), `C142_crash_violated` (wolfSSL).  What holds instead:
`C142_balanced_partial`, `C142_safe_partial`.
-/

namespace Verif.Dtls.Accept

/-- C142: a packet of a client leaves the open connections as they are, with all their parts, and adds at most
one, which has all its parts. -/
theorem C142_others (l : Lib) (ops : List Op) (cl : Nat) (hs : Bool) (w : Works) :
    (∀ c ∈ (run l (ops ++ [.first cl hs w])).conns, c.full) ∧
    ((run l (ops ++ [.first cl hs w])).conns = (run l ops).conns ∨
      ∃ c, c.client = cl ∧ (run l (ops ++ [.first cl hs w])).conns = (run l ops).conns ++ [c]) := by
  refine ⟨(inv_run l _).full, ?_⟩
  rw [run_snoc]
  simp only [step]
  rcases first_cases l _ (inv_run l ops) cl hs w with ⟨n, e⟩ | ⟨_, _, e⟩ | ⟨hn, k, j, _, e⟩ <;> rw [e]
  · exact Or.inl rfl
  · exact Or.inr ⟨_, rfl, rfl⟩
  · exact Or.inl rfl

/-- C142: while fewer connections are open than the limit and nothing fails, a new client gets a connection. -/
theorem C142_opens (l : Lib) (ops : List Op) (cl : Nat) (w : Works)
    (hb : w.block = true ∧ w.block2 = true ∧ w.ref = true) (hw : Spec.allWorks w)
    (hc : ∀ c ∈ (run l ops).conns, c.client ≠ cl)
    (hm : ∀ m, (run l ops).max = some m → (run l ops).conns.length < m) :
    ∃ c, c.client = cl ∧ c.full ∧
      (run l (ops ++ [.first cl true w])).conns = (run l ops).conns ++ [c] := by
  rw [run_snoc]
  have hi := inv_run l ops
  generalize run l ops = s at hc hm hi
  have ha : s.conns.any (fun c => c.client == cl) = false := by
    rw [List.any_eq_false]
    intro c hcm
    have := hc c hcm
    simpa using this
  have hf : s.full = false := by
    unfold St.full
    split
    · rfl
    · rename_i m hx
      have := hm m hx
      simp [hi.current, this]
  obtain ⟨b1, b2, b3⟩ := hb
  obtain ⟨a1, a2, a3, a4, a5, a6, a7, a8, a9⟩ := hw
  refine ⟨⟨s.nextRef, cl, true, true, true, some 5⟩, rfl, ⟨rfl, rfl, rfl, rfl⟩, ?_⟩
  simp [step, St.first, ha, hf, b1, b2, b3, initConn, createSession, a1, a2, a3, a4, a5, a6, a7, a8, a9]

/-- C142: a connection which is closed is gone, and the others stay. -/
theorem C142_gone (l : Lib) (ops : List Op) (r : Nat) :
    (run l (ops ++ [.gone r])).conns = (run l ops).conns.filter (fun c => c.ref != r) := by
  rw [run_snoc]
  have hi := inv_run l ops
  generalize run l ops = s at hi
  simp only [step, St.gone]
  split
  · rename_i h
    rw [List.find?_eq_none] at h
    symm
    rw [List.filter_eq_self]
    intro c hc
    have := h c hc
    simpa using this
  · rename_i c hc
    have hr : c.ref = r := by simpa using List.find?_some hc
    rw [destroy_full l s c (hi.full c (List.mem_of_find?_eq_some hc)), hr]

/-- C142: there are never more connections than the limit which was set before. -/
theorem C142_limit (l : Lib) (ops : List Op) (n : Nat) (h : ∀ m, .limit m ∉ ops) :
    (run l (.limit n :: ops)).conns.length ≤ n := by
  have : ∀ ops : List Op, (∀ m, .limit m ∉ ops) →
      (run l (.limit n :: ops)).conns.length ≤ n ∧ (run l (.limit n :: ops)).max = some n := by
    intro ops
    refine snoc_ind (P := fun ops => (∀ m, .limit m ∉ ops) →
      (run l (.limit n :: ops)).conns.length ≤ n ∧ (run l (.limit n :: ops)).max = some n) ?_ ?_ ops
    · intro _; exact ⟨Nat.zero_le _, rfl⟩
    · intro ops o ih h
      obtain ⟨h1, h2⟩ := ih (fun m hm => h m (List.mem_append_left _ hm))
      have hi := inv_run l (.limit n :: ops)
      rw [← List.cons_append, run_snoc]
      generalize run l (.limit n :: ops) = s at h1 h2 hi
      cases o with
      | first cl hs w =>
        simp only [step]
        rcases first_cases l s hi cl hs w with ⟨k, e⟩ | ⟨_, hf, e⟩ | ⟨hn, k, j, _, e⟩ <;> rw [e]
        · exact ⟨h1, h2⟩
        · refine ⟨?_, h2⟩
          simp only [St.full, h2, decide_eq_false_iff_not, hi.current] at hf
          simp only [List.length_append, List.length_singleton]
          omega
        · exact ⟨h1, h2⟩
      | complete r => simp only [step, St.complete]; split <;> exact ⟨h1, h2⟩
      | gone r =>
        simp only [step, St.gone]
        split
        · exact ⟨h1, h2⟩
        · rename_i c hc
          rw [destroy_full l s c (hi.full c (List.mem_of_find?_eq_some hc))]
          exact ⟨Nat.le_trans (List.length_filter_le _ _) h1, h2⟩
      | limit m => exact absurd (List.mem_append_right _ (List.mem_singleton.2 rfl)) (h m)
      | deinit =>
        obtain ⟨a, _, b⟩ := deinit_ind (P := fun t => t.max = some n) l
          (fun t c ht hm he => by rw [destroy_full l t c (ht.full c hm)]; exact he) s hi h2
        simp only [step]
        exact ⟨by rw [b]; exact Nat.zero_le _, a⟩
  exact (this ops h).1

/-- C142: the end of a connection is told exactly once, and never of one which is open. -/
theorem C142_closed_once (l : Lib) (ops : List Op) (r : Nat) :
    Spec.times (.closed r) (run l ops) =
      if r < (run l ops).nextRef ∧ r ∉ (run l ops).conns.map Conn.ref then 1 else 0 :=
  (inv_run l ops).once r

/-- C142 in part: when the creation of a session never fails halfway, nothing is allocated but what the open
connections consist of, and nothing at all after the end of the device. -/
theorem C142_balanced_partial (l : Lib) (ops : List Op) (h : ∀ cl hs w, .first cl hs w ∈ ops → Spec.sessionWorks w) :
    Spec.balanced (run l ops) ∧ (run l (ops ++ [.deinit])).made = (run l (ops ++ [.deinit])).freed := by
  have key : ∀ ops : List Op, (∀ cl hs w, .first cl hs w ∈ ops → Spec.sessionWorks w) →
      excess (run l ops) = 0 := by
    intro ops
    refine snoc_ind (P := fun ops => (∀ cl hs w, .first cl hs w ∈ ops → Spec.sessionWorks w) →
      excess (run l ops) = 0) ?_ ?_ ops
    · intro _; rfl
    · intro ops o ih h
      rw [run_snoc, (excess_step l _ o (inv_run l ops)).2 (fun cl hs w ho => h cl hs w (by simp [ho]))]
      exact ih (fun cl hs w hm => h cl hs w (List.mem_append_left _ hm))
  constructor
  · have h0 := key ops h
    have := (inv_run l ops).paid
    simp only [excess] at h0
    show _ = _ + 10 * _
    omega
  · have h0 := key (ops ++ [.deinit]) (fun cl hs w hm => h cl hs w (by simpa using hm))
    have hp := (inv_run l (ops ++ [.deinit])).paid
    have hc : (run l (ops ++ [.deinit])).conns = [] := by
      rw [run_snoc]
      exact (deinit_ind (P := fun _ => True) l (fun _ _ _ _ _ => trivial) _ (inv_run l ops) trivial).2.2
    simp only [excess, hc, List.length_nil] at h0 hp
    omega

/-- C142 in part: with mbedTLS nothing undefined happens whatever fails; with wolfSSL if no opening fails once
its first two blocks are allocated. -/
theorem C142_safe_partial (l : Lib) (ops : List Op)
    (h : l = .wolf → ∀ cl hs w, .first cl hs w ∈ ops → Spec.allWorks w) : (run l ops).crash = false := by
  revert h
  refine snoc_ind (P := fun ops => (l = .wolf → ∀ cl hs w, .first cl hs w ∈ ops → Spec.allWorks w) →
    (run l ops).crash = false) ?_ ?_ ops
  · intro _; rfl
  · intro ops o ih h
    rw [run_snoc, crash_step l _ o (inv_run l ops) (fun hl cl hs w ho => h hl cl hs w (by simp [ho]))]
    exact ih (fun hl cl hs w hm => h hl cl hs w (List.mem_append_left _ hm))

/-- C142 is violated: with both libraries every first packet for which the creation of the session fails
halfway loses memory; `n` of them lose at least `n` things, which nothing that happens later gives back. -/
theorem C142_leak_violated (l : Lib) (ops more : List Op) (cl : Nat) (w : Works) (n : Nat) (hw : Spec.halfway w)
    (hc : ∀ c ∈ (run l ops).conns, c.client ≠ cl) (hm : (run l ops).max = none) :
    (run l (ops ++ List.replicate n (.first cl true w) ++ more)).freed +
      Spec.whole * (run l (ops ++ List.replicate n (.first cl true w) ++ more)).conns.length + n ≤
      (run l (ops ++ List.replicate n (.first cl true w) ++ more)).made := by
  have key : ∀ (n : Nat) (s : St), Inv s → s.conns.any (fun c => c.client == cl) = false → s.max = none →
      excess s + n ≤ excess (runFrom l s (List.replicate n (.first cl true w))) := by
    intro n
    induction n with
    | zero => intro s _ _ _; exact Nat.le_refl _
    | succ n ih =>
      intro s hi ha hx
      have hf : s.full = false := by simp [St.full, hx]
      obtain ⟨h1, h2, h3, h4⟩ := first_halfway l s hi cl w hw ha hf
      have := ih (step l s (.first cl true w)) (inv_step l s _ hi) (by simp only [step, h2]; exact ha)
        (by simp only [step, h4]; exact hx)
      show excess s + (n + 1) ≤ excess (runFrom l (step l s (.first cl true w)) (List.replicate n (.first cl true w)))
      simp only [step] at this ⊢
      omega
  have ha : (run l ops).conns.any (fun c => c.client == cl) = false := by
    rw [List.any_eq_false]
    intro c hcm
    have := hc c hcm
    simpa using this
  have h1 := key n (run l ops) (inv_run l ops) ha hm
  rw [← run_append] at h1
  have h2 := excess_runFrom l _ more (inv_run l (ops ++ List.replicate n (.first cl true w)))
  rw [← run_append] at h2
  have hp := (inv_run l (ops ++ List.replicate n (.first cl true w) ++ more)).paid
  simp only [excess] at h1 h2 hp
  show _ + 10 * _ + n ≤ _
  omega

/-- C142 is violated: with wolfSSL a first packet for which anything fails after the first two blocks are
allocated follows a NULL pointer. -/
theorem C142_crash_violated (ops : List Op) (cl : Nat) (w : Works)
    (hb : w.block = true ∧ w.block2 = true ∧ w.ref = true) (hw : ¬ Spec.allWorks w)
    (hc : ∀ c ∈ (run .wolf ops).conns, c.client ≠ cl) (hm : (run .wolf ops).max = none) :
    (run .wolf (ops ++ [.first cl true w])).crash = true := by
  rw [run_snoc]
  have hi := inv_run .wolf ops
  generalize run .wolf ops = s at hc hm hi
  have ha : s.conns.any (fun c => c.client == cl) = false := by
    rw [List.any_eq_false]
    intro c hcm
    have := hc c hcm
    simpa using this
  have hf : s.full = false := by simp [St.full, hm]
  obtain ⟨b1, b2, b3⟩ := hb
  obtain ⟨_, _, _, ka, se, ks, al, st, ti, sn, ssl, re⟩ := w
  simp only at b1 b2 b3
  subst b1 b2 b3
  simp only [step, St.first, ha, hf]
  cases ka
  · simp [initConn, St.destroy, St.destroySession]
  cases se
  · simp [initConn, St.destroy, St.destroySession]
  cases ks
  · simp [initConn, St.destroy, St.destroySession]
  cases al
  · simp [initConn, createSession, St.destroy, St.destroySession]
  cases st
  · simp [initConn, createSession, St.destroy, St.destroySession]
  cases ti
  · simp [initConn, createSession, St.destroy, St.destroySession]
  cases sn
  · simp [initConn, createSession, St.destroy, St.destroySession]
  cases ssl
  · simp [initConn, createSession, St.destroy, St.destroySession]
  cases re
  · simp [initConn, createSession, St.destroy, St.destroySession]
  exact absurd (by simp [Spec.allWorks]) hw

/-- The hypotheses are met: two clients, a refused third, failures which are cleaned up, and the end. -/
example : ∀ l : Lib,
    let ops : List Op := [.limit 2, .first 7 true {}, .first 7 true {}, .first 8 false {}, .first 8 true { block2 := false },
      .first 8 true {}, .first 9 true {}, .complete 0, .gone 1]
    (run l ops).conns.map Conn.client = [7] ∧ (run l ops).made = 21 ∧ (run l ops).freed = 11 ∧
    (run l ops).told = [.closed 1, .opened 0] ∧ (run l (ops ++ [.deinit])).freed = 21 := by
  intro l; cases l <;> decide

/-- The hypotheses are met: `sessionWorks` of an opening which fails, `halfway`, and both kinds of damage. -/
example : Spec.sessionWorks { alloc := false } ∧ Spec.halfway { sender := false } ∧ ¬ Spec.allWorks { send := false } ∧
    (run .mbed [.first 7 true { alloc := false }, .first 8 true {}]).made = 15 ∧
    (run .mbed [.first 7 true { alloc := false }, .first 8 true {}]).freed = 5 ∧
    (run .mbed [.first 7 true { sender := false }, .deinit]).made = 8 ∧
    (run .mbed [.first 7 true { sender := false }, .deinit]).freed = 5 ∧
    (run .wolf [.first 7 true { send := false }]).crash = true := by
  refine ⟨by simp [Spec.sessionWorks], by simp [Spec.halfway], by simp [Spec.allWorks], ?_⟩
  decide

end Verif.Dtls.Accept
