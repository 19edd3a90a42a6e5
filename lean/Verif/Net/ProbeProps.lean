import Verif.Net.ProbeLemmas

/-
C118: every reachability check is told one result, the true one.
-/
namespace Verif.Net.Probe

open Spec

theorem idle_of (ops : List Op) (h : Undecided ops) : ∀ op ∈ ops, idleOp op = true := by
  intro op ho
  obtain ⟨h1, h2, h3⟩ := h op ho
  cases op with
  | check v4 start => rfl
  | take => rfl
  | run => rfl
  | connected ok => exact absurd rfl (h1 ok)
  | stop => exact absurd rfl h2
  | free => exact absurd rfl h3

/-- Until the probe is freed, whatever else happens: nothing undefined is done; a check which was
asked for is told at most one result and nobody else is told anything; and a check which has not
been told is told as soon as the connect ends and the event thread gets to it. -/
theorem C118_told_once (p : Platform) (ops : List Op) (h : Op.free ∉ ops) (k : Nat) :
    (run p ops).ub = false ∧ told k (run p ops) ≤ (if k < (checks ops).length then 1 else 0) ∧
    ∀ ok, k < (checks ops).length → told k (run p (ops ++ [.connected ok, .take, .run])) = 1 := by
  obtain ⟨h1, h2, h3⟩ := inv_run p ops h
  have ha := asked_run p ops h
  refine ⟨h3, ?_, ?_⟩
  · have := h1.each k
    rw [ha] at this
    omega
  · intro ok hk
    have hf' : Op.free ∉ ops ++ [.connected ok, .take, .run] := by simp [h]
    have hend : (run p (ops ++ [.connected ok, .take, .run])).future = none := by
      obtain ⟨g1, g2, g3⟩ := inv_step p h1 h2 h3 (.connected ok) (by simp)
      have := drained p g1 g2 g3 (connected_ends p _ h3 ok)
      simpa [run] using this
    have := (inv_run p _ hf').1.each k
    rw [hend, asked_run p _ hf'] at this
    simp only [reduceCtorEq, if_false, Nat.add_zero] at this
    rw [this, show checks (ops ++ [.connected ok, .take, .run]) = checks ops by simp [checks, isCheck], if_pos hk]

example : Op.free ∉ [Op.check true .started, .stop] ∧ 0 < (checks [Op.check true .started, .stop]).length := by decide

/-- What a check is told is true: when the connect of a check ends before it is stopped, the check
is told how it ended; when it is stopped first, it is told that it was aborted; whatever happens
before, in between and later. -/
theorem C118_told_true (p : Platform) (ops mid after : List Op) (h : Op.free ∉ ops) (hs : Op.stop ∉ ops)
    (hk : AllTold p ops) (hm : Undecided mid) (ha : Op.free ∉ after) (op : Op) (v : Ec)
    (ho : (op = .stop ∧ v = .aborted) ∨ (op = .connected true ∧ v = .ok) ∨ (op = .connected false ∧ v = .failed)) (ec : Ec)
    (ht : ((checks ops).length, ec) ∈ (run p (ops ++ .check true .started :: (mid ++ op :: after))).answers) : ec = v := by
  have hu := under_run p mid (idle_of mid hm) (under_start p ops h hs hk)
  rw [← run_append] at hu
  have hf : Op.free ∉ (ops ++ [Op.check true .started]) ++ mid := by
    simp only [List.mem_append, List.mem_singleton, reduceCtorEq, or_false, not_or]
    exact ⟨h, fun hx => (hm _ hx).2.2 rfl⟩
  have hi := (inv_run p _ hf).1
  have hset := settled_run p after ha (settled_start p hi hu op v ho)
  rw [← run_snoc, ← run_append] at hset
  exact hset.told ec (by simpa using ht)

example : ((checks [Op.check false .started]).length, Ec.aborted) ∈
    (run .libevent ([.check false .started] ++ .check true .started :: ([.take, .check true (.now true)] ++ .stop ::
      [.connected true, .take, .run]))).answers := by decide

/-- A check while another one is pending is refused at once, as is one with something that is no
IPv4 address; nothing else changes. -/
theorem C118_refused (p : Platform) (ops : List Op) (h : Op.free ∉ ops) (v4 : Bool) (start : Start) :
    ((∃ k, k < (checks ops).length ∧ told k (run p ops) = 0) →
      run p (ops ++ [.check v4 start]) = { run p ops with
        asked := (checks ops).length + 1,
        answers := (run p ops).answers ++ [((checks ops).length, .inProgress)] }) ∧
    (AllTold p ops → v4 = false →
      run p (ops ++ [.check v4 start]) = { run p ops with
        asked := (checks ops).length + 1,
        answers := (run p ops).answers ++ [((checks ops).length, .invalidArgument)] }) := by
  obtain ⟨h1, h2, h3⟩ := inv_run p ops h
  have ha := asked_run p ops h
  have hn := none_pending p ops h
  have hp := is_pending p ops h
  rw [run_snoc, ← ha]
  constructor
  · rintro ⟨k, hk, ht⟩
    have hf := hp k (ha ▸ hk) ht
    generalize run p ops = s at *
    unfold St.step
    rw [if_neg (by simp [h3])]
    simp only [h2, Bool.false_eq_true, if_false]
    unfold St.check
    simp [hf, h2]
  · rintro hk rfl
    have hf := hn hk
    generalize run p ops = s at *
    unfold St.step
    rw [if_neg (by simp [h3])]
    simp only [h2, Bool.false_eq_true, if_false]
    unfold St.check
    simp [hf, h2]

example : ∃ k, k < (checks [.check true .started]).length ∧ told k (run .select [.check true .started]) = 0 :=
  ⟨0, by decide, by decide⟩

/-- After the first stop every check is told its result as soon as the event thread gets to it,
whatever the network does.  What is missing: a check after a stop, which is not refused on libevent
(`C118_stopped_violated`). -/
theorem C118_stop_partial (p : Platform) (ops : List Op) (h : Op.free ∉ ops) (hs : Op.stop ∉ ops) (k : Nat)
    (hk : k < (checks ops).length) : told k (run p (ops ++ [.stop, .take, .run])) = 1 := by
  obtain ⟨h1, h2, h3⟩ := inv_run p ops h
  have hf' : Op.free ∉ ops ++ [.stop, .take, .run] := by simp [h]
  have hend : (run p (ops ++ [.stop, .take, .run])).future = none := by
    obtain ⟨g1, g2, g3⟩ := inv_step p h1 h2 h3 .stop (by simp)
    have := drained p g1 g2 g3 (stop_ends p _ h3 h2 (not_aborted p ops h hs))
    simpa [run] using this
  have := (inv_run p _ hf').1.each k
  rw [hend, asked_run p _ hf'] at this
  simp only [reduceCtorEq, if_false, Nat.add_zero] at this
  rw [this, show checks (ops ++ [.stop, .take, .run]) = checks ops by simp [checks, isCheck], if_pos hk]

/-- With select, a check after a stop is told that it was aborted as soon as the event thread gets
to it. -/
theorem C118_stopped_select (ops mid : List Op) (h : Op.free ∉ ops ++ .stop :: mid) (hk : AllTold .select (ops ++ .stop :: mid))
    (start : Start) :
    (run .select (ops ++ .stop :: (mid ++ [.check true start, .take, .run]))).answers =
      (run .select (ops ++ .stop :: mid)).answers ++ [((checks (ops ++ .stop :: mid)).length, .aborted)] := by
  have hab : (run .select (ops ++ .stop :: mid)).aborted = true := by
    have e : ops ++ .stop :: mid = (ops ++ [.stop]) ++ mid := by simp
    rw [e, run_append, run_snoc]
    have hb : Op.free ∉ ops := fun hm => h (by simp [hm])
    have hfm : Op.free ∉ mid := fun hm => h (by simp [hm])
    obtain ⟨h1, h2, h3⟩ := inv_run .select ops hb
    have h0 : ((run .select ops).step .select .stop).aborted = true := by
      generalize run .select ops = s at *
      unfold St.step
      rw [if_neg (by simp [h3])]
      simp only [h2, Bool.false_eq_true, if_false]
      unfold St.abort St.post
      simp only
      (repeat' split) <;> first | rfl | assumption
    obtain ⟨g1, g2, g3⟩ := inv_step .select h1 h2 h3 .stop (by simp)
    generalize (run .select ops).step .select .stop = t at *
    clear e hk h h1 h2 h3 hb
    induction mid generalizing t with
    | nil => exact h0
    | cons op mid ih =>
      rw [List.foldl_cons]
      have hop : op ≠ .free := by rintro rfl; simp at hfm
      obtain ⟨i1, i2, i3⟩ := inv_step .select g1 g2 g3 op hop
      refine ih (fun hm => hfm (by simp [hm])) _ ?_ i1 i2 i3
      unfold St.step
      rw [if_neg (by simp [g3])]
      cases op with
      | free => exact absurd rfl hop
      | stop => simp only [g2, Bool.false_eq_true, if_false]; unfold St.abort; rw [if_pos h0]; exact h0
      | check v4 start =>
        simp only [g2, Bool.false_eq_true, if_false]
        unfold St.check St.connect St.post
        simp only
        (repeat' split) <;> exact h0
      | connected ok =>
        unfold St.post
        simp only
        (repeat' split) <;> exact h0
      | take => simp only; split <;> exact h0
      | run =>
        unfold St.callback
        simp only
        (repeat' split) <;> exact h0
  have hn := none_pending .select _ h hk
  have ha := asked_run .select _ h
  obtain ⟨h1, h2, h3⟩ := inv_run .select _ h
  have e : ops ++ .stop :: (mid ++ [.check true start, .take, .run]) = (ops ++ .stop :: mid) ++ [.check true start, .take, .run] := by simp
  rw [e, run_append, ← ha]
  have he := (h1.none hn).2
  generalize run .select (ops ++ .stop :: mid) = s at *
  simp [St.step, St.check, St.connect, St.post, St.callback, h2, h3, hn, hab, he]

example : Op.free ∉ [.check true .started] ++ .stop :: [.take, .run] ∧
    (run .select ([.check true .started] ++ .stop :: [.take, .run])).answers = [(0, .aborted)] := by decide

/-- Freed when all checks were told their result: nothing undefined is done, and nobody is told
anything later. -/
theorem C118_free_partial (p : Platform) (ops : List Op) (h : Op.free ∉ ops) (hk : AllTold p ops) (after : List Op)
    (hq : ∀ op ∈ after, isCheck op = false ∧ op ≠ .stop ∧ op ≠ .free) :
    (run p (ops ++ .free :: after)).ub = false ∧ (run p (ops ++ .free :: after)).answers = (run p ops).answers := by
  obtain ⟨h1, h2, h3⟩ := inv_run p ops h
  obtain ⟨hc, he⟩ := h1.none (none_pending p ops h hk)
  have hfree : (run p ops).step p .free = { run p ops with freed := true, connecting := false, aborted := true } := by
    generalize run p ops = s at *
    unfold St.step
    rw [if_neg (by simp [h3])]
    simp only [h2, Bool.false_eq_true, if_false]
    unfold St.free
    simp [he, hc]
  have hrun : run p (ops ++ .free :: after) = after.foldl (St.step p) ((run p ops).step p .free) := by simp [run]
  rw [hrun, hfree]
  have quiet : ∀ l : List Op, (∀ op ∈ l, isCheck op = false ∧ op ≠ .stop ∧ op ≠ .free) → ∀ s : St, s.ub = false →
      s.connecting = false → s.event = .idle → l.foldl (St.step p) s = s := by
    intro l
    induction l with
    | nil => intros; rfl
    | cons op l ih =>
      intro hl s u c e
      have hop := hl op (by simp)
      have : s.step p op = s := by
        unfold St.step
        rw [if_neg (by simp [u])]
        cases op with
        | check v4 start => simp [isCheck] at hop
        | stop => simp at hop
        | free => simp at hop
        | connected ok => simp only; rw [if_neg (by simp [c])]
        | take => simp only [e]
        | run => simp only [e]
      rw [List.foldl_cons, this]
      exact ih (fun o ho => hl o (by simp [ho])) s u c e
  rw [quiet after hq { run p ops with freed := true, connecting := false, aborted := true } h3 rfl he]
  exact ⟨h3, rfl⟩

/-- Used with care, nothing undefined is ever done and everyone is told at most once.  What is
missing: care, see `C118_free_pending_violated`. -/
theorem C118_careful_partial (p : Platform) (ops : List Op) (h : Careful p ops) (k : Nat) :
    (run p ops).ub = false ∧ told k (run p ops) ≤ (if k < (checks ops).length then 1 else 0) := by
  by_cases hf : Op.free ∈ ops
  · obtain ⟨before, after, e, hb⟩ : ∃ a b, ops = a ++ .free :: b ∧ Op.free ∉ a := by
      have := List.append_of_mem hf
      clear h
      induction ops with
      | nil => simp at hf
      | cons op ops ih =>
        by_cases ho : op = .free
        · exact ⟨[], ops, by rw [ho]; rfl, by simp⟩
        · have hf' : Op.free ∈ ops := by simpa [Ne.symm ho] using hf
          obtain ⟨a, b, h1, h2⟩ := ih hf' (List.append_of_mem hf')
          exact ⟨op :: a, b, by rw [h1]; rfl, by simp [h2, Ne.symm ho]⟩
    subst e
    have hk : AllTold p before := (h before .free after rfl).1 rfl
    have hq : ∀ op ∈ after, isCheck op = false ∧ op ≠ .stop ∧ op ≠ .free := by
      intro op ho
      obtain ⟨a, b, rfl⟩ := List.append_of_mem ho
      exact (h (before ++ .free :: a) op b (by simp)).2 (by simp)
    obtain ⟨f1, f2⟩ := C118_free_partial p before hb hk after hq
    refine ⟨f1, ?_⟩
    have h1 := (C118_told_once p before hb k).2.1
    have h2 : (checks (before ++ .free :: after)) = checks before := by
      unfold checks
      have hn : List.filter isCheck after = [] := List.filter_eq_nil_iff.mpr (fun o ho => by simp [(hq o ho).1])
      rw [List.filter_append, List.filter_cons_of_neg (by simp [isCheck]), hn, List.append_nil]
    rw [h2, told_same k _ _ f2]
    exact h1
  · exact ⟨(C118_told_once p ops hf k).1, (C118_told_once p ops hf k).2.1⟩

/-- **Violated**: freed while the connect of a check is under way and was not stopped: the destroyed
completion event is used, whatever happened before and happens later.  The tunnel device does this
when a service does not answer within five seconds (tcp_tunnel_main.c:739-751). -/
theorem C118_free_pending_violated (p : Platform) (ops mid after : List Op) (h : Op.free ∉ ops) (hs : Op.stop ∉ ops)
    (hk : AllTold p ops) (hm : Undecided mid) :
    (run p (ops ++ .check true .started :: (mid ++ .free :: after))).ub = true := by
  have hu := under_run p mid (idle_of mid hm) (under_start p ops h hs hk)
  rw [← run_append] at hu
  have e : ops ++ .check true .started :: (mid ++ .free :: after) = ((ops ++ [.check true .started]) ++ mid) ++ .free :: after := by simp
  rw [e, run_append, List.foldl_cons]
  apply ub_stays
  generalize run p ((ops ++ [.check true .started]) ++ mid) = s at *
  simp [St.step, St.free, hu.ub, hu.freed, hu.connecting, hu.aborted]

example : AllTold .select [] ∧ Undecided [.take] := by
  refine ⟨fun k hk => absurd hk (Nat.not_lt_zero k), ?_⟩
  intro op ho
  simp at ho
  subst ho
  simp

/-- **Violated**: freed after the connect of a check ended, before the event thread took the event:
the check is never told anything, whatever happened before and happens later. -/
theorem C118_free_lost_violated (p : Platform) (ops after : List Op) (h : Op.free ∉ ops) (hs : Op.stop ∉ ops)
    (hk : AllTold p ops) (ok : Bool) :
    told (checks ops).length (run p (ops ++ [.check true .started, .connected ok, .free] ++ after)) = 0 := by
  have hu := under_start p ops h hs hk
  have e : ops ++ [.check true .started, .connected ok, .free] ++ after =
      (ops ++ [.check true .started]) ++ .connected ok :: .free :: after := by simp
  rw [e, run_append, List.foldl_cons, List.foldl_cons]
  have h0 : let t := ((run p (ops ++ [.check true .started])).step p (.connected ok)).step p .free
      t.freed = true ∧ t.event = .idle ∧ t.connecting = false ∧ ∀ ec, ((checks ops).length, ec) ∉ t.answers := by
    generalize run p (ops ++ [.check true .started]) = s at *
    have hq := hu.quiet
    simp [St.step, St.free, St.post, hu.ub, hu.freed, hu.connecting, hu.aborted, hu.event, hq]
  generalize ((run p (ops ++ [.check true .started])).step p (.connected ok)).step p .free = s at *
  have hl : ∀ l : List Op, ∀ s : St, s.freed = true → s.event = .idle → s.connecting = false →
      (l.foldl (St.step p) s).answers = s.answers := by
    intro l
    induction l with
    | nil => intros; rfl
    | cons op l ih =>
      intro s hf he hc
      rw [List.foldl_cons]
      have hstep : (s.step p op).freed = true ∧ (s.step p op).event = .idle ∧ (s.step p op).connecting = false ∧
          (s.step p op).answers = s.answers := by
        unfold St.step
        split
        · exact ⟨hf, he, hc, rfl⟩
        · cases op <;> simp [hf, he, hc]
      rw [ih _ hstep.1 hstep.2.1 hstep.2.2.1, hstep.2.2.2]
  unfold told
  rw [hl after s h0.1 h0.2.1 h0.2.2.1, List.countP_eq_zero]
  rintro ⟨j, ec⟩ hm hj
  simp at hj
  subst hj
  exact h0.2.2.2 ec hm

/-- **Violated**: freed when the event thread has taken the event and waits for the lock: the
callback is called with the freed probe. -/
theorem C118_free_taken_violated (p : Platform) (ops after : List Op) (h : Op.free ∉ ops) (hs : Op.stop ∉ ops)
    (hk : AllTold p ops) (ok : Bool) :
    (run p (ops ++ [.check true .started, .connected ok, .take, .free, .run] ++ after)).ub = true := by
  have hu := under_start p ops h hs hk
  have e : ops ++ [.check true .started, .connected ok, .take, .free, .run] ++ after =
      (ops ++ [.check true .started]) ++ [.connected ok, .take, .free, .run] ++ after := by simp
  rw [e, run_append, run_append]
  apply ub_stays
  generalize run p (ops ++ [.check true .started]) = s at *
  simp [St.step, St.free, St.post, hu.ub, hu.freed, hu.connecting, hu.aborted, hu.event]

/-- **Violated**, libevent: a check after a stop is not refused, and no further stop ends it. -/
theorem C118_stopped_violated (stops : Nat) :
    told 0 (run .libevent ([.stop, .check true .started] ++ List.replicate stops .stop ++ [.take, .run])) = 0 := by
  have h0 : ∀ n, (List.replicate n Op.stop).foldl (St.step .libevent) (run .libevent [.stop, .check true .started]) =
      run .libevent [.stop, .check true .started] := by
    intro n
    induction n with
    | zero => rfl
    | succ n ih =>
      rw [List.replicate_succ, List.foldl_cons]
      have : (run .libevent [.stop, .check true .started]).step .libevent .stop = run .libevent [.stop, .check true .started] := by decide
      rw [this, ih]
  rw [run_append, run_append, h0]
  decide

end Verif.Net.Probe
