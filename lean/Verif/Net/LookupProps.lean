import Verif.Net.LookupLemmas

/-!
# Looking up a host name with the platform (theorems)

C108: what a lookup writes to the memory of its caller. C109: each lookup is answered exactly once.
-/

namespace Verif.Net.Lookup
open Spec

/-! ## C108 -/

/-- C108 for libevent: for every family, host, size of the array and answer of the name service a lookup
writes as many of the addresses as fit, in order, nothing past the end of the array, and ends with OK
exactly if there is an address. -/
theorem C108_libevent (f : Family) (size : Nat) (h : Host) (answer : Option (List Entry)) (hs : 0 < size) :
    let r := levResolve f size false h .ok answer (Mem.fresh size)
    Delivered size (expected f h answer) r.2 ∧ (r.1 = .ok ↔ expected f h answer ≠ []) := by
  have hne : size ≠ 0 := by omega
  have w := Written.fresh size
  have w1 : ∀ a : Ip, Delivered size [a] { (Mem.fresh size).put 0 a with count := 1 } := fun a => by
    simpa using (w.put (by simpa using hs) a).delivered
  have w0 : Delivered size [] (Mem.fresh size) := by
    have := w.delivered
    simpa [Mem.fresh] using this
  intro r
  cases h with
  | lit4 b =>
    cases f with
    | v4 => exact ⟨by simpa [r, levResolve, levAsk, hne, expected] using w1 (.v4 b),
        by simp [r, levResolve, levAsk, hne, expected]⟩
    | v6 => exact ⟨by simpa [r, levResolve, levAsk, hne, expected] using w0,
        by simp [r, levResolve, levAsk, hne, expected]⟩
  | lit6 b =>
    cases f with
    | v6 => exact ⟨by simpa [r, levResolve, levAsk, hne, expected] using w1 (.v6 b),
        by simp [r, levResolve, levAsk, hne, expected]⟩
    | v4 => exact ⟨by simpa [r, levResolve, levAsk, hne, expected] using w0,
        by simp [r, levResolve, levAsk, hne, expected]⟩
  | name =>
    have hr : r = levDeferred size answer (Mem.fresh size) := by
      cases f <;> simp [r, levResolve, levAsk, hne]
    rw [hr]
    cases answer with
    | none =>
      exact ⟨by simpa [levDeferred, expected, addresses, Mem.fresh] using w0, by simp [levDeferred, expected, addresses]⟩
    | some es =>
      have d := levLoop_delivered size es [] _ w
      have hc := d.count
      simp only [List.nil_append, List.length_nil] at d hc
      refine ⟨by simpa [levDeferred, expected] using d, ?_⟩
      simp only [levDeferred, expected, Option.getD_some, hc]
      have : min size (addresses es).length = 0 ↔ addresses es = [] := by
        rw [← List.length_eq_zero_iff]; omega
      by_cases he : addresses es = [] <;> simp [he, this]
      try omega

/-- The other half of C108 for libevent: a lookup which cannot be started ends with an error and leaves
the memory of its caller alone. -/
theorem C108_libevent_refused (f : Family) (size : Nat) (stopped : Bool) (h : Host) (alloc : Ec)
    (answer : Option (List Entry)) (m : Mem)
    (hr : size = 0 ∨ stopped = true ∨ (h = .name ∧ alloc ≠ .ok)) :
    (levResolve f size stopped h alloc answer m).1 ≠ .ok ∧
    (levResolve f size stopped h alloc answer m).2 = m := by
  unfold levResolve levAsk
  by_cases h0 : size = 0
  · simp [h0]
  · by_cases h1 : stopped = true
    · simp [h0, h1]
    · obtain ⟨hn, ha⟩ : h = .name ∧ alloc ≠ .ok := by simpa [h0, h1] using hr
      subst hn
      cases f <;> simp [h0, h1, ha]

example :
    let r := levResolve .v4 2 false .name .ok
      (some [.inet [1, 1, 1, 1], .other, .inet [2, 2, 2, 2], .inet [3, 3, 3, 3]]) (Mem.fresh 2);
    r.1 = .ok ∧ r.2.cells = [some (.v4 [1, 1, 1, 1]), some (.v4 [2, 2, 2, 2])] ∧ r.2.count = 2 := by decide

/-- C108 for the unix resolver, partial: if the addresses fit in the array they are delivered. Missing:
answers which do not fit, see `C108_unix_violated`. -/
theorem C108_unix_partial (size : Nat) (answer : Option (List Entry))
    (hfit : (addresses (answer.getD [])).length ≤ size) :
    let r := unixResolve size answer (Mem.fresh size)
    Delivered size (addresses (answer.getD [])) r.2 ∧ (r.1 = .ok ↔ answer ≠ none) := by
  intro r
  cases answer with
  | none =>
    refine ⟨?_, by simp [r, unixResolve]⟩
    have := (Written.fresh size).delivered
    simpa [r, unixResolve, addresses] using this
  | some es =>
    refine ⟨?_, by simp [r, unixResolve]⟩
    have := unixLoop_delivered size es [] (Mem.fresh size) (Written.fresh size) rfl (by simpa using hfit)
    simpa [r, unixResolve, Mem.fresh] using this

/-- C108 is violated by the unix resolver: for every array and every answer with more addresses than the
array has cells, the lookup writes past the end of the array, ends with OK and reports more addresses
than the array can hold. -/
theorem C108_unix_violated (size : Nat) (es : List Entry) (hs : 0 < size)
    (hmore : size < (addresses es).length) :
    let r := unixResolve size (some es) (Mem.fresh size)
    r.1 = .ok ∧ r.2.over = true ∧ r.2.count = (addresses es).length ∧ r.2.cells.length < r.2.count := by
  intro r
  have hc := unixLoop_count size hs es 0 (Mem.fresh size) rfl
  have ho := unixLoop_over size hs es 0 (Mem.fresh size) rfl (by simp [Mem.fresh]) (.inr ⟨by omega, by omega⟩)
  have hlen : ∀ (es : List Entry) (i : Nat) (m : Mem), (unixLoop size es i m).2.cells.length = m.cells.length := by
    intro es
    induction es with
    | nil => intro i m; rfl
    | cons e es ih =>
      intro i m
      unfold unixLoop
      split
      · cases e <;> simp [ih]
      · exact ih _ _
  have e : r = (.ok, { (unixLoop size es 0 (Mem.fresh size)).2 with
      count := (unixLoop size es 0 (Mem.fresh size)).1 }) := by
    simp [r, unixResolve, Mem.fresh]
  rw [e]
  refine ⟨rfl, ho, by simpa using hc, ?_⟩
  show (unixLoop size es 0 (Mem.fresh size)).2.cells.length < _
  rw [hlen]
  show _ < (unixLoop size es 0 (Mem.fresh size)).1
  rw [hc]
  simpa [Mem.fresh] using hmore

/-- A host with five IPv4 addresses, looked up by the core with its array of four. -/
example : (unixResolve 4 (some (List.replicate 5 (.inet [10, 0, 0, 1]))) (Mem.fresh 4)).2.over = true := by decide

/-! ## C109 -/

/-- C109, at most once: a lookup is answered at most once, and only lookups which were started are
answered. -/
theorem C109_once (ops : List Op) (n : Nat) :
    answers (run St.init ops).told n ≤ 1 ∧
    ((run St.init ops).asked ≤ n → answers (run St.init ops).told n = 0) := by
  have := (Inv.run ops).one n
  constructor
  · split at this <;> omega
  · intro h
    rw [if_neg (by omega)] at this
    omega

/-- With no call under way when the resolver is stopped, nothing is left behind. -/
theorem nothing_left (ops : List Op) (hr : NoRace ops) (hs : (run St.init ops).stopped = true) :
    (run St.init ops).inside = [] ∧ (run St.init ops).events = [] := by
  induction ops using snoc_ind with
  | nil => simp [run, St.init] at hs
  | snoc ops op ih =>
    have hr' : NoRace ops := fun b a e => hr b (a ++ [op]) (by simp [e])
    rw [run_snoc] at hs ⊢
    generalize hS : run St.init ops = s at *
    have here : op = .stop → s.inside = [] := by
      intro e; rw [← hS]; exact hr ops [] (by simp [e])
    by_cases h0 : s.stopped = true
    · obtain ⟨hi, he⟩ := ih hr' h0
      cases op with
      | ask oom => by_cases hg : s.gone = true <;> simp [St.step, hg, h0, hi, he, St.tell]
      | append n => simp [St.step, hi, he]
      | signal => by_cases ho : 0 < s.owed <;> simp [St.step, ho, hi, he]
      | wake => by_cases hw : s.thread = .waiting <;> simp [St.step, hw, hi, he]
      | thread => by_cases hw : s.thread = .running <;> simp [St.step, hw, hi, he, h0]
      | finish ec =>
        cases ht : s.thread <;> simp [St.step, ht, hi, he, St.tell]
      | stop => simp [St.step, h0, hi, he]
      | join => by_cases hj : s.stopped ∧ s.thread = .exited <;> simp [St.step, hj, hi, he]
      | release => exact ⟨hi, he⟩
    · cases op with
      | stop => simpa [St.step, h0, tellAll_eq] using here rfl
      | ask oom =>
        by_cases hg : s.gone = true <;> cases oom <;> simp [St.step, hg, h0, St.tell] at hs
      | append n =>
        exfalso; simp only [St.step] at hs
        (repeat' split at hs) <;> exact h0 hs
      | signal => exfalso; simp only [St.step] at hs; split at hs <;> exact h0 hs
      | wake => exfalso; simp only [St.step] at hs; split at hs <;> exact h0 hs
      | thread =>
        exfalso; simp only [St.step] at hs
        (repeat' split at hs) <;> exact h0 hs
      | finish ec => exfalso; simp only [St.step] at hs; split at hs <;> exact h0 hs
      | join => exfalso; simp only [St.step] at hs; split at hs <;> exact h0 hs
      | release => exact absurd hs h0

/-- C109, partial: when the resolver has been taken down, every lookup which was ever started has been
answered exactly once. Missing: a call which is between its check and its append when the resolver is
stopped, see `C109_race_violated`. -/
theorem C109_all_partial (ops : List Op) (hr : NoRace ops) (hg : (run St.init ops).gone = true) (n : Nat)
    (hn : n < (run St.init ops).asked) : answers (run St.init ops).told n = 1 := by
  have inv := Inv.run ops
  obtain ⟨hs, ht⟩ := inv.gone hg
  obtain ⟨hi, he⟩ := nothing_left ops hr hs
  have := inv.one n
  simpa [St.open_, hi, he, ht, Thread.held, hn] using this

/-- The thread does not sleep through work: if it sleeps and nobody is about to signal, there is no
request and the resolver is not stopped. -/
theorem C109_awake (ops : List Op) (hw : (run St.init ops).thread = .waiting)
    (ho : (run St.init ops).owed = 0) :
    (run St.init ops).events = [] ∧ (run St.init ops).stopped = false :=
  (Inv.run ops).awake hw ho

/-- Steps the resolver makes by itself: signals which are owed, the thread, and `getaddrinfo`
returning. -/
def Own (o : Op) : Prop := o = .signal ∨ o = .thread ∨ o = .finish .ok

theorem get_running {s : St} (inv : Inv s) (hx : s.thread ≠ .exited)
    (hwork : s.events ≠ [] ∨ s.stopped = true) :
    ∃ ops, (∀ o ∈ ops, Own o) ∧ (run s ops).thread = .running ∧ (run s ops).events = s.events ∧
      (run s ops).stopped = s.stopped := by
  cases ht : s.thread with
  | exited => exact absurd ht hx
  | running => exact ⟨[], by simp, ht, rfl, rfl⟩
  | waiting =>
    have ho : 0 < s.owed := by
      rcases Nat.eq_zero_or_pos s.owed with h | h
      · obtain ⟨a, b⟩ := inv.awake ht h
        rcases hwork with w | w
        · exact absurd a w
        · rw [b] at w; cases w
      · exact h
    exact ⟨[.signal], by simp [Own], by simp [run, St.step, ho, ht], by simp [run, St.step, ho],
      by simp [run, St.step, ho]⟩
  | resolving n =>
    exact ⟨[.finish .ok], by simp [Own], by simp [run, St.step, ht], by simp [run, St.step, ht, St.tell],
      by simp [run, St.step, ht, St.tell]⟩

theorem Inv.runFrom {s : St} (h : Inv s) (ops : List Op) : Inv (Lookup.run s ops) := by
  induction ops using snoc_ind with
  | nil => exact h
  | snoc ops op ih => rw [run_snoc]; exact ih.step op

theorem served {n : Nat} : ∀ (evs : List Nat) (s : St), Inv s → s.stopped = false → s.events = evs →
    n ∈ evs → ∃ ops, (∀ o ∈ ops, Own o) ∧ 0 < answers (run s ops).told n
  | [], _, _, _, _, hn => by cases hn
  | k :: evs, s, inv, hs, he, hn => by
    have hx : s.thread ≠ .exited := fun h => by have := inv.exit h; rw [hs] at this; cases this
    obtain ⟨o1, own1, hr, he1, hs1⟩ := get_running inv hx (.inl (by simp [he]))
    have inv1 := inv.runFrom o1
    generalize hS : run s o1 = t at *
    rw [he] at he1
    rw [hs] at hs1
    have e2 : run s (o1 ++ [.thread, .finish .ok]) =
        { t with events := evs, thread := .running, told := t.told ++ [(k, .ok)], ub := t.ub || t.released } := by
      rw [run_append, hS]
      simp [run, St.step, hr, hs1, he1, St.tell]
    have own2 : ∀ o ∈ o1 ++ [Op.thread, .finish .ok], Own o := by
      intro o ho
      rcases List.mem_append.mp ho with ho | ho
      · exact own1 o ho
      · simp at ho; rcases ho with rfl | rfl <;> simp [Own]
    by_cases hk : k = n
    · refine ⟨_, own2, ?_⟩
      rw [e2]
      simp [hk]
    · have hn' : n ∈ evs := by
        rcases List.mem_cons.mp hn with e | e
        · exact absurd e.symm hk
        · exact e
      have inv2 := inv.runFrom (o1 ++ [.thread, .finish .ok])
      obtain ⟨o3, own3, ha⟩ := served evs (run s (o1 ++ [.thread, .finish .ok])) inv2 (by rw [e2]; exact hs1)
        (by rw [e2]) hn'
      refine ⟨(o1 ++ [.thread, .finish .ok]) ++ o3, ?_, by rw [run_append]; exact ha⟩
      intro o ho
      rcases List.mem_append.mp ho with ho | ho
      · exact own2 o ho
      · exact own3 o ho

/-- C109, progress: from every state which can be reached, a lookup handed to the thread is answered by
steps of the resolver alone, whatever was asked before it (provided that `getaddrinfo` returns). -/
theorem C109_progress (ops : List Op) (hs : (run St.init ops).stopped = false) (n : Nat)
    (hn : n ∈ (run St.init ops).events) :
    ∃ more, (∀ o ∈ more, Own o) ∧ answers (run St.init (ops ++ more)).told n = 1 := by
  obtain ⟨more, own, h⟩ := served _ _ (Inv.run ops) hs rfl hn
  refine ⟨more, own, ?_⟩
  have h1 := (C109_once (ops ++ more) n).1
  rw [run_append] at h1 ⊢
  omega

/-- C109, taking down: a resolver which is stopped is gone after steps of its own and the join. -/
theorem C109_join (ops : List Op) (hs : (run St.init ops).stopped = true) :
    ∃ more, (∀ o ∈ more, Own o) ∧ (run St.init (ops ++ more ++ [.join])).gone = true := by
  by_cases hx : (run St.init ops).thread = .exited
  · exact ⟨[], by simp, by rw [List.append_nil, run_snoc]; simp [St.step, hs, hx]⟩
  · obtain ⟨o1, own1, hr, _, hs1⟩ := get_running (Inv.run ops) hx (.inr hs)
    rw [hs] at hs1
    refine ⟨o1 ++ [.thread], ?_, ?_⟩
    · intro o ho
      rcases List.mem_append.mp ho with ho | ho
      · exact own1 o ho
      · simp at ho; simp [Own, ho]
    · rw [run_snoc, ← List.append_assoc, run_snoc, run_append]
      simp [St.step, hr, hs1]

/-- Two lookups; the first is answered by the thread, the second by the stop. -/
def stoppedInTime : List Op :=
  [.thread, .ask false, .append 0, .ask false, .append 1, .signal, .thread, .stop, .finish .ok, .thread, .join]

example : (run St.init stoppedInTime).told = [(1, .stopped), (0, .ok)] ∧
    (run St.init stoppedInTime).gone = true := by decide

/-- A contract on all stops of a history can be checked position by position. -/
theorem noRace_of (ops : List Op)
    (h : ∀ i < ops.length, ops[i]? = some .stop → (run St.init (ops.take i)).inside = []) : NoRace ops := by
  intro b a e
  have := h b.length (by simp [e]) (by simp [e])
  simpa [e] using this

example : NoRace stoppedInTime := noRace_of _ (by decide)

/-- C109 is violated: a call which has passed its check when the resolver is stopped is never answered,
whatever happens afterwards. (`async_resolve` looks at `stopped` without the mutex and does not look again
when it has it.) -/
theorem C109_race_violated (ops : List Op) (n : Nat) (hs : (run St.init ops).stopped = false)
    (hn : n ∈ (run St.init ops).inside) (more : List Op) :
    answers (run St.init (ops ++ .stop :: more)).told n = 0 ∧
    n < (run St.init (ops ++ .stop :: more)).asked := by
  have inv := Inv.run (ops ++ .stop :: more)
  suffices h : (run St.init (ops ++ .stop :: more)).stopped = true ∧
      (n ∈ (run St.init (ops ++ .stop :: more)).inside ∨ n ∈ (run St.init (ops ++ .stop :: more)).events) by
    have h1 := inv.one n
    have hc : 0 < (run St.init (ops ++ .stop :: more)).open_.count n := by
      refine List.count_pos_iff.mpr ?_
      rcases h.2 with h | h <;> simp [St.open_, h]
    split at h1
    · exact ⟨by omega, by assumption⟩
    · omega
  clear inv
  induction more using snoc_ind with
  | nil =>
    rw [run_snoc]
    simp [St.step, hs, tellAll_eq, hn]
  | snoc more op ih =>
    rw [show ops ++ .stop :: (more ++ [op]) = (ops ++ .stop :: more) ++ [op] by simp, run_snoc]
    generalize run St.init (ops ++ .stop :: more) = s at *
    obtain ⟨h1, h2⟩ := ih
    cases op with
    | ask oom =>
      by_cases hg : s.gone = true <;> simp [St.step, hg, h1, St.tell, h2]
    | append k =>
      by_cases hk : k ∈ s.inside
      · by_cases hg : s.gone = true
        · simp [St.step, hk, hg, h1, h2]
        · refine ⟨by simp [St.step, hk, hg, h1], ?_⟩
          simp only [St.step, hk, hg, if_true]
          by_cases e : n = k
          · right; simp [e]
          · rcases h2 with h | h
            · left; simpa using (List.mem_erase_of_ne e).mpr h
            · right; simp [h]
      · simpa [St.step, hk] using ⟨h1, h2⟩
    | signal => by_cases ho : 0 < s.owed <;> simp [St.step, ho, h1, h2]
    | wake => by_cases hw : s.thread = .waiting <;> simp [St.step, hw, h1, h2]
    | thread => by_cases hw : s.thread = .running <;> simp [St.step, hw, h1, h2]
    | finish ec => cases ht : s.thread <;> simp [St.step, ht, h1, h2, St.tell]
    | stop => simp [St.step, h1, h2]
    | join => by_cases hj : s.thread = .exited <;> simp [St.step, hj, h1, h2]
    | release => exact ⟨h1, h2⟩

example : (run St.init [.ask false]).stopped = false ∧ 0 ∈ (run St.init [.ask false]).inside := by decide

/-- C109 is violated: if the callers release their memory before the resolver is stopped, as
`nabto_device_free` does on the select platform, every lookup which is still waiting or being worked at
is answered in memory which is gone. -/
theorem C109_free_violated (ops : List Op) :
    ((run St.init ops).stopped = false → (run St.init ops).events ≠ [] →
      (run St.init (ops ++ [.release, .stop])).ub = true) ∧
    (∀ n ec, (run St.init ops).thread = .resolving n →
      (run St.init (ops ++ [.release, .stop, .finish ec])).ub = true) := by
  constructor
  · intro hs he
    rw [run_append]
    generalize run St.init ops = s at *
    simp [run, St.step, hs, tellAll_eq, he]
  · intro n ec ht
    rw [run_append]
    generalize run St.init ops = s at *
    by_cases hs : s.stopped = true <;> simp [run, St.step, hs, ht, St.tell, tellAll_eq]

example : (run St.init [.ask false, .append 0, .thread]).thread = .resolving 0 := by decide

/-- C109, memory, partial: if the callers keep their memory until their lookups have been answered, and
nobody uses the resolver when it is gone, no memory is used which is gone. Missing: see
`C109_free_violated`. -/
theorem C109_free_partial (ops : List Op) (hk : Kept ops) (ha : NotAfter ops) : (run St.init ops).ub = false := by
  suffices h : (run St.init ops).ub = false ∧
      ((run St.init ops).released = true → ∀ n, (run St.init ops).open_.count n = 0) ∧
      ((run St.init ops).gone = true → (run St.init ops).inside = []) from h.1
  induction ops using snoc_ind with
  | nil => simp [run, St.init]
  | snoc ops op ih =>
    have hk' : Kept ops := ⟨fun b a e => hk.1 b (a ++ [op]) (by simp [e]),
      fun b o a e => hk.2 b o (a ++ [op]) (by simp [e])⟩
    have ha' : NotAfter ops := ⟨fun b a e => ha.1 b (a ++ [op]) (by simp [e]),
      fun b o a e => ha.2 b o (a ++ [op]) (by simp [e])⟩
    obtain ⟨u, r, g⟩ := ih hk' ha'
    have inv := Inv.run ops
    have rel : op = .release → ∀ n, n < (run St.init ops).asked → answers (run St.init ops).told n = 1 :=
      fun e => hk.1 ops [] (by simp [e])
    have askR : ∀ o, op = .ask o → (run St.init ops).released = false := fun o e => hk.2 ops o [] (by simp [e])
    have askG : ∀ o, op = .ask o → (run St.init ops).gone = false := fun o e => ha.2 ops o [] (by simp [e])
    have joi : op = .join → (run St.init ops).inside = [] := fun e => ha.1 ops [] (by simp [e])
    rw [run_snoc]
    generalize run St.init ops = s at *
    have noHeld : s.released = true → s.inside = [] ∧ s.events = [] ∧ s.thread.held = [] := by
      intro h
      have : s.open_ = [] := by
        refine List.eq_nil_iff_forall_not_mem.mpr fun a hm => ?_
        have h1 := r h a
        have h2 := List.count_pos_iff.mpr hm
        omega
      simpa [St.open_] using this
    cases op with
    | ask oom =>
      have hr := askR oom rfl
      have hg := askG oom rfl
      by_cases hs : s.stopped = true <;> cases oom <;> simp [St.step, hr, hg, hs, St.tell, u]
    | append k =>
      by_cases hm : k ∈ s.inside
      · have hg : s.gone = false := by
          rcases Bool.eq_false_or_eq_true s.gone with h | h
          · rw [g h] at hm; cases hm
          · exact h
        have hr : s.released = false := by
          rcases Bool.eq_false_or_eq_true s.released with h | h
          · rw [(noHeld h).1] at hm; cases hm
          · exact h
        simp [St.step, hm, hg, hr, u]
      · simpa [St.step, hm] using ⟨u, r, g⟩
    | signal =>
      by_cases ho : 0 < s.owed
      · refine ⟨by simpa [St.step, ho] using u, fun h n => ?_, by simpa [St.step, ho] using g⟩
        have h' : s.released = true := by simpa [St.step, ho] using h
        obtain ⟨a, b, c⟩ := noHeld h'
        by_cases hw : s.thread = .waiting
        · simp [St.step, ho, St.open_, a, b, hw, Thread.held]
        · simp [St.step, ho, St.open_, a, b, c, hw]
      · simpa [St.step, ho] using ⟨u, r, g⟩
    | wake =>
      by_cases hw : s.thread = .waiting
      · refine ⟨by simpa [St.step, hw] using u, fun h n => ?_, by simpa [St.step, hw] using g⟩
        have h' : s.released = true := by simpa [St.step, hw] using h
        obtain ⟨a, b, c⟩ := noHeld h'
        simp [St.step, St.open_, a, b, hw, Thread.held]
      · simpa [St.step, hw] using ⟨u, r, g⟩
    | thread =>
      by_cases hw : s.thread = .running
      · by_cases hs : s.stopped = true
        · refine ⟨by simpa [St.step, hw, hs] using u, fun h n => ?_, by simpa [St.step, hw, hs] using g⟩
          have h' : s.released = true := by simpa [St.step, hw, hs] using h
          obtain ⟨a, b, c⟩ := noHeld h'
          simp [St.step, St.open_, a, b, hw, hs, Thread.held]
        · cases he : s.events with
          | nil =>
            refine ⟨by simpa [St.step, hw, hs, he] using u, fun h n => ?_, by simpa [St.step, hw, hs, he] using g⟩
            have h' : s.released = true := by simpa [St.step, hw, hs, he] using h
            obtain ⟨a, b, c⟩ := noHeld h'
            simp [St.step, St.open_, a, b, hw, hs, Thread.held]
          | cons k ks =>
            refine ⟨by simpa [St.step, hw, hs, he] using u, fun h n => ?_, by simpa [St.step, hw, hs, he] using g⟩
            have h' : s.released = true := by simpa [St.step, hw, hs, he] using h
            obtain ⟨a, b, c⟩ := noHeld h'
            rw [he] at b; cases b
      · simpa [St.step, hw] using ⟨u, r, g⟩
    | finish ec =>
      cases ht : s.thread with
      | resolving k =>
        have hr : s.released = false := by
          rcases Bool.eq_false_or_eq_true s.released with h | h
          · have := (noHeld h).2.2; rw [ht] at this; cases this
          · exact h
        refine ⟨by simp [St.step, ht, St.tell, u, hr], ?_, by simpa [St.step, ht, St.tell] using g⟩
        intro h; simp [St.step, ht, St.tell, hr] at h
      | running => simpa only [St.step, ht] using ⟨u, r, g⟩
      | waiting => simpa only [St.step, ht] using ⟨u, r, g⟩
      | exited => simpa only [St.step, ht] using ⟨u, r, g⟩
    | stop =>
      by_cases hs : s.stopped = true
      · simpa only [St.step, hs, if_true] using ⟨u, r, g⟩
      · refine ⟨?_, fun h n => ?_, by simpa [St.step, hs, tellAll_eq] using g⟩
        · simp only [St.step, hs, tellAll_eq]
          rcases Bool.eq_false_or_eq_true s.released with h | h
          · simp [u, (noHeld h).2.1]
          · simp [u, h]
        · have h' : s.released = true := by simpa [St.step, hs, tellAll_eq] using h
          obtain ⟨a, b, c⟩ := noHeld h'
          simp [St.step, hs, tellAll_eq, St.open_, a, c]
    | join =>
      by_cases hj : s.stopped ∧ s.thread = .exited
      · refine ⟨by simpa [St.step, hj] using u, fun h n => ?_, fun _ => ?_⟩
        · have h' : s.released = true := by simpa [St.step, hj] using h
          obtain ⟨a, b, c⟩ := noHeld h'
          simp [St.step, hj, St.open_, a, b, Thread.held]
        · simpa [St.step, hj] using joi rfl
      · simpa only [St.step, hj, if_false] using ⟨u, r, g⟩
    | release =>
      refine ⟨u, fun _ n => ?_, g⟩
      have h1 := inv.one n
      show s.open_.count n = 0
      by_cases hn : n < s.asked
      · have := rel rfl n hn
        simp [hn] at h1; omega
      · simp [hn] at h1; omega

/-- A device which is freed when its lookup has been answered. -/
def freedLate : List Op :=
  [.ask false, .append 0, .signal, .thread, .finish .ok, .release, .stop, .signal, .thread, .join]

example : Kept freedLate ∧ NotAfter freedLate ∧ (run St.init freedLate).gone = true := by
  have split : ∀ (b a : List Op) (o : Op), freedLate = b ++ o :: a →
      b = freedLate.take b.length ∧ freedLate[b.length]? = some o ∧ b.length < freedLate.length := by
    intro b a o e
    refine ⟨by rw [e]; simp, by rw [e]; simp, by rw [e]; simp⟩
  refine ⟨⟨fun b a e => ?_, fun b oom a e => ?_⟩, ⟨fun b a e => ?_, fun b oom a e => ?_⟩, by decide⟩
  all_goals
    obtain ⟨h1, h2, h3⟩ := split _ _ _ e
    generalize b.length = i at h1 h2 h3
    subst h1
    have hi : i < 10 := h3
    clear e
  · have key : ∀ i < 10, freedLate[i]? = some Op.release →
        ∀ n < (run St.init (freedLate.take i)).asked, answers (run St.init (freedLate.take i)).told n = 1 := by
      decide
    exact key i hi h2
  · have key : ∀ i < 10, (∃ o, freedLate[i]? = some (Op.ask o)) →
        (run St.init (freedLate.take i)).released = false := by decide
    exact key i hi ⟨oom, h2⟩
  · have key : ∀ i < 10, freedLate[i]? = some Op.join →
        (run St.init (freedLate.take i)).inside = [] := by decide
    exact key i hi h2
  · have key : ∀ i < 10, (∃ o, freedLate[i]? = some (Op.ask o)) →
        (run St.init (freedLate.take i)).gone = false := by decide
    exact key i hi ⟨oom, h2⟩

end Verif.Net.Lookup
