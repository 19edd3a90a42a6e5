import Verif.Api.FutureLemmas

/-!
# Futures — property theorems (C26, C27)
-/

namespace Verif.Api.Future

open Spec

/-! ## C26: a result is delivered once and unchanged -/

/-- C26: whatever the interleaving of application threads, core thread and callback thread, as long as the
application reuses a future only when it is done with it (`Legal`): no step is undefined; the callbacks called
for a future are, in order and with the right code and data, those the application is owed, except possibly the
last one, which is then still in the hands of the callback thread; and polling the future gives the code of the
operation, or `FUTURE_NOT_RESOLVED` before it has completed. -/
theorem C26_result_once_partial (evs : List Ev) (h : Legal evs) :
    ∃ w, run init evs = some w ∧ ∀ f,
      (calls f w.log = (use f evs).owed ∨
        (∃ c, (use f evs).owed = calls f w.log ++ [c]) ∧
          (f ∈ w.queue ∨ w.worker = .took f ∨ ∃ cb, w.worker = .calling f (some cb))) ∧
      (∀ e, (use f evs).phase = .done e → errorCode w f = e) ∧
      ((∀ e, (use f evs).phase ≠ .done e) → errorCode w f = ecNotResolved) := by
  obtain ⟨w, hw, hi⟩ := inv_run evs h
  refine ⟨w, hw, fun f => ?_⟩
  cases hi.good f with
  | unused hp hf ho hc =>
    exact ⟨.inl hc.symm, by simp [hp], fun _ => by simp [errorCode, hf]⟩
  | started c hp hcb hd hr ho hc =>
    exact ⟨.inl hc.symm, by simp [hp], fun _ => by simp [errorCode, hr]⟩
  | settled e hp hcb he hr ho hc =>
    exact ⟨.inl hc.symm, by simp [hp, errorCode, hr, he], fun h => absurd hp (h e)⟩
  | queued e c d hp hcb hd he hr hq ha hc =>
    exact ⟨.inr ⟨⟨_, hc⟩, .inl hq⟩, by simp [hp, errorCode, hr, he], fun h => absurd hp (h e)⟩
  | took e c d hp hcb hd he hr hq ha hc =>
    refine ⟨.inr ⟨⟨_, hc⟩, .inr (.inl ?_)⟩, by simp [hp, errorCode, hr, he], fun h => absurd hp (h e)⟩
    unfold at_ at ha
    split at ha
    · cases ha
    · rename_i g hg; split at ha
      · rename_i h; rw [hg, h]
      · cases ha
    · split at ha <;> cases ha
  | calling e c d hp hcb hd he hr hq ha hc =>
    refine ⟨.inr ⟨⟨_, hc⟩, .inr (.inr ⟨c, ?_⟩)⟩, by simp [hp, errorCode, hr, he], fun h => absurd hp (h e)⟩
    unfold at_ at ha
    split at ha
    · cases ha
    · split at ha <;> cases ha
    · rename_i g cb hg; split at ha
      · rename_i h; cases ha; rw [hg, h]
      · cases ha

/-- One round of the callback thread. -/
def round : List Ev := [.take, .popped, .call]

/-- `n` rounds of the callback thread, from any point it may be at. -/
def rounds (n : Nat) : List Ev := [.popped, .call] ++ (List.replicate n round).flatten

theorem rounds_idle {w w' : World} {n : Nat} (h : run w (rounds n) = some w') (hn : w.queue.length ≤ n) :
    w'.queue = [] ∧ w'.worker = .idle := by
  have h0 : ∃ w1, run w [.popped, .call] = some w1 ∧ w1.worker = .idle ∧ w1.queue = w.queue := by
    refine ⟨_, rfl, ?_⟩
    cases hw : w.worker with
    | idle => simp [popped, call, hw]
    | took f => simp only [popped, hw]; cases hcb : (w.fut f).cb <;> simp [call]
    | calling f cb => cases cb <;> simp [popped, call, hw]
  obtain ⟨w1, hr, hidle, hq⟩ := h0
  rw [rounds, run_append, hr, Option.bind_some] at h
  rw [← hq] at hn
  clear hq hr
  induction n generalizing w1 with
  | zero =>
    simp only [List.replicate, List.flatten_nil, run, Option.some.injEq] at h
    subst h
    exact ⟨List.eq_nil_of_length_eq_zero (by omega), hidle⟩
  | succ n ih =>
    rw [List.replicate_succ, List.flatten_cons, run_append] at h
    have h1 : ∃ w2, run w1 round = some w2 ∧ w2.worker = .idle ∧ w2.queue = w1.queue.tail := by
      refine ⟨_, rfl, ?_⟩
      cases hqq : w1.queue with
      | nil => simp [take, popped, call, hidle, hqq]
      | cons f fs =>
        simp only [take, popped, hidle, hqq]
        cases hcb : (w1.fut f).cb <;> simp [call]
    obtain ⟨w2, hr, hidle2, hq2⟩ := h1
    rw [hr, Option.bind_some] at h
    exact ih w2 (by rw [hq2]; simp; omega) h hidle2

theorem legal_worker {evs : List Ev} (h : Legal evs) (n : Nat) : Legal (evs ++ rounds n) := by
  have hall : ∀ e ∈ rounds n, e = .take ∨ e = .popped ∨ e = .call := by
    intro e he
    simp only [rounds, List.mem_append, List.mem_flatten, List.mem_replicate] at he
    rcases he with he | ⟨l, ⟨_, rfl⟩, he⟩
    · simp at he; rcases he with rfl | rfl <;> simp
    · simp [round] at he; exact he
  intro past e rest hx w hw
  rcases List.append_eq_append_iff.mp hx with ⟨a, ha, hb⟩ | ⟨c, hc, hd⟩
  · have : e ∈ rounds n := by rw [hb]; simp
    rcases hall e this with rfl | rfl | rfl <;> trivial
  · cases c with
    | nil =>
      have : e ∈ rounds n := by simp at hd; rw [← hd]; simp
      rcases hall e this with rfl | rfl | rfl <;> trivial
    | cons x c =>
      simp only [List.cons_append, List.cons.injEq] at hd
      obtain ⟨rfl, hd⟩ := hd
      exact h past e c hc w hw

theorem use_worker (f : Nat) (evs : List Ev) (n : Nat) : use f (evs ++ rounds n) = use f evs := by
  have : ∀ l : List Ev, (∀ e ∈ l, e = .take ∨ e = .popped ∨ e = .call) → ∀ u : Use, l.foldl (Use.next f) u = u := by
    intro l
    induction l with
    | nil => intro _ u; rfl
    | cons e es ih =>
      intro h u
      simp only [List.foldl_cons]
      rcases h e (List.mem_cons_self ..) with rfl | rfl | rfl <;>
        exact ih (fun e he => h e (List.mem_cons_of_mem _ he)) u
  unfold use
  rw [List.foldl_append]
  apply this
  intro e he
  simp only [rounds, List.mem_append, List.mem_flatten, List.mem_replicate] at he
  rcases he with he | ⟨l, ⟨_, rfl⟩, he⟩
  · simp at he; rcases he with rfl | rfl <;> simp
  · simp [round] at he; exact he

/-- C26: the callback thread delivers: when it runs one round for each future in its queue, every callback owed
has been called exactly once. -/
theorem C26_delivery_partial (evs : List Ev) (h : Legal evs) (w : World) (hw : run init evs = some w) :
    ∃ w', run init (evs ++ rounds w.queue.length) = some w' ∧ ∀ f, calls f w'.log = (use f evs).owed := by
  obtain ⟨w', hw', hall⟩ := C26_result_once_partial _ (legal_worker h w.queue.length)
  refine ⟨w', hw', fun f => ?_⟩
  have hr : run w (rounds w.queue.length) = some w' := by
    rw [run_append, hw] at hw'; exact hw'
  obtain ⟨hq, hidle⟩ := rounds_idle hr (Nat.le_refl _)
  have := (hall f).1
  rw [use_worker] at this
  rcases this with h | ⟨-, h⟩
  · exact h
  · rw [hq, hidle] at h
    simp at h

/-- A concrete history with the callback set before and after the completion, and the future reused. -/
example : ∃ w, run init [.reset 1, .setCallback 1 7 70, .resolve 1 5 0, .reset 2, .resolve 2 0 0, .take,
    .setCallback 2 8 80, .popped, .call, .reset 1, .take, .resolve 1 6 0, .popped, .call] = some w ∧
    calls 1 w.log = [(7, 5, 70)] ∧ calls 2 w.log = [(8, 0, 80)] ∧ errorCode w 1 = 6 :=
  ⟨_, rfl, by decide +kernel⟩

/-- `Allowed` as a computation. -/
def allowed (past : List Ev) (log : List Obs) : Ev → Bool
  | .reset f =>
    (match (use f past).phase with | .started _ => false | _ => true) && calls f log == (use f past).owed
  | .setCallback f _ _ =>
    match (use f past).phase with
    | .started none => true
    | .done _ => calls f log == (use f past).owed
    | _ => false
  | .resolve f _ _ => match (use f past).phase with | .started _ => true | _ => false
  | _ => true

theorem allowed_sound {past : List Ev} {log : List Obs} {e : Ev} (h : allowed past log e = true) :
    Allowed past log e := by
  cases e with
  | reset f =>
    simp only [allowed, Bool.and_eq_true, beq_iff_eq] at h
    refine ⟨fun c hc => ?_, h.2⟩
    rw [hc] at h; simp at h
  | setCallback f cb d =>
    simp only [allowed] at h
    split at h
    · rename_i h1; exact .inl h1
    · rename_i e h1; exact .inr ⟨⟨e, h1⟩, by simpa using h⟩
    · cases h
  | resolve f e p =>
    simp only [allowed] at h
    split at h
    · rename_i c h1; exact ⟨c, h1⟩
    · cases h
  | _ => trivial

/-- `Legal` as a computation. -/
def legalFrom (w : World) (past : List Ev) : List Ev → Bool
  | [] => true
  | e :: es =>
    allowed past w.log e &&
      match step w e with
      | none => true
      | some w' => legalFrom w' (past ++ [e]) es

theorem legal_of_legalFrom (evs past : List Ev) (w : World) (hw : run init past = some w)
    (h : legalFrom w past evs = true) :
    ∀ p e rest, evs = p ++ e :: rest → ∀ w', run init (past ++ p) = some w' → Allowed (past ++ p) w'.log e := by
  induction evs generalizing past w with
  | nil => intro p e rest hx; simp at hx
  | cons x xs ih =>
    simp only [legalFrom, Bool.and_eq_true] at h
    obtain ⟨h1, h2⟩ := h
    intro p e rest hx w' hw'
    cases p with
    | nil =>
      simp only [List.nil_append, List.cons.injEq] at hx
      rw [List.append_nil] at hw' ⊢
      rw [hw] at hw'; cases hw'
      rw [← hx.1]; exact allowed_sound h1
    | cons y ys =>
      simp only [List.cons_append, List.cons.injEq] at hx
      obtain ⟨rfl, hx⟩ := hx
      have heq : past ++ x :: ys = (past ++ [x]) ++ ys := by simp
      rw [heq] at hw' ⊢
      cases hs : step w x with
      | none =>
        rw [run_append, run_snoc, hw] at hw'
        simp [hs] at hw'
      | some w1 =>
        rw [hs] at h2
        exact ih (past ++ [x]) w1 (by rw [run_snoc, hw]; exact hs) h2 ys e rest hx w' hw'

theorem legal_check (evs : List Ev) (h : legalFrom init [] evs = true) : Legal evs :=
  fun p e rest hx w hw => legal_of_legalFrom evs [] init rfl h p e rest hx w hw

example : Legal [.reset 1, .setCallback 1 7 70, .resolve 1 5 0, .reset 2, .resolve 2 0 0, .take,
    .setCallback 2 8 80, .popped, .call, .reset 1, .take, .resolve 1 6 0, .popped, .call] := legal_check _ (by decide +kernel)

/-- C26 fails under the rules the header gives: a future that is polled to be resolved may be used again, but its
callback may not have been called yet. Then the first callback is never called, and the completion of the second
operation puts the same list node into the queue a second time. -/
theorem C26_reuse_after_poll_violated : ∃ evs,
    (∀ past e rest, evs = past ++ e :: rest → AllowedByHeader past e) ∧ run init evs = none := by
  refine ⟨[.reset 1, .setCallback 1 7 70, .resolve 1 5 0, .reset 1, .setCallback 1 8 80, .resolve 1 6 0], ?_, rfl⟩
  intro past e rest hx
  rcases past with _ | ⟨a, _ | ⟨b, _ | ⟨c, _ | ⟨d, _ | ⟨x, _ | ⟨y, past⟩⟩⟩⟩⟩⟩ <;>
    simp only [List.nil_append, List.cons_append, List.cons.injEq] at hx
  · obtain ⟨rfl, -⟩ := hx; intro c; simp [use]
  · obtain ⟨rfl, rfl, -⟩ := hx; rfl
  · obtain ⟨rfl, rfl, rfl, -⟩ := hx; exact ⟨_, rfl⟩
  · obtain ⟨rfl, rfl, rfl, rfl, -⟩ := hx; intro c; simp [use, Use.next]
  · obtain ⟨rfl, rfl, rfl, rfl, rfl, -⟩ := hx; rfl
  · obtain ⟨rfl, rfl, rfl, rfl, rfl, rfl, -⟩ := hx; exact ⟨_, rfl⟩
  · simp at hx

/-! ## C27: waiting -/

/-- C27: a timed wait returns `FUTURE_NOT_RESOLVED` exactly when the future is not resolved at that moment, and
otherwise its code. -/
theorem C27_timed_wait (w w' : World) (a : Waiter) (ht : a.timed = true) (e : Ev) (he : e = .wait a ∨ e = .resume a)
    (hs : step w e = some w') (ec : Err) (hr : w'.log = w.log ++ [.returned a ec]) :
    ec = if (w.fut a.fut).ready then (w.fut a.fut).ec else ecNotResolved := by
  rcases he with rfl | rfl
  · simp only [step, wait, Option.some.injEq] at hs
    split at hs
    · rename_i h
      subst hs
      simp only [List.append_cancel_left_eq, List.cons.injEq, Obs.returned.injEq, true_and, and_true] at hr
      rw [if_pos h]; exact hr.symm
    · subst hs; simp at hr
  · simp only [step, resume, Option.some.injEq] at hs
    split at hs
    · subst hs
      simp only [List.append_cancel_left_eq, List.cons.injEq, Obs.returned.injEq, true_and, and_true] at hr
      rw [← hr]
      unfold errorCode
      cases (w.fut a.fut).ready <;> simp
    · subst hs; simp at hr

example : ∃ w w', run init [.reset 1, .wait ⟨3, 1, true⟩, .wake ⟨3, 1, true⟩] = some w ∧
    step w (.resume ⟨3, 1, true⟩) = some w' ∧ w'.log = w.log ++ [.returned ⟨3, 1, true⟩ ecNotResolved] :=
  ⟨_, _, rfl, rfl, rfl⟩

/-- C27 fails for `nabto_device_future_wait`: the condition variable may wake the thread without reason, and the
code does not check the future again. The call returns `NABTO_DEVICE_EC_OK` although the operation has not
completed. -/
theorem C27_spurious_wakeup_violated : ∃ evs w, Legal evs ∧ run init evs = some w ∧
    w.log = [.returned ⟨3, 1, false⟩ ecOk] ∧ errorCode w 1 = ecNotResolved := by
  refine ⟨[.reset 1, .wait ⟨3, 1, false⟩, .wake ⟨3, 1, false⟩, .resume ⟨3, 1, false⟩], _, legal_check _ (by decide +kernel), rfl, rfl, rfl⟩

/-- Steps that are neither a wake-up without signal of a thread waiting for future `f`, nor a new operation or
completion on `f`. -/
def Quiet (f : Nat) : Ev → Prop
  | .reset g => g ≠ f
  | .resolve g _ _ => g ≠ f
  | .wake a => a.fut ≠ f
  | _ => True

theorem mem_erase_ne {l : List Waiter} {a b : Waiter} (h : a ∈ l) (hab : a ≠ b) : a ∈ l.erase b :=
  (List.mem_erase_of_ne hab).mpr h

/-- A sleeping thread stays asleep. -/
theorem stuck_step {w w' : World} {a : Waiter} {e : Ev} (hb : a ∈ w.blocked) (hw : a ∉ w.woken)
    (hq : Quiet a.fut e) (hne : e ≠ .wait a) (hs : step w e = some w') :
    a ∈ w'.blocked ∧ a ∉ w'.woken ∧ ∀ ec, .returned a ec ∈ w'.log → .returned a ec ∈ w.log := by
  cases e with
  | reset f => simp only [step, Option.some.injEq] at hs; subst hs; exact ⟨hb, hw, fun _ h => h⟩
  | setCallback f cb d =>
    simp only [step, setCallback, post] at hs
    split at hs
    · split at hs
      · cases hs
      · simp only [Option.some.injEq] at hs; subst hs; exact ⟨hb, hw, fun _ h => h⟩
    · simp only [Option.some.injEq] at hs; subst hs; exact ⟨hb, hw, fun _ h => h⟩
  | resolve f ec p =>
    have hf : f ≠ a.fut := hq
    simp only [step, resolve, post] at hs
    split at hs
    · split at hs
      · cases hs
      · simp only [Option.some.injEq] at hs; subst hs; exact ⟨hb, hw, fun _ h => h⟩
    · simp only [Option.some.injEq] at hs; subst hs
      unfold signal
      simp only
      split
      · exact ⟨hb, hw, fun _ h => h⟩
      · rename_i b hbb
        have hmem := List.mem_of_getElem? hbb
        simp only [List.mem_filter, decide_eq_true_eq] at hmem
        have hab : a ≠ b := by rintro rfl; exact hf hmem.2.symm
        refine ⟨mem_erase_ne hb hab, ?_, fun _ h => h⟩
        simp only [List.mem_append, List.mem_singleton, not_or]
        exact ⟨hw, hab⟩
  | take =>
    simp only [step, take, Option.some.injEq] at hs; subst hs
    split <;> exact ⟨hb, hw, fun _ h => h⟩
  | popped =>
    simp only [step, popped, Option.some.injEq] at hs; subst hs
    split <;> exact ⟨hb, hw, fun _ h => h⟩
  | call =>
    simp only [step, call, Option.some.injEq] at hs; subst hs
    split
    · exact ⟨hb, hw, fun _ h => by simpa using h⟩
    · exact ⟨hb, hw, fun _ h => h⟩
    · exact ⟨hb, hw, fun _ h => h⟩
  | wait b =>
    have hab : a ≠ b := by rintro rfl; exact hne rfl
    simp only [step, wait, Option.some.injEq] at hs; subst hs
    split
    · refine ⟨hb, hw, fun _ h => ?_⟩
      simp only [List.mem_append, List.mem_singleton, Obs.returned.injEq] at h
      rcases h with h | ⟨h, -⟩
      · exact h
      · exact absurd h hab
    · exact ⟨List.mem_append_left _ hb, hw, fun _ h => h⟩
  | wake b =>
    have hf : b.fut ≠ a.fut := hq
    have hab : a ≠ b := by rintro rfl; exact hf rfl
    simp only [step, wake, Option.some.injEq] at hs; subst hs
    split
    · refine ⟨mem_erase_ne hb hab, ?_, fun _ h => h⟩
      simp only [List.mem_append, List.mem_singleton, not_or]
      exact ⟨hw, hab⟩
    · exact ⟨hb, hw, fun _ h => h⟩
  | resume b =>
    simp only [step, resume, Option.some.injEq] at hs; subst hs
    split
    · rename_i hbw
      have hab : a ≠ b := by rintro rfl; exact hw hbw
      split
      · refine ⟨hb, fun h => hw (List.mem_of_mem_erase h), fun _ h => ?_⟩
        simp only [List.mem_append, List.mem_singleton, Obs.returned.injEq] at h
        rcases h with h | ⟨h, -⟩
        · exact h
        · exact absurd h hab
      · refine ⟨hb, fun h => hw (List.mem_of_mem_erase h), fun _ h => ?_⟩
        simp only [List.mem_append, List.mem_singleton, Obs.returned.injEq] at h
        rcases h with h | ⟨h, -⟩
        · exact h
        · exact absurd h hab
    · exact ⟨hb, hw, fun _ h => h⟩

theorem stuck {w w' : World} {a : Waiter} {es : List Ev} (hb : a ∈ w.blocked) (hw : a ∉ w.woken)
    (hq : ∀ e ∈ es, Quiet a.fut e ∧ e ≠ .wait a) (hs : run w es = some w') :
    ∀ ec, .returned a ec ∈ w'.log → .returned a ec ∈ w.log := by
  induction es generalizing w with
  | nil => simp only [run, Option.some.injEq] at hs; subst hs; exact fun _ h => h
  | cons e es ih =>
    simp only [run] at hs
    cases hw1 : step w e with
    | none => rw [hw1] at hs; cases hs
    | some w1 =>
      rw [hw1, Option.bind_some] at hs
      obtain ⟨h1, h2⟩ := hq e (List.mem_cons_self ..)
      obtain ⟨hb', hw', hl⟩ := stuck_step hb hw h1 h2 hw1
      intro ec hec
      exact hl ec (ih hb' hw' (fun e he => hq e (List.mem_cons_of_mem _ he)) hs ec hec)

/-- C27 fails for a future that also has a callback: the thread waiting for it is never woken. The operation has
completed, but in no continuation does the wait return, unless the condition variable wakes the thread without
reason. -/
theorem C27_wait_with_callback_violated : ∃ evs w, Legal evs ∧ run init evs = some w ∧ errorCode w 1 = 5 ∧
    ∀ es, (∀ e ∈ es, Quiet 1 e ∧ e ≠ .wait ⟨3, 1, false⟩) → ∀ w', run w es = some w' →
      ∀ ec, .returned ⟨3, 1, false⟩ ec ∉ w'.log := by
  refine ⟨[.reset 1, .setCallback 1 7 70, .wait ⟨3, 1, false⟩, .resolve 1 5 0], _, legal_check _ (by decide +kernel), rfl, rfl, ?_⟩
  intro es hes w' hw' ec hec
  have := stuck (a := ⟨3, 1, false⟩) (by decide) (by decide) hes hw' ec hec
  exact absurd this (by intro h; cases h)

/-- C27 fails for two threads waiting for the same future: only one of them is woken. -/
theorem C27_two_waiters_violated : ∃ evs w, Legal evs ∧ run init evs = some w ∧ errorCode w 1 = 5 ∧
    ∀ es, (∀ e ∈ es, Quiet 1 e ∧ e ≠ .wait ⟨4, 1, false⟩) → ∀ w', run w es = some w' →
      ∀ ec, .returned ⟨4, 1, false⟩ ec ∉ w'.log := by
  refine ⟨[.reset 1, .wait ⟨3, 1, false⟩, .wait ⟨4, 1, false⟩, .resolve 1 5 0], _, legal_check _ (by decide +kernel), rfl, rfl, ?_⟩
  intro es hes w' hw' ec hec
  have := stuck (a := ⟨4, 1, false⟩) (by decide) (by decide) hes hw' ec hec
  exact absurd this (by intro h; cases h)

/-- The rules under which waiting works: no wake-ups without signal of untimed waits, and no future is used again
while a thread is inside a wait for it. -/
def NoSurprise (w : World) : Ev → Prop
  | .wake a => a.timed = true
  | .reset f => ∀ a ∈ w.blocked ++ w.woken, a.fut ≠ f
  | _ => True

/-- Every thread woken from an untimed wait waits for a resolved future. -/
def Sound (w : World) : Prop := ∀ a ∈ w.woken, a.timed = false → (w.fut a.fut).ready = true

theorem sound_set {w : World} (h : Sound w) (f : Nat) (x : Fut) (hx : (w.fut f).ready = true → x.ready = true) :
    Sound (w.set f x) := by
  intro a ha ht
  have := h a ha ht
  simp only [World.set]
  split
  · rename_i hf; rw [hf] at this; exact hx this
  · exact this

theorem sound_step {w w' : World} {e : Ev} (h : Sound w) (hn : NoSurprise w e) (hs : step w e = some w') :
    Sound w' := by
  cases e with
  | reset f =>
    simp only [step, reset, Option.some.injEq] at hs; subst hs
    intro a ha ht
    have : a.fut ≠ f := hn a (List.mem_append_right _ ha)
    rw [set_other w _ this]
    exact h a ha ht
  | setCallback f cb d =>
    have hx := sound_set h f { w.fut f with cb := some cb, cbData := d } (fun h => h)
    simp only [step, setCallback, post] at hs
    split at hs
    · split at hs
      · cases hs
      · simp only [Option.some.injEq] at hs; subst hs; exact hx
    · simp only [Option.some.injEq] at hs; subst hs; exact hx
  | resolve f ec p =>
    have hx := sound_set h f { w.fut f with ec := ec, ready := true } (fun _ => rfl)
    simp only [step, resolve, post] at hs
    split at hs
    · split at hs
      · cases hs
      · simp only [Option.some.injEq] at hs; subst hs; exact hx
    · simp only [Option.some.injEq] at hs; subst hs
      unfold signal
      simp only
      split
      · exact hx
      · rename_i b hbb
        have hmem := List.mem_of_getElem? hbb
        simp only [List.mem_filter, decide_eq_true_eq] at hmem
        intro a ha ht
        simp only [List.mem_append, List.mem_singleton] at ha
        rcases ha with ha | rfl
        · exact hx a ha ht
        · simp [World.set, hmem.2]
  | take =>
    simp only [step, take, Option.some.injEq] at hs; subst hs
    split <;> exact h
  | popped =>
    simp only [step, popped, Option.some.injEq] at hs; subst hs
    split
    · exact sound_set h _ _ (fun h => h)
    · exact h
  | call =>
    simp only [step, call, Option.some.injEq] at hs; subst hs
    split <;> exact h
  | wait b =>
    simp only [step, wait, Option.some.injEq] at hs; subst hs
    split <;> exact h
  | wake b =>
    have hb : b.timed = true := hn
    simp only [step, wake, Option.some.injEq] at hs; subst hs
    split
    · intro a ha ht
      simp only [List.mem_append, List.mem_singleton] at ha
      rcases ha with ha | rfl
      · exact h a ha ht
      · rw [hb] at ht; cases ht
    · exact h
  | resume b =>
    simp only [step, resume, Option.some.injEq] at hs; subst hs
    split
    · split <;> exact fun a ha ht => h a (List.mem_of_mem_erase ha) ht
    · exact h

/-- C27: without wake-ups without signal, and when no future is used again while a thread waits for it,
`nabto_device_future_wait` returns only when the future is resolved, with its code. -/
theorem C27_wait_partial (evs : List Ev) (e : Ev)
    (hn : ∀ past x rest, evs ++ [e] = past ++ x :: rest → ∀ w, run init past = some w → NoSurprise w x)
    (w w' : World) (hw : run init evs = some w) (hs : step w e = some w') (a : Waiter) (ec : Err)
    (ha : a.timed = false) (hr : w'.log = w.log ++ [.returned a ec]) :
    (w.fut a.fut).ready = true ∧ ec = (w.fut a.fut).ec ∧ errorCode w a.fut = ec := by
  have hsound : ∀ (l : List Ev) (w : World), (∀ past x rest, l.reverse = past ++ x :: rest → ∀ w, run init past = some w → NoSurprise w x) →
      run init l.reverse = some w → Sound w := by
    intro l
    induction l with
    | nil => intro w _ h; simp only [List.reverse_nil, run, Option.some.injEq] at h; subst h; intro a ha; cases ha
    | cons x xs ih =>
      intro w hn h
      rw [List.reverse_cons] at hn h
      rw [run_snoc] at h
      cases hw1 : run init xs.reverse with
      | none => rw [hw1] at h; cases h
      | some w1 =>
        rw [hw1, Option.bind_some] at h
        refine sound_step (ih w1 (fun past y rest hy => hn past y (rest ++ [x]) (by rw [hy]; simp)) hw1)
          (hn xs.reverse x [] rfl w1 hw1) h
  have hsd := hsound evs.reverse w
    (fun past y rest hy => hn past y (rest ++ [e]) (by rw [List.reverse_reverse] at hy; rw [hy]; simp))
    (by rw [List.reverse_reverse]; exact hw)
  have key : (w.fut a.fut).ready = true ∧ ec = (w.fut a.fut).ec := by
    cases e with
    | wait b =>
      simp only [step, wait, Option.some.injEq] at hs
      split at hs
      · rename_i h
        subst hs
        simp only [List.append_cancel_left_eq, List.cons.injEq, Obs.returned.injEq, and_true] at hr
        obtain ⟨rfl, rfl⟩ := hr
        exact ⟨h, rfl⟩
      · subst hs; simp at hr
    | resume b =>
      simp only [step, resume, Option.some.injEq] at hs
      split at hs
      · rename_i h
        split at hs
        · rename_i ht
          subst hs
          simp only [List.append_cancel_left_eq, List.cons.injEq, Obs.returned.injEq, and_true] at hr
          obtain ⟨rfl, rfl⟩ := hr
          rw [ha] at ht; cases ht
        · subst hs
          simp only [List.append_cancel_left_eq, List.cons.injEq, Obs.returned.injEq, and_true] at hr
          obtain ⟨rfl, rfl⟩ := hr
          exact ⟨hsd _ h ha, rfl⟩
      · subst hs; simp at hr
    | reset f => simp only [step, Option.some.injEq] at hs; subst hs; simp [reset] at hr
    | setCallback f cb d =>
      simp only [step, setCallback, post] at hs
      split at hs
      · split at hs
        · cases hs
        · simp only [Option.some.injEq] at hs; subst hs; simp at hr
      · simp only [Option.some.injEq] at hs; subst hs; simp at hr
    | resolve f ec p =>
      simp only [step, resolve, post] at hs
      split at hs
      · split at hs
        · cases hs
        · simp only [Option.some.injEq] at hs; subst hs; simp at hr
      · simp only [Option.some.injEq] at hs; subst hs; rw [(signal_frame ..).2.2.2] at hr; simp at hr
    | take =>
      simp only [step, take, Option.some.injEq] at hs; subst hs
      split at hr <;> simp at hr
    | popped =>
      simp only [step, popped, Option.some.injEq] at hs; subst hs
      split at hr <;> simp at hr
    | call =>
      simp only [step, call, Option.some.injEq] at hs; subst hs
      split at hr <;> simp at hr
    | wake b =>
      simp only [step, wake, Option.some.injEq] at hs; subst hs
      split at hr <;> simp at hr
  exact ⟨key.1, key.2, by simp [errorCode, key.1, key.2]⟩

example : ∃ w w', run init [.reset 1, .wait ⟨3, 1, false⟩, .resolve 1 5 0] = some w ∧
    step w (.resume ⟨3, 1, false⟩) = some w' ∧ w'.log = w.log ++ [.returned ⟨3, 1, false⟩ 5] :=
  ⟨_, _, rfl, rfl, rfl⟩

/-- C27: a thread waiting for a future without callback is woken by the completion if it is the only one. -/
theorem C27_waiter_woken_partial (w : World) (a : Waiter) (ec : Err) (p : Nat) (hcb : (w.fut a.fut).cb = none)
    (ha : w.blocked.filter (fun b => b.fut = a.fut) = [a]) (ht : a.timed = false) :
    ∃ w' w'', step w (.resolve a.fut ec p) = some w' ∧ step w' (.resume a) = some w'' ∧
      w''.log = w.log ++ [.returned a ec] := by
  have hst : ∃ w', step w (.resolve a.fut ec p) = some w' ∧ a ∈ w'.woken ∧ (w'.fut a.fut).ec = ec ∧ w'.log = w.log := by
    refine ⟨signal (w.set a.fut { w.fut a.fut with ec := ec, ready := true }) a.fut p, ?_, ?_⟩
    · simp only [step, resolve, set_self]
      rw [if_neg (by simp [hcb])]
    · unfold signal
      have hb : (w.set a.fut { w.fut a.fut with ec := ec, ready := true }).blocked = w.blocked := rfl
      simp only [hb, ha, List.length_singleton, Nat.mod_one, List.getElem?_cons_zero]
      exact ⟨by simp, by simp [World.set], rfl⟩
  obtain ⟨w', h1, h2, h3, h4⟩ := hst
  refine ⟨w', _, h1, rfl, ?_⟩
  simp [resume, h2, ht, h3, h4]

end Verif.Api.Future
