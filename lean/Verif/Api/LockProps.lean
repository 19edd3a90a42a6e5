import Verif.Api.LockTable
import Verif.Api.LockLemmas

/-!
# C31, C64 and C65: API calls release the locks they take, threads do not deadlock, and the core is used with its lock

The functions are those of `LockTable.lean`. Waiting for a condition or for the end of a thread is not modelled.
-/

namespace Verif.Api.Lock

open Spec

/-- The functions for which C31 does not hold. -/
def exceptions : List String :=
  ["nabto_device_stream_init_listener", "nabto_device_stream_init_listener_ephemeral",
    "nabto_device_virtual_stream_read_all"]

/-- The functions in which threads start: the application, the thread which calls the callbacks of futures
(`src/api/nabto_device_future_queue.c:69-89`) and the thread which runs events
(`src/modules/event_queue/thread_event_queue.c:186-223`). -/
def threads : List String := ["app", "execution_thread", "queue_thread"]

/-- The functions for which C65 does not hold. The first three create, free and stop a device; `nm_iam_init` calls
`nabto_device_listener_new`. -/
def unguarded : List String :=
  ["nabto_device_new", "nabto_device_free", "nabto_device_stop", "nm_iam_init", "nabto_device_listener_new",
    "nabto_device_ice_servers_request_new"]

theorem table_checked : checked false table contexts = true := by decide +kernel

theorem table_length : contexts.length = table.length := by decide +kernel

/-- Whether the functions named by `p` are started with no locks in `c`. -/
def starts (p : Fn → Bool) (fns : List Fn) (c : List (List (List Mutex))) : Bool :=
  (fns.zip c).all (fun x => !p x.1 || x.2.contains [])

/-- The functions C31 is proved for. -/
def released (fn : Fn) : Bool := (fn.api && !exceptions.contains fn.name) || threads.contains fn.name

/-- The functions C65 is proved for. -/
def guarded (fn : Fn) : Bool :=
  (fn.api && !exceptions.contains fn.name && !unguarded.contains fn.name) || threads.contains fn.name ||
    fn.name == "thread_event_queue_do_one"

theorem table_entries : starts released table contexts = true := by decide +kernel

/-- The table with an application that does not call the functions in `unguarded`. -/
def guardedTable : List Fn := table.set 0 guardedApp

theorem guarded_checked : checked true guardedTable guardedContexts = true := by decide +kernel

theorem guarded_length : guardedContexts.length = guardedTable.length := by decide +kernel

theorem guarded_entries : starts guarded guardedTable guardedContexts = true := by decide +kernel

theorem entry {g fns c} {p : Fn → Bool} (hc : checked g fns c = true) (hl : c.length = fns.length)
    (hs : starts p fns c = true) {fn} (hm : fn ∈ fns) (h : p fn = true)
    {t o} (e : Exec fns fn.body t o) : replay g [] t = some [] ∧ (o = .norm ∨ o = .ret) := by
  obtain ⟨f, hlt, hf⟩ := List.getElem_of_mem hm
  have hf' : fns[f]? = some fn := by rw [List.getElem?_eq_getElem hlt, hf]
  have hlt' : f < c.length := by rw [hl]; exact hlt
  have hz : (fn, c[f]) ∈ fns.zip c := by
    apply List.mem_of_getElem? (i := f)
    rw [List.getElem?_zip_eq_some]
    exact ⟨hf', List.getElem?_eq_getElem hlt'⟩
  have h1 := List.all_eq_true.1 hs _ hz
  have h2 : c[f].contains [] = true := by
    simp only [h] at h1
    simpa using h1
  refine sound_fn hc (f := f) ?_ hf' e
  unfold lookup
  rw [List.getElem?_eq_getElem hlt']
  exact h2

theorem released_api {fn : Fn} (ha : fn.api = true) (hx : fn.name ∉ exceptions) : released fn = true := by
  unfold released
  rw [ha, Bool.or_eq_true, Bool.true_and]
  exact .inl (by rw [Bool.not_eq_true', ← Bool.not_eq_true, List.contains_iff_mem]; exact hx)

theorem released_thread {fn : Fn} (hn : fn.name ∈ threads) : released fn = true := by
  unfold released
  rw [Bool.or_eq_true]
  exact .inr (List.contains_iff_mem.2 hn)

/-- **C31 (partial).** On every path through a function of the public API, other than the three in `exceptions`, the
thread never takes a lock it already holds and never releases one it does not hold, and when the function returns all
locks are released. -/
theorem C31_lock_released_partial (fn : Fn) (hm : fn ∈ table) (ha : fn.api = true) (hx : fn.name ∉ exceptions)
    (t : List Ev) (o : Out) (e : Exec table fn.body t o) : WellLocked t ∧ Released t := by
  obtain ⟨r, _⟩ := entry table_checked table_length table_entries hm (released_api ha hx) e
  exact ⟨replay_wellLocked r, replay_released r⟩

/-- A function with a path that locks and then returns. -/
theorem Exec.stuck {fns rest more m} : Exec fns (.seq (.ite .ret .skip) (.seq (.lock m)
    (.seq (.ite .ret rest) more))) [.lock m] .ret :=
  .seq (t := []) (u := [.lock m]) (.iteElse .skip)
    (.seq (t := [.lock m]) (u := []) (.lock m) (.seqJump (.iteThen .ret) (by simp)))

/-- **C31 is violated** by `nabto_device_stream_init_listener` and `nabto_device_stream_init_listener_ephemeral`:
there is a path (the listener was already in use, or the port is taken) on which they return with the device's lock
held. -/
theorem C31_stream_init_listener_violated :
    ∀ name ∈ ["nabto_device_stream_init_listener", "nabto_device_stream_init_listener_ephemeral"],
      ∃ fn ∈ table, fn.name = name ∧ fn.api = true ∧
        ∃ t, Exec table fn.body t .ret ∧ Holds t .event := by
  intro name hn
  simp only [List.mem_cons, List.not_mem_nil, or_false] at hn
  rcases hn with rfl | rfl
  · exact ⟨f135, List.mem_of_getElem? (i := 135) rfl, rfl, rfl, [.lock .event], .stuck, by decide⟩
  · exact ⟨f136, List.mem_of_getElem? (i := 136) rfl, rfl, rfl, [.lock .event], .stuck, by decide⟩

/-- **C31 is violated** by `nabto_device_virtual_stream_read_all`: when a read is already pending it returns with the
device's lock held. -/
theorem C31_virtual_stream_read_all_violated :
    ∃ fn ∈ table, fn.name = "nabto_device_virtual_stream_read_all" ∧ fn.api = true ∧
      ∃ t, Exec table fn.body t .ret ∧ Holds t .event := by
  refine ⟨f183, List.mem_of_getElem? (i := 183) rfl, rfl, rfl,
    [.lock .event, .lock .future, .unlock .future, .lock .future, .unlock .future], ?_, by decide⟩
  refine .seq (t := [.lock .event]) (.lock _) (.seq (t := [.lock .future, .unlock .future]) ?_
    (.seqJump (.iteThen (.seq (t := [.lock .future, .unlock .future]) (u := []) ?_ .ret)) (by simp)))
  · exact .call (f := 95) (fn := f95) rfl (.seq (t := [.lock .future]) (.lock _) (.unlock _)) (.inl rfl)
  · exact .call (f := 97) (fn := f97) rfl (.seq (t := [.lock .future]) (.lock _)
      (.seq (t := []) (.iteElse .skip) (.unlock _))) (.inl rfl)

/-- `t` is all that a thread of the process does with locks from its start to its end. -/
def Runs (t : List Ev) : Prop := ∃ fn ∈ table, fn.name ∈ threads ∧ ∃ o, Exec table fn.body t o

/-- Steps do not change what a thread does altogether. -/
theorem steps_total {P : List Ev → Prop} {a b : List Thread} (s : Steps a b)
    (h : ∀ th ∈ a, P (th.did ++ th.todo)) : ∀ th ∈ b, P (th.did ++ th.todo) := by
  induction s with
  | refl => exact h
  | tail _ st ih =>
    cases st with
    | @mk pre post did e todo _ =>
      intro th hth
      rcases List.mem_append.1 hth with hp | hp
      · exact ih th (List.mem_append_left _ hp)
      · rcases List.mem_cons.1 hp with rfl | hp
        · have := ih ⟨did, e :: todo⟩ (List.mem_append_right _ (List.mem_cons_self))
          simpa using this
        · exact ih th (List.mem_append_right _ (List.mem_cons_of_mem _ hp))

/-- **C64.** Any number of threads of the application, each calling any functions of the public API in any order (other
than the three in `exceptions`), together with the threads of the library, never block each other for ever on the
library's locks: in every state they can reach, either some thread can go on, or all have ended and all locks are
free. -/
theorem C64_no_deadlock (init ths : List Thread) (hi : ∀ th ∈ init, th.did = [] ∧ Runs th.todo)
    (hs : Steps init ths) :
    (∃ ths', Step ths ths') ∨ (∀ th ∈ ths, th.todo = [] ∧ ∀ m, ¬ Holds th.did m) := by
  have hr : ∀ th ∈ ths, replay false [] (th.did ++ th.todo) = some [] := by
    refine steps_total (P := fun t => replay false [] t = some []) hs (fun th hth => ?_)
    obtain ⟨hd, fn, hm, hn, o, e⟩ := hi th hth
    rw [hd]
    exact (entry table_checked table_length table_entries hm (released_thread hn) e).1
  by_cases hn : ∃ th ∈ ths, th.todo ≠ []
  · left
    obtain ⟨th, hth, he⟩ := no_deadlock hr hn
    obtain ⟨pre, post, rfl⟩ := List.append_of_mem hth
    obtain ⟨did, todo⟩ := th
    cases todo with
    | nil => simp [Enabled] at he
    | cons e todo => exact ⟨_, .mk he⟩
  · right
    intro th hth
    have ht : th.todo = [] := Classical.byContradiction fun c => hn ⟨th, hth, c⟩
    have := hr th hth
    rw [ht, List.append_nil] at this
    exact ⟨ht, replay_released this⟩

/-- No lock is ever held by two threads at once, whatever they do. -/
theorem exclusive {init ths : List Thread} (hi : ∀ th ∈ init, th.did = []) (hs : Steps init ths) (i j : Nat) (a b : Thread) (ha : ths[i]? = some a) (hb : ths[j]? = some b) (m : Mutex)
    (hma : Holds a.did m) (hmb : Holds b.did m) : i = j := by
  induction hs generalizing i j a b with
  | refl =>
    have := hi a (List.mem_of_getElem? ha)
    rw [this] at hma
    simp [Holds] at hma
  | tail _ st ih =>
    cases st with
    | mk he =>
      rename_i pre post did e todo _
      -- the thread at position k does `e`
      have old : ∀ (k : Nat) (c : Thread), (pre ++ ⟨did ++ [e], todo⟩ :: post)[k]? = some c → Holds c.did m →
          (k ≠ pre.length ∧ (pre ++ ⟨did, e :: todo⟩ :: post)[k]? = some c) ∨
          (k = pre.length ∧ (Holds did m ∨ e = .lock m)) := by
        intro k c hk hh
        by_cases hkp : k = pre.length
        · right
          refine ⟨hkp, ?_⟩
          subst hkp
          simp at hk
          subst hk
          simp only [Holds, List.count_append] at hh ⊢
          by_cases hee : e = .lock m
          · exact .inr hee
          · left
            have : List.count (Ev.lock m) [e] = 0 := by
              rw [List.count_eq_zero]; intro c; simp at c; exact hee c.symm
            omega
        · left
          refine ⟨hkp, ?_⟩
          rw [List.getElem?_append] at hk ⊢
          split at hk
          · rw [if_pos (by assumption)]; exact hk
          · rw [if_neg (by assumption)]
            rename_i hlt
            obtain ⟨d, hd⟩ : ∃ d, k - pre.length = d + 1 := ⟨k - pre.length - 1, by omega⟩
            rw [hd] at hk ⊢
            simpa using hk
      have self : (pre ++ ⟨did, e :: todo⟩ :: post)[pre.length]? = some ⟨did, e :: todo⟩ := by simp
      have excl : e = .lock m → ∀ c ∈ pre ++ ⟨did, e :: todo⟩ :: post, ¬ Holds c.did m := by
        intro hee
        subst hee
        exact he
      rcases old i a ha hma with ⟨hi', ha'⟩ | ⟨hi', ha'⟩ <;> rcases old j b hb hmb with ⟨hj', hb'⟩ | ⟨hj', hb'⟩
      · exact ih i j a b ha' hb' hma hmb
      · rcases hb' with hb' | hb'
        · exact (ih i j a _ ha' (hj' ▸ self) hma hb')
        · exact absurd hma (excl hb' a (List.mem_of_getElem? ha'))
      · rcases ha' with ha' | ha'
        · exact (ih i j _ b (hi' ▸ self) hb' ha' hmb)
        · exact absurd hmb (excl ha' b (List.mem_of_getElem? hb'))
      · omega

/-- No lock is ever held by two threads at once (a check of the specification of steps). -/
theorem C64_exclusive (init ths : List Thread) (hi : ∀ th ∈ init, th.did = [] ∧ Runs th.todo)
    (hs : Steps init ths) (i j : Nat) (a b : Thread) (ha : ths[i]? = some a) (hb : ths[j]? = some b) (m : Mutex)
    (hma : Holds a.did m) (hmb : Holds b.did m) : i = j :=
  exclusive (fun th hth => (hi th hth).1) hs i j a b ha hb m hma hmb

/-- **C65.** A function of the public API, other than those in `exceptions` and `unguarded`, uses the state of the
core only while its thread holds the device's lock. It may call the callbacks of futures, by which the application calls
other such functions. -/
theorem C65_guarded_partial (fn : Fn) (hm : fn ∈ guardedTable) (ha : fn.api = true) (hx : fn.name ∉ exceptions)
    (hu : fn.name ∉ unguarded) (t : List Ev) (o : Out) (e : Exec guardedTable fn.body t o) : Guarded t := by
  refine replay_guarded (entry guarded_checked guarded_length guarded_entries hm ?_ e).1
  unfold guarded
  rw [ha, Bool.or_eq_true, Bool.or_eq_true, Bool.true_and, Bool.and_eq_true]
  exact .inl <| .inl ⟨by rw [Bool.not_eq_true', ← Bool.not_eq_true, List.contains_iff_mem]; exact hx,
    by rw [Bool.not_eq_true', ← Bool.not_eq_true, List.contains_iff_mem]; exact hu⟩

/-- **C65, stop.** So does the function by which `nabto_device_stop` runs the remaining events. -/
theorem C65_stop_events (fn : Fn) (hm : fn ∈ guardedTable) (hn : fn.name = "thread_event_queue_do_one")
    (t : List Ev) (o : Out) (e : Exec guardedTable fn.body t o) : Guarded t := by
  refine replay_guarded (entry guarded_checked guarded_length guarded_entries hm ?_ e).1
  unfold guarded
  rw [Bool.or_eq_true]
  exact .inr (by rw [hn]; rfl)

/-- What a thread may do from its start to its end if the application does not call the functions in `unguarded`. -/
def GuardedRuns (t : List Ev) : Prop := ∃ fn ∈ guardedTable, fn.name ∈ threads ∧ ∃ o, Exec guardedTable fn.body t o

/-- **C65, threads.** At no time do two threads use, or are about to use, the state of the core: when the next thing a
thread does is to use it, the thread holds the device's lock and no other thread does. -/
theorem C65_no_race_partial (init ths : List Thread) (hi : ∀ th ∈ init, th.did = [] ∧ GuardedRuns th.todo)
    (hs : Steps init ths) (i j : Nat) (a b : Thread) (ha : ths[i]? = some a) (hb : ths[j]? = some b)
    (u v : List Ev) (hau : a.todo = .touch :: u) (hbv : b.todo = .touch :: v) : i = j := by
  have hr : ∀ th ∈ ths, Guarded (th.did ++ th.todo) := by
    refine steps_total (P := Guarded) hs (fun th hth => ?_)
    obtain ⟨hd, fn, hm, hn, o, e⟩ := hi th hth
    rw [hd]
    refine replay_guarded (entry guarded_checked guarded_length guarded_entries hm ?_ e).1
    unfold guarded
    rw [Bool.or_eq_true, Bool.or_eq_true]
    exact .inl (.inr (List.contains_iff_mem.2 hn))
  have held : ∀ th ∈ ths, ∀ w, th.todo = .touch :: w → Holds th.did .event := by
    intro th hth w hw
    refine hr th hth th.did ⟨w, ?_⟩
    rw [hw, List.append_assoc, List.singleton_append]
  exact exclusive (fun th hth => (hi th hth).1) hs i j a b ha hb .event
    (held a (List.mem_of_getElem? ha) u hau) (held b (List.mem_of_getElem? hb) v hbv)

/-- **C65 is violated** by `nabto_device_listener_new`, which appends to the device's list of listeners before it takes
the lock, and by `nabto_device_ice_servers_request_new`, which makes a request of the core's CoAP client without taking
it. -/
theorem C65_guarded_violated :
    ∀ name ∈ ["nabto_device_listener_new", "nabto_device_ice_servers_request_new"],
      ∃ fn ∈ table, fn.name = name ∧ fn.api = true ∧ ∃ t, Exec table fn.body t .ret ∧ ¬ Guarded t := by
  have bad : ∀ t, ¬ Guarded (.touch :: t) := fun t h => absurd (h [] ⟨t, rfl⟩) (by decide)
  intro name hn
  simp only [List.mem_cons, List.not_mem_nil, or_false] at hn
  rcases hn with rfl | rfl
  · refine ⟨f107, List.mem_of_getElem? (i := 107) rfl, rfl, rfl, [.touch, .lock .event, .unlock .event], ?_, bad _⟩
    exact .seq (t := []) (.iteElse .skip) (.seq (t := [.touch]) .touch (.seq (t := [.lock .event]) (.lock _)
      (.seq (t := [.unlock .event]) (u := []) (.unlock _) .ret)))
  · refine ⟨f101, List.mem_of_getElem? (i := 101) rfl, rfl, rfl, [.touch], ?_, bad _⟩
    exact .seq (t := [.touch]) (u := []) (.iteThen (.seq (t := [.touch]) (u := []) .touch
      (.call (f := 1) (fn := f1) rfl .loopEnd (.inl rfl)))) .ret

/-- Two threads of an application that call these two functions at once reach a state in which both are about to use
the state of the core. -/
theorem C65_race_violated :
    ∃ init ths : List Thread, (∀ th ∈ init, th.did = [] ∧ Runs th.todo) ∧ Steps init ths ∧
      ∃ a b u v, ths[0]? = some a ∧ ths[1]? = some b ∧ a.todo = .touch :: u ∧ b.todo = .touch :: v := by
  have run : Runs [.touch] := by
    refine ⟨f0, List.mem_of_getElem? (i := 0) rfl, by decide +kernel, .norm, ?_⟩
    refine .loopNext (t := [.touch]) (u := []) (o := .norm) (.anyOf (f := 101) (by decide +kernel) ?_)
      (.inl rfl) .loopEnd
    exact .call (f := 101) (fn := f101) (o := .ret) rfl
      (.seq (t := [.touch]) (u := []) (.iteThen (.seq (t := [.touch]) (u := []) .touch
        (.call (f := 1) (fn := f1) rfl .loopEnd (.inl rfl)))) .ret) (.inr rfl)
  refine ⟨[⟨[], [.touch]⟩, ⟨[], [.touch]⟩], _, ?_, .refl, _, _, _, _, rfl, rfl, rfl, rfl⟩
  intro th hth
  simp only [List.mem_cons, List.not_mem_nil, or_false, or_self] at hth
  subst hth
  exact ⟨rfl, run⟩

/-! ## Concrete cases -/

/-- `nabto_device_set_product_id` takes and releases the device's lock. -/
example : Exec table f8.body [.lock .event, .touch, .unlock .event] .ret :=
  .seq (t := [.lock .event]) (.lock _) (.seq (t := [.touch]) .touch (.seq (t := [])
    (.call (f := 1) (fn := f1) rfl .loopEnd (.inl rfl))
    (.seq (t := [.unlock .event]) (u := []) (.unlock _) .ret)))

example : f8 ∈ table ∧ f8.api = true ∧ f8.name ∉ exceptions :=
  ⟨List.mem_of_getElem? (i := 8) rfl, rfl, by decide +kernel⟩

/-- How many functions of the public API C31 is proved for. -/
example : (table.filter (fun f => f.api && !exceptions.contains f.name)).length = 159 := by decide +kernel

/-- The application may call it, so this is what a thread may do. -/
example : Runs [.lock .event, .touch, .unlock .event] := by
  refine ⟨f0, List.mem_of_getElem? (i := 0) rfl, by decide +kernel, .norm, ?_⟩
  refine .loopNext (t := [.lock .event, .touch, .unlock .event]) (u := []) (o := .norm) (.anyOf (f := 8) (by decide +kernel) ?_)
    (.inl rfl) .loopEnd
  exact .call (f := 8) (fn := f8) (o := .ret) rfl
    (.seq (t := [.lock .event]) (.lock _) (.seq (t := [.touch]) .touch (.seq (t := [])
      (.call (f := 1) (fn := f1) rfl .loopEnd (.inl rfl))
      (.seq (t := [.unlock .event]) (u := []) (.unlock _) .ret)))) (.inr rfl)

example : f8 ∈ guardedTable ∧ f8.name ∉ unguarded :=
  ⟨List.mem_of_getElem? (i := 8) rfl, by decide +kernel⟩

/-- The event thread's function runs an event with the lock. -/
example : f200 ∈ guardedTable ∧ f200.name = "thread_event_queue_do_one" ∧
    Exec guardedTable f200.body [.lock .queue, .unlock .queue, .lock .event, .touch, .unlock .event] .ret :=
  ⟨List.mem_of_getElem? (i := 200) rfl, rfl,
    .seq (t := [.lock .queue]) (.lock _) (.seq (t := [.unlock .queue]) (.unlock _)
      (.seqJump (.iteThen (.seq (t := [.lock .event]) (.lock _) (.seq (t := [.touch]) .touch (.seq (t := [])
        (.call (f := 1) (fn := f1) rfl .loopEnd (.inl rfl))
        (.seq (t := [.unlock .event]) (u := []) (.unlock _) .ret))))) (by simp)))⟩

/-- How many functions of the public API C65 is proved for. -/
example : (guardedTable.filter (fun f => f.api && !exceptions.contains f.name && !unguarded.contains f.name)).length
    = 153 := by decide +kernel

/-- A thread may use the state of the core, also in the smaller application. -/
example : GuardedRuns [.lock .event, .touch, .unlock .event] := by
  refine ⟨guardedApp, List.mem_of_getElem? (i := 0) rfl, by decide +kernel, .norm, ?_⟩
  refine .loopNext (t := [.lock .event, .touch, .unlock .event]) (u := []) (o := .norm)
    (.anyOf (f := 8) (by decide +kernel) ?_) (.inl rfl) .loopEnd
  exact .call (f := 8) (fn := f8) (o := .ret) rfl
    (.seq (t := [.lock .event]) (.lock _) (.seq (t := [.touch]) .touch (.seq (t := [])
      (.call (f := 1) (fn := f1) rfl .loopEnd (.inl rfl))
      (.seq (t := [.unlock .event]) (u := []) (.unlock _) .ret)))) (.inr rfl)

end Verif.Api.Lock
