import Verif.Coap.VirtualLemmas

/-!
# Virtual CoAP requests — properties

C52, C87 and C88.
-/

namespace Verif.Coap.Virtual

open Spec

/-- A history of a client and a handler which keep to their contracts. -/
def good : List Op :=
  [.execute .queue true true, .take, .setCode 69, .setFormat 60, .setPayload [1, 2] true, .ready, .getCode, .getPayload,
   .serverFree, .apiFree, .connClosed]

theorem allowed_all {ops : List Op} (h : ∀ n, (hn : n < ops.length) → Allowed (ops.take n) ops[n]) : Polite ops := by
  intro before op after e
  have h1 := h before.length (by rw [e]; simp)
  subst e
  simpa using h1

theorem good_polite : Polite good := by
  apply allowed_all
  intro n hn
  have hn : n < 11 := hn
  rcases n with _ | _ | _ | _ | _ | _ | _ | _ | _ | _ | _ | n
  all_goals first | omega | (simp [good, Allowed, isExecute]; try decide)

theorem handled_all {ops : List Op} (h : ∀ n, (hn : n < ops.length) →
      (isHandler ops[n] = true → (run (ops.take n)).holder = .handler) ∧
      (∀ mem, ops[n] = .listenerStop mem → (run (ops.take n)).holder = .queue)) : Handled ops := by
  intro before op after e
  have h1 := h before.length (by rw [e]; simp)
  subst e
  simpa using h1

theorem good_handled : Handled good := by
  apply handled_all
  intro n hn
  have hn : n < 11 := hn
  rcases n with _ | _ | _ | _ | _ | _ | _ | _ | _ | _ | _ | n
  all_goals first | omega | (constructor <;> simp [good, isHandler] <;> try decide)

/-- **C52**: the future of an execution is resolved at most once, whatever the client, the handler, its listener and the
connection do in whatever order. -/
theorem C52_once (ops : List Op) (h : Polite ops) : resolutions (run ops) ≤ 1 := by
  obtain ⟨-, hi⟩ := inv_run ops h
  split at hi
  next c hc => rw [hi.count]; split <;> decide
  next => rcases hi with hi | hi <;> rw [hi.count] <;> decide

/-- **C52**: while the future of an executed request is not resolved, the connection is open and the request is in the queue
of a listener, or with its handler, or the handler gave it back without an answer. -/
theorem C52_pending (ops : List Op) (h : Polite ops) (hx : ∃ o ∈ ops, isExecute o = true)
    (hr : resolutions (run ops) = 0) :
    .connClosed ∉ ops ∧ .apiFree ∉ ops ∧
    ((run ops).holder = .queue ∨ (run ops).holder = .handler ∨ (run ops).holder = .released) := by
  have hi := (inv_run ops h).2
  have he := executed_has ops h hx
  rcases opt_cases (run ops).core with hc | ⟨c, hc⟩
  · rw [hc] at hi
    rcases hi with hi | hi
    · rw [hi.executed] at he; cases he
    · rw [hi.count] at hr; cases hr
  · rw [hc] at hi
    have hl : Live (run ops) c := hi
    have hc0 : c.resolved = false := by
      cases h6 : c.resolved with
      | false => rfl
      | true => have := hl.count; rw [h6, hr] at this; cases this
    have no : ∀ {p : Prop}, c.resolved = true → p := fun h6 => by rw [hc0] at h6; cases h6
    refine ⟨fun hm => no (hl.shut (alive_gone ops hm)), fun hm => no (hl.early (api_gone ops hm)), ?_⟩
    cases hh : (run ops).holder with
    | nobody => exact no (hl.done (Or.inr hh))
    | queue => exact Or.inl rfl
    | handler => exact Or.inr (Or.inl rfl)
    | released => exact Or.inr (Or.inr rfl)
    | lost => exact no (hl.done (Or.inl hh))

example : ∃ ops, Polite ops ∧ (∃ o ∈ ops, isExecute o = true) ∧ resolutions (run ops) = 0 :=
  ⟨[.execute .queue true true, .take], by
    apply allowed_all
    intro n hn
    have hn : n < 2 := hn
    rcases n with _ | _ | n
    all_goals first | omega | simp [Allowed], by decide, by decide⟩

theorem told_of {ops : List Op} {op : Op} {s : St} {l : List Out} (h : step (run ops) op = s) (ho : s.out = (run ops).out ++ l) :
    told ops op = l := by
  rw [told, run_snoc, h, ho, List.drop_left]

/-- **C52**: the future of an execution is resolved by the first of these: there is no memory for the request; nobody handles
such requests, or no memory for the event to its listener; the listener is stopped while it has the request; the handler
sends an error or says that its response is ready; the connection ends. -/
theorem C52_resolves (ops : List Op) (h : Polite ops) :
    (∀ f mem, Allowed ops (.execute f false mem) → told ops (.execute f false mem) = [.resolved .outOfMemory]) ∧
    (∀ mem, Allowed ops (.execute .notFound true mem) → told ops (.execute .notFound true mem) = [.resolved .ok]) ∧
    (∀ mem, Allowed ops (.execute .refused true mem) → told ops (.execute .refused true mem) = [.resolved .ok]) ∧
    ((∃ o ∈ ops, isExecute o = true) → resolutions (run ops) = 0 →
      (∀ mem, (run ops).holder = .queue → told ops (.listenerStop mem) = [.resolved .ok]) ∧
      (∀ c d mem, (run ops).holder = .handler → told ops (.error c d mem) = [.resolved .ok]) ∧
      ((run ops).holder = .handler → told ops .ready = [.resolved .ok]) ∧
      told ops .connClosed = [.resolved .stopped]) := by
  have exec : ∀ f mem mem', Allowed ops (.execute f mem mem') →
      ¬ (((run ops).executed || !(run ops).connAlive || !(run ops).api) = true) ∧ (run ops).api = true := by
    intro f mem mem' ha
    obtain ⟨h1, h2, h3⟩ := ok_of_allowed ha
    exact ⟨by rw [h1, h2, h3]; simp, h3⟩
  refine ⟨?_, ?_, ?_, ?_⟩
  · intro f mem ha
    refine told_of (s := { run ops with executed := true }.tell (.resolved .outOfMemory)) ?_ rfl
    show (run ops).execute f false mem = _
    rw [St.execute, if_neg (exec _ _ _ ha).1]
    rfl
  · intro mem ha
    refine told_of rfl ?_
    show ((run ops).execute .notFound true mem).out = _
    rw [St.execute, if_neg (exec _ _ _ ha).1]
    simp [St.sendError, St.withCore, St.resolve, St.onResponse, St.lose, St.tell, Core.new, (exec _ _ _ ha).2]
  · intro mem ha
    refine told_of rfl ?_
    show ((run ops).execute .refused true mem).out = _
    rw [St.execute, if_neg (exec _ _ _ ha).1]
    simp [St.sendError, St.withCore, St.resolve, St.onResponse, St.lose, St.tell, St.serverFree, Core.new, (exec _ _ _ ha).2]
  · intro hx hr
    obtain ⟨hcl, hfr, hh⟩ := C52_pending ops h hx hr
    have hi := inv_run ops h
    have hca := alive_of ops hcl
    have hapi := api_of ops hfr
    have hcore : ∃ c, (run ops).core = some c ∧ Live (run ops) c := by
      have hi := hi.2
      rcases opt_cases (run ops).core with hc | ⟨c, hc⟩
      · rw [hc] at hi
        rcases hi with hi | hi
        · rw [hi.executed] at *
          have := executed_has ops h hx
          rw [hi.executed] at this; cases this
        · rw [hi.count] at hr; cases hr
      · rw [hc] at hi; exact ⟨c, hc, hi⟩
    obtain ⟨c, hc, hl⟩ := hcore
    have hc0 : c.resolved = false := by
      cases h6 : c.resolved with
      | false => rfl
      | true => have := hl.count; rw [h6, hr] at this; cases this
    have hcc : c.connectionClosed = false := by rw [hl.closed, hca]; rfl
    have hli : (run ops).listed = true := hl.listed.trans hca
    have err : ∀ v d mem, ((run ops).sendError v d mem).out = (run ops).out ++ [.resolved .ok] := by
      intro v d mem
      rw [St.sendError, St.withCore, hc]
      cases d <;> simp [St.resolve, St.onResponse, St.lose, St.tell, hc0, hapi]
    refine ⟨?_, ?_, ?_, ?_⟩
    · intro mem hq
      refine told_of rfl ?_
      rw [step, if_pos hq]
      exact err _ _ _
    · intro v d mem hq
      refine told_of rfl ?_
      rw [step, St.asHandler, if_pos hq]
      exact err _ _ _
    · intro hq
      refine told_of rfl ?_
      rw [step, St.asHandler, if_pos hq, St.withCore, hc]
      simp [St.resolve, St.onResponse, St.tell, hcc, hc0, hapi]
    · refine told_of rfl ?_
      show (run ops).connClosed.out = _
      rw [St.connClosed, hc]
      simp [St.resolve, St.onResponse, St.tell, hc0, hapi, hli]

/-- **C52**: the memory of a request is released at most once, only after the client freed the request and the handler gave it
back, if it had it; and when both have done so it is released. -/
theorem C52_freed (ops : List Op) (h : Polite ops) :
    (run ops).frees ≤ 1 ∧
    ((run ops).frees = 1 →
      .apiFree ∈ ops ∧ ((run ops).holder = .released ∨ (run ops).holder = .nobody) ∧ (run ops).core = none) ∧
    (.apiFree ∈ ops → (run ops).holder = .released ∨ (run ops).holder = .nobody →
      (run ops).core = none ∧ (run ops).listed = false) := by
  have hi := (inv_run ops h).2
  have mem : (run ops).api = false → .apiFree ∈ ops := by
    intro ha
    by_cases hm : .apiFree ∈ ops
    · exact hm
    · rw [api_of ops hm] at ha; cases ha
  rcases opt_cases (run ops).core with hc | ⟨c, hc⟩
  · rw [hc] at hi
    rcases hi with hi | hi
    · refine ⟨by rw [hi.frees]; decide, (fun hf => by rw [hi.frees] at hf; cases hf), fun _ _ => ⟨hc, hi.listed⟩⟩
    · refine ⟨?_, fun hf => ⟨mem ?_, hi.holder.symm, hc⟩, fun _ _ => ⟨hc, hi.listed⟩⟩
      · rw [hi.frees]; split <;> decide
      · cases ha : (run ops).api with
        | false => rfl
        | true => have := hi.frees; rw [if_pos (Or.inl ha), hf] at this; cases this
  · rw [hc] at hi
    have hl : Live (run ops) c := hi
    refine ⟨by rw [hl.frees]; decide, (fun hf => by rw [hl.frees] at hf; cases hf), fun hm hh => ?_⟩
    refine absurd ⟨?_, hl.server.2 hh⟩ hl.both
    rw [hl.client, api_gone ops hm]; rfl

/-- **C52** (part): while the client keeps to its contract, no freed memory is used. Missing: a client which frees a request
before its future is resolved, see the next theorem. -/
theorem C52_safe_partial (ops : List Op) (h : Polite ops) : (run ops).bad = false := (inv_run ops h).1

example : (run good).frees = 1 ∧ resolutions (run good) = 1 ∧ (run good).bad = false ∧ Polite good := ⟨by decide, by decide, by decide, good_polite⟩

/-- **C52** is violated by the code: the client frees a request before its future is resolved, which nothing forbids, and the
response of the handler is then written to freed memory. -/
theorem C52_free_early_violated :
    (run [.execute .queue true true, .apiFree, .take]).bad = false ∧
    (run [.execute .queue true true, .apiFree, .take, .ready]).bad = true := by decide

theorem stuck_step (s : St) (op : Op) (hop : op ≠ .connClosed) (h : s.holder = .released ∧ s.executed = true) :
    (step s op).holder = .released ∧ (step s op).executed = true ∧ resolutions (step s op) = resolutions s := by
  have read : ∀ f, (∀ c, isRes (f c) = false) → (s.read f).holder = .released ∧ (s.read f).executed = true ∧
      resolutions (s.read f) = resolutions s := by
    intro f hf
    rw [St.read]
    split
    · exact ⟨h.1, h.2, rfl⟩
    · split
      · exact ⟨h.1, h.2, res_tell' _ _ rfl⟩
      · split
        · exact ⟨h.1, h.2, rfl⟩
        · rw [St.withCore]
          split
          · exact ⟨h.1, h.2, rfl⟩
          · refine ⟨h.1, h.2, res_tell' _ _ ?_⟩
            split
            · exact hf _
            · rfl
  have hq : ¬ s.holder = .queue := by rw [h.1]; simp
  have hh : ∀ f, s.asHandler f = s := fun f => by rw [St.asHandler, if_neg (by rw [h.1]; simp)]
  cases op with
  | execute f mem mem' =>
    rw [step, St.execute, if_pos (by rw [h.2]; rfl)]
    exact ⟨h.1, h.2, rfl⟩
  | take => rw [step, if_neg hq]; exact ⟨h.1, h.2, rfl⟩
  | listenerStop mem => rw [step, if_neg hq]; exact ⟨h.1, h.2, rfl⟩
  | setCode => rw [step, hh]; exact ⟨h.1, h.2, rfl⟩
  | setPayload => rw [step, hh]; exact ⟨h.1, h.2, rfl⟩
  | setFormat => rw [step, hh]; exact ⟨h.1, h.2, rfl⟩
  | ready => rw [step, hh]; exact ⟨h.1, h.2, rfl⟩
  | error => rw [step, hh]; exact ⟨h.1, h.2, rfl⟩
  | serverFree => rw [step, hh]; exact ⟨h.1, h.2, rfl⟩
  | getCode => exact read _ fun _ => rfl
  | getFormat => exact read _ fun _ => rfl
  | getPayload => exact read _ fun c => by split <;> rfl
  | apiFree =>
    show s.apiFree.holder = _ ∧ s.apiFree.executed = _ ∧ resolutions s.apiFree = _
    rw [St.apiFree]
    split
    · exact ⟨h.1, h.2, rfl⟩
    · split
      · rw [St.clientFree, St.withCore]
        split
        · exact ⟨h.1, h.2, rfl⟩
        · split
          · rw [St.doFree]
            split
            · exact ⟨h.1, h.2, rfl⟩
            · split <;> exact ⟨h.1, h.2, rfl⟩
          · exact ⟨h.1, h.2, rfl⟩
      · exact ⟨h.1, h.2, rfl⟩
  | connClosed => exact absurd rfl hop

/-- **C52** is violated by the code: a handler frees a virtual request without an answer. The documentation of
`nabto_device_coap_request_free` promises an error response with code 500, but the future of the client stays unresolved
whatever happens, until the connection ends. -/
theorem C52_unanswered_violated :
    ∃ ops, Polite ops ∧ Handled ops ∧ (run ops).holder = .released ∧
      ∀ more : List Op, .connClosed ∉ more → resolutions (run (ops ++ more)) = 0 := by
  refine ⟨[.execute .queue true true, .take, .serverFree], ?_, ?_, by decide, ?_⟩
  · apply allowed_all
    intro n hn
    have hn : n < 3 := hn
    rcases n with _ | _ | _ | n
    all_goals first | omega | simp [Allowed]
  · apply handled_all
    intro n hn
    have hn : n < 3 := hn
    rcases n with _ | _ | _ | n
    all_goals first | omega | (constructor <;> simp [isHandler] <;> try decide)
  · intro more hm
    have : ∀ (more : List Op) (s : St), .connClosed ∉ more → s.holder = .released ∧ s.executed = true → resolutions s = 0 →
        resolutions (more.foldl step s) = 0 := by
      intro more
      induction more with
      | nil => intro s _ _ h; exact h
      | cons op more ih =>
        intro s hm hs hr
        rw [List.mem_cons, not_or] at hm
        have := stuck_step s op (Ne.symm hm.1) hs
        exact ih _ hm.2 ⟨this.1, this.2.1⟩ (this.2.2.trans hr)
    rw [run_append]
    exact this more _ hm (by decide) (by decide)

/-- **C52** is violated by the code: a listener is stopped while a virtual request is in its queue. The client gets its answer
and frees the request, but its memory is never released, and it stays in the list of the connection. -/
theorem C52_stop_leak_violated :
    ∃ ops, Polite ops ∧ resolutions (run ops) = 1 ∧ .apiFree ∈ ops ∧
      ∀ more : List Op, (run (ops ++ more)).frees = 0 ∧ (run (ops ++ more)).core.isSome = true := by
  refine ⟨[.execute .queue true true, .listenerStop true, .apiFree], ?_, by decide, by decide, ?_⟩
  · apply allowed_all
    intro n hn
    have hn : n < 3 := hn
    rcases n with _ | _ | _ | n
    all_goals first | omega | (simp [Allowed, isExecute]; try decide)
  · intro more
    have key : ∀ (s : St) (op : Op), s.holder = .lost ∧ s.executed = true ∧ s.api = false ∧ s.frees = 0 ∧ s.core.isSome = true →
        (step s op).holder = .lost ∧ (step s op).executed = true ∧ (step s op).api = false ∧ (step s op).frees = 0 ∧
        (step s op).core.isSome = true := by
      intro s op h
      have hq : ¬ s.holder = .queue := by rw [h.1]; simp
      have hh : ∀ f, s.asHandler f = s := fun f => by rw [St.asHandler, if_neg (by rw [h.1]; simp)]
      have read : ∀ f, s.read f = { s with bad := true } := fun f => by rw [St.read, if_pos (by rw [h.2.2.1]; rfl)]
      cases op with
      | execute f mem mem' => rw [step, St.execute, if_pos (by rw [h.2.1]; rfl)]; exact h
      | take => rw [step, if_neg hq]; exact h
      | listenerStop mem => rw [step, if_neg hq]; exact h
      | setCode => rw [step, hh]; exact h
      | setPayload => rw [step, hh]; exact h
      | setFormat => rw [step, hh]; exact h
      | ready => rw [step, hh]; exact h
      | error => rw [step, hh]; exact h
      | serverFree => rw [step, hh]; exact h
      | getCode => rw [step, read]; exact h
      | getFormat => rw [step, read]; exact h
      | getPayload => rw [step, read]; exact h
      | apiFree => rw [step, St.apiFree, if_pos (by rw [h.2.2.1]; rfl)]; exact h
      | connClosed =>
        rw [step, St.connClosed]
        rcases opt_cases s.core with hc | ⟨c, hc⟩
        · rw [hc] at h; cases h.2.2.2.2
        · rw [hc]
          dsimp only
          split
          · rw [St.resolve]
            split
            · exact ⟨h.1, h.2.1, h.2.2.1, h.2.2.2.1, rfl⟩
            · rw [St.onResponse]
              split
              next hx => rw [show s.api = true from hx] at h; cases h.2.2.1
              next => exact ⟨h.1, h.2.1, h.2.2.1, h.2.2.2.1, rfl⟩
          · exact ⟨h.1, h.2.1, h.2.2.1, h.2.2.2.1, rfl⟩
    have : ∀ (more : List Op) (s : St), s.holder = .lost ∧ s.executed = true ∧ s.api = false ∧ s.frees = 0 ∧ s.core.isSome = true →
        (more.foldl step s).frees = 0 ∧ (more.foldl step s).core.isSome = true := by
      intro more
      induction more with
      | nil => intro s h; exact h.2.2.2
      | cons op more ih => intro s h; exact ih _ (key s op h)
    rw [run_append]
    exact this more _ (by decide)

/-- **C52** is violated by the code: a handler which sets the payload of its response twice, or which sends an error after it
set a payload, loses the memory of the first. -/
theorem C52_payload_leak_violated :
    (run [.execute .queue true true, .take, .setPayload [1] true, .setPayload [2] true]).leaked = 1 ∧
    (run [.execute .queue true true, .take, .setPayload [1] true, .error 128 (some [2]) true]).leaked = 1 := by decide

/-- **C87**: the client of a virtual request reads the code, the content format and the payload which were set last, from the
time its future is resolved with success; before that it is told that there is no response yet. -/
theorem C87_response (ops : List Op) (h : Polite ops) (hh : Handled ops) (ha : .apiFree ∉ ops ∧ .connClosed ∉ ops) :
    told ops .getCode =
      (if .resolved .ok ∈ (run ops).out then [.code (human (response ops).code)] else [.invalidState]) ∧
    told ops .getFormat =
      (if .resolved .ok ∈ (run ops).out then [.format (response ops).format] else [.invalidState]) ∧
    told ops .getPayload =
      (if .resolved .ok ∈ (run ops).out then
        [match (response ops).payload with | some d => Out.payload d | none => Out.unknown]
       else [.invalidState]) := by
  have hi := inv_run ops h
  have hx := told_run ops
  have hs := has_run ops h hh
  have hapi := api_of ops ha.1
  have hca := alive_of ops ha.2
  have read : ∀ f, ((run ops).read f).out = (run ops).out ++
      (if .resolved .ok ∈ (run ops).out then
        match (run ops).core with
        | some c => [f c]
        | none => []
       else [.invalidState]) := by
    intro f
    rw [St.read, if_neg (by rw [hapi]; simp)]
    by_cases hr : (run ops).apiReady = true
    · rw [if_neg (by rw [hr]; simp), if_neg (by rw [hca]; simp), if_pos (hx.1 hr), St.withCore]
      have hi := hi.2
      rcases opt_cases (run ops).core with hc | ⟨c, hc⟩
      · rw [hc] at hi
        rcases hi with hi | hi
        · rw [hi.ready] at hr; cases hr
        · rw [hi.ready hapi] at hr; cases hr
      · rw [hc] at hi ⊢
        have hl : Live (run ops) c := hi
        dsimp only
        rw [if_pos (hl.ready hr)]
        rfl
    · rw [if_pos (by simpa using hr), if_neg (fun hm => hr (hx.2 hm))]
      rfl
  have core : .resolved .ok ∈ (run ops).out → ∃ c, (run ops).core = some c := by
    intro hm
    have hr := hx.2 hm
    have hi := hi.2
    rcases opt_cases (run ops).core with hc | ⟨c, hc⟩
    · rw [hc] at hi
      rcases hi with hi | hi
      · rw [hi.ready] at hr; cases hr
      · rw [hi.ready hapi] at hr; cases hr
    · exact ⟨c, hc⟩
  refine ⟨told_of rfl ?_, told_of rfl ?_, told_of rfl ?_⟩ <;>
  · rw [step, read]
    split
    next hm =>
      obtain ⟨c, hc⟩ := core hm
      have := hs c hc
      rw [hc]
      dsimp only
      first | rw [this.1] | rw [this.2.1] | (rw [this.2.2]; cases (response ops).payload <;> rfl)
    next => rfl

theorem human_table : ∀ k : Fin 8, ∀ d : Fin 32, human (ofHuman (UInt16.ofNat (100 * k.val + d.val))) = UInt16.ofNat (100 * k.val + d.val) := by
  decide +kernel

/-- **C87**: a code with three digits, whose class and detail fit into the byte of a CoAP code, is read as the handler set
it. -/
theorem C87_code (ops : List Op) (h : Polite ops) (hh : Handled ops) (ha : .apiFree ∉ ops ∧ .connClosed ∉ ops)
    (hr : .resolved .ok ∈ (run ops).out) (k d : Nat) (hk : k ≤ 7) (hd : d ≤ 31)
    (hc : (response ops).code = ofHuman (UInt16.ofNat (100 * k + d))) :
    told ops .getCode = [.code (UInt16.ofNat (100 * k + d))] := by
  rw [(C87_response ops h hh ha).1, if_pos hr, hc]
  exact congrArg (fun x => [Out.code x]) (human_table ⟨k, by omega⟩ ⟨d, by omega⟩)

theorem polite_take {ops : List Op} (h : Polite ops) (n : Nat) : Polite (ops.take n) := fun b o a e =>
  h b o (a ++ ops.drop n) (by rw [← List.cons_append, ← List.append_assoc, ← e, List.take_append_drop])

theorem handled_take {ops : List Op} (h : Handled ops) (n : Nat) : Handled (ops.take n) := fun b o a e =>
  h b o (a ++ ops.drop n) (by rw [← List.cons_append, ← List.append_assoc, ← e, List.take_append_drop])

example : told (good.take 6) .getCode = [.code 205] ∧ told (good.take 6) .getFormat = [.format 60] ∧
    told (good.take 6) .getPayload = [.payload [1, 2]] ∧ told (good.take 5) .getCode = [.invalidState] ∧
    Polite (good.take 6) ∧ Handled (good.take 6) :=
  ⟨by decide, by decide, by decide, by decide, polite_take good_polite 6, handled_take good_handled 6⟩

/-- **C87** is violated by the code: for a response without a content format and without a payload the client is told the
format 0, which is plain text, and the error UNKNOWN; the documentation promises NO_DATA for both. -/
theorem C87_absent_violated :
    told [.execute .queue true true, .take, .setCode 69, .ready] .getFormat = [.format 0] ∧
    told [.execute .queue true true, .take, .setCode 69, .ready] .getPayload = [.unknown] := by decide

/-- **C88**: a path is split into its segments; one slash at its end does not matter; the path of one slash has no
segments. -/
theorem C88_segments (segs : List (List UInt8)) (h : ∀ g ∈ segs, 47 ∉ g ∧ 0 ∉ g) :
    segments (join segs ++ [47]) = some segs ∧
    (∀ g, segs.getLast? = some g → g ≠ [] → segments (join segs) = some segs) := by
  constructor
  · rw [segments, cut, List.getLast?_concat]
    simp only [if_pos, List.dropLast_concat, Option.map_some]
    rw [starts_join segs h]
  · intro g hg hne
    obtain ⟨l, rfl⟩ : ∃ l, segs = l ++ [g] := by
      rw [List.getLast?_eq_some_iff] at hg; exact hg
    have h1 := h g (List.mem_append.2 (Or.inr (List.mem_singleton.2 rfl)))
    obtain ⟨init, c, rfl⟩ : ∃ init c, g = init ++ [c] := ⟨g.dropLast, g.getLast hne, (List.dropLast_concat_getLast hne).symm⟩
    have hc : c ≠ 47 := fun e => h1.1 (by rw [e]; simp)
    have hj : join (l ++ [init ++ [c]]) = (join l ++ 47 :: init) ++ [c] := by
      rw [join_append]; simp [join]
    have hs := starts_join _ h
    rw [segments, cut, hj, List.getLast?_concat]
    simp only [if_neg hc, Option.map_some]
    rw [← hj, hs]

example : segments (join [[97, 98], [99]]) = some [[97, 98], [99]] ∧ join [[97, 98], [99]] = [47, 97, 98, 47, 99] ∧
    segments [47] = some [] := by decide

/-- **C88**: the documentation demands that a path starts with a slash, and the code relies on it: for an empty path the byte
before the string is read. -/
theorem C88_empty_path : segments [] = none := rfl

end Verif.Coap.Virtual
