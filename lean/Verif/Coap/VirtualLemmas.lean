import Verif.Coap.VirtualSpec

/-!
# Virtual CoAP requests — lemmas
-/

namespace Verif.Coap.Virtual

open Spec

theorem run_snoc (ops : List Op) (op : Op) : run (ops ++ [op]) = step (run ops) op := by
  rw [run, List.foldl_append]; rfl

theorem run_append (ops more : List Op) : run (ops ++ more) = more.foldl step (run ops) := by
  rw [run, List.foldl_append]; rfl

theorem run_ind {P : List Op → Prop} (h0 : P []) (hs : ∀ ops op, P ops → P (ops ++ [op])) (ops : List Op) : P ops := by
  have : ∀ n (l : List Op), l.length = n → P l := by
    intro n
    induction n with
    | zero => intro l hl; rw [List.length_eq_zero_iff.1 hl]; exact h0
    | succ n ih =>
      intro l hl
      have hne : l ≠ [] := by intro h; rw [h] at hl; cases hl
      rw [← List.dropLast_concat_getLast hne]
      exact hs _ _ (ih _ (by rw [List.length_dropLast, hl]; rfl))
  exact this _ ops rfl

theorem opt_cases {α : Type} (o : Option α) : o = none ∨ ∃ c, o = some c := by
  cases o with
  | none => exact Or.inl rfl
  | some c => exact Or.inr ⟨c, rfl⟩

theorem polite_init {ops : List Op} {op : Op} (h : Polite (ops ++ [op])) : Polite ops ∧ Allowed ops op := by
  refine ⟨fun b o a e => ?_, h ops op [] rfl⟩
  exact h b o (a ++ [op]) (by rw [e, List.append_assoc]; rfl)

/-- Only a resolution counts. -/
def isRes : Out → Bool
  | .resolved _ => true
  | _ => false

theorem resolutions_eq (s : St) : resolutions s = s.out.countP isRes := by
  unfold resolutions
  congr 1

/-- What a request in the core is like. -/
structure Live (s : St) (c : Core) : Prop where
  executed : s.executed = true
  frees : s.frees = 0
  count : resolutions s = if c.resolved then 1 else 0
  client : c.clientFreed = !s.api
  server : c.serverFreed = true ↔ s.holder = .released ∨ s.holder = .nobody
  both : ¬ (c.clientFreed = true ∧ c.serverFreed = true)
  early : s.api = false → c.resolved = true
  ready : s.apiReady = true → c.responseReady = true
  closed : c.connectionClosed = !s.connAlive
  listed : s.listed = s.connAlive
  done : s.holder = .lost ∨ s.holder = .nobody → c.resolved = true
  respond : c.responseReady = true → c.resolved = true
  shut : s.connAlive = false → c.resolved = true

/-- The request before its execution. -/
structure Fresh (s : St) : Prop where
  executed : s.executed = false
  frees : s.frees = 0
  count : resolutions s = 0
  holder : s.holder = .nobody
  ready : s.apiReady = false
  listed : s.listed = false

/-- The request which could not be made, or is freed. -/
structure Gone (s : St) : Prop where
  executed : s.executed = true
  count : resolutions s = 1
  holder : s.holder = .nobody ∨ s.holder = .released
  ready : s.api = true → s.apiReady = false
  frees : s.frees = if s.api = true ∨ s.frees = 0 then 0 else 1
  failed : s.frees = 0 → s.holder = .nobody ∧ s.apiReady = false
  listed : s.listed = false

def Inv (s : St) : Prop :=
  s.bad = false ∧
  match s.core with
  | some c => Live s c
  | none => Fresh s ∨ Gone s

/-- What an operation needs in the state for the contract to be kept. -/
def Ok (s : St) : Op → Prop
  | .execute .. => s.executed = false ∧ s.connAlive = true ∧ s.api = true
  | .getCode | .getFormat | .getPayload => s.api = true ∧ s.connAlive = true
  | .apiFree => s.api = true ∧ (s.executed = true → resolutions s = 1)
  | _ => True

theorem res_tell (s : St) (e : Ec) : resolutions (s.tell (.resolved e)) = resolutions s + 1 := by
  simp [resolutions_eq, St.tell, List.countP_append, isRes]

theorem res_tell' (s : St) (o : Out) (h : isRes o = false) : resolutions (s.tell o) = resolutions s := by
  simp [resolutions_eq, St.tell, List.countP_append, h]

theorem res_out {s s' : St} (h : s'.out = s.out) : resolutions s' = resolutions s := by
  rw [resolutions_eq, resolutions_eq, h]

theorem inv_init : Inv St.init :=
  ⟨rfl, Or.inl ⟨rfl, rfl, rfl, rfl, rfl, rfl⟩⟩

theorem inv_execute (s : St) (f : Found) (mem mem' : Bool) (h : Inv s) (ha : Ok s (.execute f mem mem')) :
    Inv (step s (.execute f mem mem')) := by
  obtain ⟨api, apiReady, executed, core, holder, listed, connAlive, frees, leaked, bad, out⟩ := s
  obtain ⟨h1, h2, h3⟩ := ha
  simp only at h1 h2 h3
  subst h1 h2 h3
  obtain ⟨hb, hi⟩ := h
  simp only at hb
  subst hb
  cases core with
  | some c => cases hi.executed
  | none =>
    rcases hi with hi | hi
    · have e1 := hi.frees; have e2 := hi.holder; have e3 := hi.ready; have e4 := hi.listed
      have e5 := hi.count
      simp only at e1 e2 e3 e4
      subst e1 e2 e3 e4
      rw [resolutions_eq] at e5
      have e6 : List.countP isRes out = 0 := e5
      cases mem
      · exact ⟨rfl, Or.inr ⟨rfl, by rw [resolutions_eq]; simp [step, St.execute, St.tell, List.countP_append, e6, isRes], Or.inl rfl, fun _ => rfl, rfl, fun _ => ⟨rfl, rfl⟩, rfl⟩⟩
      · cases f <;>
        · refine ⟨rfl, ?_, ?_, ?_, ?_, ?_, ?_, ?_, ?_, ?_, ?_, ?_, ?_, ?_⟩ <;>
          simp [resolutions_eq, step, St.execute, St.tell, St.sendError, St.withCore, St.resolve, St.onResponse, St.lose, St.serverFree, Core.new, List.countP_append, isRes, e6]
    · cases hi.executed

/-- A handler's write keeps what there is. -/
theorem live_same {s : St} {c c' : Core} {l : Nat} (h : Live s c) (hc : c'.clientFreed = c.clientFreed)
    (hs : c'.serverFreed = c.serverFreed) (hr : c'.resolved = c.resolved) (hy : c'.responseReady = c.responseReady)
    (hd : c'.connectionClosed = c.connectionClosed) : Live { s with core := some c', leaked := l } c' :=
  ⟨h.executed, h.frees, by rw [hr]; exact h.count, by rw [hc]; exact h.client, by rw [hs]; exact h.server,
   by rw [hc, hs]; exact h.both, by rw [hr]; exact h.early, by rw [hy]; exact h.ready, by rw [hd]; exact h.closed, h.listed,
   by rw [hr]; exact h.done, by rw [hy, hr]; exact h.respond, by rw [hr]; exact h.shut⟩

/-- Resolving keeps what there is. -/
theorem live_resolve {s : St} {c c' : Core} {l : Nat} (e : Ec) (hb : s.bad = false) (h : Live s c)
    (hc : c'.clientFreed = c.clientFreed) (hs : c'.serverFreed = c.serverFreed) (hr : c'.resolved = c.resolved)
    (hy : c'.responseReady = true) (hd : c'.connectionClosed = c.connectionClosed) :
    Inv ({ s with leaked := l }.resolve c' e) ∧ ({ s with leaked := l }.resolve c' e).holder = s.holder ∧
      (∀ c2, ({ s with leaked := l }.resolve c' e).core = some c2 → c2.resolved = true) := by
  cases h6 : c.resolved with
  | true =>
    have e1 : { s with leaked := l }.resolve c' e = { s with core := some c', leaked := l } := by
      rw [St.resolve, if_pos (hr.trans h6)]
    rw [e1]
    refine ⟨⟨hb, h.executed, h.frees, by rw [hr]; exact h.count, by rw [hc]; exact h.client, by rw [hs]; exact h.server,
      by rw [hc, hs]; exact h.both, by rw [hr]; exact h.early, fun _ => hy, by rw [hd]; exact h.closed, h.listed,
      by rw [hr]; exact h.done, fun _ => hr.trans h6, fun _ => hr.trans h6⟩, rfl, fun c2 h2 => by injection h2 with h2; rw [← h2]; exact hr.trans h6⟩
  | false =>
    have ha : s.api = true := by
      cases ha : s.api with
      | true => rfl
      | false => rw [h.early ha] at h6; cases h6
    have e1 : { s with leaked := l }.resolve c' e
        = { s with core := some { c' with resolved := true }, leaked := l, apiReady := s.apiReady || (e == Ec.ok), out := s.out ++ [.resolved e] } := by
      rw [St.resolve, if_neg (by rw [hr, h6]; simp), St.onResponse, if_pos ha]; rfl
    rw [e1]
    have hcount := h.count
    rw [h6] at hcount
    refine ⟨⟨hb, h.executed, h.frees, ?_, by show c'.clientFreed = _; rw [hc]; exact h.client,
      by show c'.serverFreed = true ↔ _; rw [hs]; exact h.server,
      by show ¬ (c'.clientFreed = true ∧ c'.serverFreed = true); rw [hc, hs]; exact h.both, fun _ => rfl, fun _ => hy,
      by show c'.connectionClosed = _; rw [hd]; exact h.closed, h.listed, fun _ => rfl, fun _ => rfl, fun _ => rfl⟩, rfl, fun c2 h2 => by injection h2 with h2; rw [← h2]⟩
    rw [resolutions_eq] at hcount ⊢
    have hcount : List.countP isRes s.out = 0 := hcount
    simp [List.countP_append, hcount, isRes]

theorem core_of_holder {s : St} (h : Inv s) (h1 : s.holder ≠ .nobody) (h2 : s.holder ≠ .released) :
    ∃ c, s.core = some c ∧ Live s c := by
  obtain ⟨_, hi⟩ := h
  split at hi
  next c hc => exact ⟨c, hc, hi⟩
  next => 
    rcases hi with hi | hi
    · exact absurd hi.holder h1
    · rcases hi.holder with h | h
      · exact absurd h h1
      · exact absurd h h2

theorem inv_of_live {s : St} {c : Core} (hb : s.bad = false) (hc : s.core = some c) (h : Live s c) : Inv s := by
  refine ⟨hb, ?_⟩
  rw [hc]; exact h

theorem inv_holder {s : St} {c : Core} {x : Holder} (hb : s.bad = false) (hc : s.core = some c) (h : Live s c)
    (h1 : s.holder ≠ .nobody) (h2 : s.holder ≠ .released) (h3 : x ≠ .nobody) (h4 : x ≠ .released)
    (h5 : x = .lost → c.resolved = true) : Inv { s with holder := x } := by
  refine inv_of_live (c := c) hb hc ⟨h.executed, h.frees, h.count, h.client, ?_, h.both, h.early, h.ready, h.closed, h.listed, ?_, h.respond, h.shut⟩
  · have hs := h.server
    constructor
    · intro hx
      rcases hs.1 hx with hx | hx
      · exact absurd hx h2
      · exact absurd hx h1
    · rintro (hx | hx)
      · exact absurd hx h4
      · exact absurd hx h3
  · rintro (hx | hx)
    · exact h5 hx
    · exact absurd hx h3

theorem inv_tell {s : St} {o : Out} (ho : isRes o = false) (h : Inv s) : Inv (s.tell o) := by
  have hr := res_tell' s o ho
  obtain ⟨hb, hi⟩ := h
  refine ⟨hb, ?_⟩
  show match s.core with | some c => Live (s.tell o) c | none => Fresh (s.tell o) ∨ Gone (s.tell o)
  split at hi
  next c hc =>
    exact ⟨hi.executed, hi.frees, by rw [hr]; exact hi.count, hi.client, hi.server, hi.both, hi.early, hi.ready, hi.closed, hi.listed,
      hi.done, hi.respond, hi.shut⟩
  next =>
    rcases hi with hi | hi
    · exact Or.inl ⟨hi.executed, hi.frees, by rw [hr]; exact hi.count, hi.holder, hi.ready, hi.listed⟩
    · exact Or.inr ⟨hi.executed, by rw [hr]; exact hi.count, hi.holder, hi.ready, hi.frees, hi.failed, hi.listed⟩

theorem inv_read (s : St) (f : Core → Out) (hf : ∀ c, isRes (f c) = false) (h : Inv s)
    (ha : s.api = true ∧ s.connAlive = true) : Inv (s.read f) := by
  rw [St.read, if_neg (by rw [ha.1]; simp)]
  split
  next => exact inv_tell rfl h
  next hr =>
    rw [if_neg (by rw [ha.2]; simp)]
    have hr : s.apiReady = true := by simpa using hr
    have hc : ∃ c, s.core = some c ∧ Live s c := by
      obtain ⟨_, hi⟩ := h
      split at hi
      next c hc => exact ⟨c, hc, hi⟩
      next =>
        rcases hi with hi | hi
        · rw [hi.ready] at hr; cases hr
        · rw [hi.ready ha.1] at hr; cases hr
    obtain ⟨c, hc, hl⟩ := hc
    rw [St.withCore, hc]
    dsimp only
    rw [if_pos (hl.ready hr)]
    exact inv_tell (hf c) h

theorem inv_step (s : St) (op : Op) (h : Inv s) (ha : Ok s op) : Inv (step s op) := by
  cases op with
  | execute f mem mem' => exact inv_execute s f mem mem' h ha
  | take =>
    show Inv (if s.holder = .queue then { s with holder := .handler } else s)
    split
    next hq =>
      obtain ⟨c, hc, hl⟩ := core_of_holder h (by rw [hq]; simp) (by rw [hq]; simp)
      exact inv_holder h.1 hc hl (by rw [hq]; simp) (by rw [hq]; simp) (by simp) (by simp) (by simp)
    next => exact h
  | listenerStop mem =>
    show Inv (if s.holder = .queue then { s.sendError 163 (some unavailable) mem with holder := .lost } else s)
    split
    next hq =>
      obtain ⟨c, hc, hl⟩ := core_of_holder h (by rw [hq]; simp) (by rw [hq]; simp)
      rw [St.sendError, St.withCore, hc]
      dsimp only
      rw [St.lose]
      have := live_resolve (c' := { c with code := 163, payload := if mem then some unavailable else none, responseReady := true })
        (l := s.leaked + (if c.payload.isSome then 1 else 0)) Ec.ok h.1 hl rfl rfl rfl rfl rfl
      obtain ⟨hi, hh, hy⟩ := this
      generalize ({ s with leaked := s.leaked + (if c.payload.isSome then 1 else 0) } : St).resolve _ Ec.ok = x at hi hh hy ⊢
      obtain ⟨c2, hc2, hl2⟩ := core_of_holder hi (by rw [hh, hq]; simp) (by rw [hh, hq]; simp)
      exact inv_holder hi.1 hc2 hl2 (by rw [hh, hq]; simp) (by rw [hh, hq]; simp) (by simp) (by simp) (fun _ => hy c2 hc2)
    next => exact h
  | setCode v =>
    show Inv (s.asHandler _)
    rw [St.asHandler]
    split
    next hq =>
      obtain ⟨c, hc, hl⟩ := core_of_holder h (by rw [hq]; simp) (by rw [hq]; simp)
      rw [St.withCore, hc]
      exact inv_of_live h.1 rfl (live_same (l := s.leaked) hl rfl rfl rfl rfl rfl)
    next => exact h
  | setFormat v =>
    show Inv (s.asHandler _)
    rw [St.asHandler]
    split
    next hq =>
      obtain ⟨c, hc, hl⟩ := core_of_holder h (by rw [hq]; simp) (by rw [hq]; simp)
      rw [St.withCore, hc]
      exact inv_of_live h.1 rfl (live_same (l := s.leaked) hl rfl rfl rfl rfl rfl)
    next => exact h
  | setPayload d mem =>
    show Inv (s.asHandler _)
    rw [St.asHandler]
    split
    next hq =>
      obtain ⟨c, hc, hl⟩ := core_of_holder h (by rw [hq]; simp) (by rw [hq]; simp)
      rw [St.withCore, hc]
      exact inv_of_live (s := { s with core := _, leaked := _ }) h.1 rfl (live_same (l := s.leaked + (if c.payload.isSome then 1 else 0)) hl rfl rfl rfl rfl rfl)
    next => exact h
  | ready =>
    show Inv (s.asHandler _)
    rw [St.asHandler]
    split
    next hq =>
      obtain ⟨c, hc, hl⟩ := core_of_holder h (by rw [hq]; simp) (by rw [hq]; simp)
      rw [St.withCore, hc]
      dsimp only
      split
      next => exact h
      next => exact (live_resolve (c' := { c with responseReady := true }) (l := s.leaked) Ec.ok h.1 hl rfl rfl rfl rfl rfl).1
    next => exact h
  | error v d mem =>
    show Inv (s.asHandler _)
    rw [St.asHandler]
    split
    next hq =>
      obtain ⟨c, hc, hl⟩ := core_of_holder h (by rw [hq]; simp) (by rw [hq]; simp)
      rw [St.sendError, St.withCore, hc]
      cases d with
      | none =>
        exact (live_resolve (c' := { c with code := v, responseReady := true })
          (l := s.leaked) Ec.ok h.1 hl rfl rfl rfl rfl rfl).1
      | some d =>
      exact (live_resolve (c' := { c with code := v, payload := if mem then some d else none, responseReady := true })
        (l := s.leaked + (if c.payload.isSome then 1 else 0)) Ec.ok h.1 hl rfl rfl rfl rfl rfl).1
    next => exact h
  | serverFree =>
    show Inv (s.asHandler _)
    rw [St.asHandler]
    split
    next hq =>
      obtain ⟨c, hc, hl⟩ := core_of_holder h (by rw [hq]; simp) (by rw [hq]; simp)
      rw [St.serverFree, St.withCore, hc]
      dsimp only
      split
      next hcf =>
        have hapi : s.api = false := by have := hl.client; rw [hcf] at this; simpa using this
        have hres := hl.early hapi
        have hbad := h.1
        have hcount : resolutions s = 1 := by rw [hl.count, hres]; rfl
        rw [St.doFree]
        dsimp only
        have hcl := hl.closed
        cases hca : s.connAlive with
        | true =>
          rw [hca] at hcl
          rw [if_neg (by rw [hcl]; simp), if_pos rfl]
          exact ⟨hbad, Or.inr ⟨hl.executed, hcount, Or.inr rfl, (fun hx => by rw [show s.api = true from hx] at hapi; cases hapi),
            (by show s.frees + 1 = _; rw [hl.frees]; simp [hapi]), (fun hx => by cases hx), rfl⟩⟩
        | false =>
          rw [hca] at hcl
          rw [if_pos (by rw [hcl]; rfl)]
          exact ⟨hbad, Or.inr ⟨hl.executed, hcount, Or.inr rfl, (fun hx => by rw [show s.api = true from hx] at hapi; cases hapi),
            (by show s.frees + 1 = _; rw [hl.frees]; simp [hapi]), (fun hx => by cases hx), (hl.listed.trans hca)⟩⟩
      next hcf =>
        refine inv_of_live (c := { c with serverFreed := true }) h.1 rfl
          ⟨hl.executed, hl.frees, hl.count, hl.client, ⟨fun _ => Or.inl rfl, fun _ => rfl⟩, fun hx => hcf hx.1, hl.early, hl.ready, hl.closed,
           hl.listed, (by rintro (hx | hx) <;> cases hx), hl.respond, hl.shut⟩
    next => exact h
  | getCode => exact inv_read s _ (fun _ => rfl) h ha
  | getFormat => exact inv_read s _ (fun _ => rfl) h ha
  | getPayload => exact inv_read s _ (fun c => by split <;> rfl) h ha
  | apiFree =>
    obtain ⟨ha, hx⟩ := ha
    show Inv s.apiFree
    rw [St.apiFree, if_neg (by rw [ha]; simp)]
    obtain ⟨hb, hi⟩ := h
    dsimp only
    rcases opt_cases s.core with hc | ⟨c, hc⟩
    · rw [hc] at hi
      rw [if_neg (by rw [hc]; simp)]
      refine ⟨hb, ?_⟩
      show match s.core with | some c => Live { s with api := false } c | none => Fresh { s with api := false } ∨ Gone { s with api := false }
      rw [hc]
      rcases hi with hi | hi
      · exact Or.inl ⟨hi.executed, hi.frees, hi.count, hi.holder, hi.ready, hi.listed⟩
      · have hf : s.frees = 0 := by have := hi.frees; rw [if_pos (Or.inl ha)] at this; exact this
        exact Or.inr ⟨hi.executed, hi.count, hi.holder, (fun h => by cases h), (by show s.frees = if _ ∨ s.frees = 0 then _ else _; rw [if_pos (Or.inr hf)]; exact hf), hi.failed, hi.listed⟩
    · rw [hc] at hi
      have hl : Live s c := hi
      rw [if_pos (by rw [hc]; rfl), St.clientFree, St.withCore]
      show Inv (match s.core with | none => _ | some c => _)
      rw [hc]
      dsimp only
      have hres : resolutions s = 1 := hx hl.executed
      have hr : c.resolved = true := by
        have := hl.count
        rw [hres] at this
        cases h6 : c.resolved with
        | true => rfl
        | false => rw [h6] at this; cases this
      split
      next hsf =>
        rw [St.doFree]
        dsimp only
        have hcl := hl.closed
        have hh : s.holder = .nobody ∨ s.holder = .released := (hl.server.1 hsf).symm
        cases hca : s.connAlive with
        | true =>
          rw [hca] at hcl
          rw [if_neg (by rw [hcl]; simp), if_pos rfl]
          exact ⟨hb, Or.inr ⟨hl.executed, hres, hh, (fun hx => by cases hx),
            (by show s.frees + 1 = _; rw [hl.frees]; simp), (fun hx => by cases hx), rfl⟩⟩
        | false =>
          rw [hca] at hcl
          rw [if_pos (by rw [hcl]; rfl)]
          exact ⟨hb, Or.inr ⟨hl.executed, hres, hh, (fun hx => by cases hx),
            (by show s.frees + 1 = _; rw [hl.frees]; simp), (fun hx => by cases hx), (hl.listed.trans hca)⟩⟩
      next hsf =>
        exact inv_of_live (c := { c with clientFreed := true }) hb rfl
          ⟨hl.executed, hl.frees, hl.count, rfl, hl.server, fun hx => hsf hx.2, fun _ => hr, hl.ready, hl.closed, hl.listed,
           hl.done, hl.respond, hl.shut⟩
  | connClosed =>
    show Inv s.connClosed
    rw [St.connClosed]
    obtain ⟨hb, hi⟩ := h
    rcases opt_cases s.core with hc | ⟨c, hc⟩
    · rw [hc] at hi ⊢
      dsimp only
      refine ⟨hb, ?_⟩
      show match (none : Option Core) with | some c => Live { s with connAlive := false, listed := false, core := none } c | none => Fresh { s with connAlive := false, listed := false, core := none } ∨ Gone { s with connAlive := false, listed := false, core := none }
      rcases hi with hi | hi
      · exact Or.inl ⟨hi.executed, hi.frees, hi.count, hi.holder, hi.ready, rfl⟩
      · exact Or.inr ⟨hi.executed, hi.count, hi.holder, hi.ready, hi.frees, hi.failed, rfl⟩
    · rw [hc] at hi ⊢
      have hl : Live s c := hi
      dsimp only
      split
      next hli =>
        have hca : s.connAlive = true := hl.listed.symm.trans hli
        rw [St.resolve]
        split
        next h6 =>
          exact inv_of_live (c := { c with connectionClosed := true }) hb rfl
            ⟨hl.executed, hl.frees, hl.count, hl.client, hl.server, hl.both, hl.early, hl.ready, rfl, rfl, hl.done, hl.respond, fun _ => h6⟩
        next h6 =>
          have h6 : c.resolved = false := by simpa using h6
          have ha : s.api = true := by
            cases ha : s.api with
            | true => rfl
            | false => rw [hl.early ha] at h6; cases h6
          rw [St.onResponse, if_pos ha]
          have hcount := hl.count
          rw [h6] at hcount
          have hn : c.responseReady = true → c.resolved = true := hl.respond
          refine inv_of_live (c := { c with connectionClosed := true, resolved := true }) hb rfl
            ⟨hl.executed, hl.frees, ?_, hl.client, hl.server, hl.both, fun _ => rfl, ?_, rfl, rfl, fun _ => rfl, fun _ => rfl, fun _ => rfl⟩
          · rw [res_tell]; show resolutions s + 1 = _; rw [hcount]; rfl
          · intro hx
            have hx : (s.apiReady || (Ec.stopped == Ec.ok)) = true := hx
            refine hl.ready ?_
            cases hy : s.apiReady with
            | true => rfl
            | false => rw [hy] at hx; cases hx
      next hli =>
        have hca : s.connAlive = false := hl.listed.symm.trans (by simpa using hli)
        refine inv_of_live (c := c) hb rfl
          ⟨hl.executed, hl.frees, hl.count, hl.client, hl.server, hl.both, hl.early, hl.ready, hl.closed.trans (by rw [hca]), rfl, hl.done, hl.respond, fun _ => hl.shut hca⟩

/-- The fields an operation other than their own leaves alone. -/
def Frame (s s' : St) : Prop := s'.api = s.api ∧ s'.connAlive = s.connAlive ∧ s'.executed = s.executed

theorem frame_resolve (s : St) (c : Core) (e : Ec) : Frame s (s.resolve c e) := by
  rw [St.resolve]
  split
  · exact ⟨rfl, rfl, rfl⟩
  · rw [St.onResponse]
    split <;> exact ⟨rfl, rfl, rfl⟩

theorem frame_sendError (s : St) (c : UInt8) (d : Option (List UInt8)) (mem : Bool) : Frame s (s.sendError c d mem) := by
  rw [St.sendError, St.withCore]
  split
  · exact ⟨rfl, rfl, rfl⟩
  · cases d with
    | none => exact frame_resolve s _ _
    | some d => exact frame_resolve (s.lose _) _ _

theorem frame_doFree (s : St) (c : Core) : Frame s (s.doFree c) := by
  rw [St.doFree]
  split
  · exact ⟨rfl, rfl, rfl⟩
  · split <;> exact ⟨rfl, rfl, rfl⟩

theorem frame_serverFree (s : St) : Frame s s.serverFree := by
  rw [St.serverFree, St.withCore]
  split
  · exact ⟨rfl, rfl, rfl⟩
  · dsimp only
    split
    · exact frame_doFree { s with core := _ } _
    · exact ⟨rfl, rfl, rfl⟩

theorem frame_clientFree (s : St) : Frame s s.clientFree := by
  rw [St.clientFree, St.withCore]
  split
  · exact ⟨rfl, rfl, rfl⟩
  · dsimp only
    split
    · exact frame_doFree { s with core := _ } _
    · exact ⟨rfl, rfl, rfl⟩

theorem frame_read (s : St) (f : Core → Out) : Frame s (s.read f) := by
  rw [St.read]
  split
  · exact ⟨rfl, rfl, rfl⟩
  · split
    · exact ⟨rfl, rfl, rfl⟩
    · split
      · exact ⟨rfl, rfl, rfl⟩
      · rw [St.withCore]
        split <;> exact ⟨rfl, rfl, rfl⟩

theorem frame_asHandler (s : St) (f : St → St) (h : Frame s (f s)) : Frame s (s.asHandler f) := by
  rw [St.asHandler]
  split
  · exact h
  · exact ⟨rfl, rfl, rfl⟩

theorem frame_withCore (s : St) (f : Core → St) (h : ∀ c, Frame s (f c)) : Frame s (s.withCore f) := by
  rw [St.withCore]
  split
  · exact ⟨rfl, rfl, rfl⟩
  · exact h _

theorem frame_step (s : St) (op : Op) :
    (op ≠ .apiFree → (step s op).api = s.api) ∧ (op ≠ .connClosed → (step s op).connAlive = s.connAlive) ∧
    (isExecute op = false → (step s op).executed = s.executed) := by
  have of : Frame s (step s op) → (op ≠ .apiFree → (step s op).api = s.api) ∧
      (op ≠ .connClosed → (step s op).connAlive = s.connAlive) ∧
      (isExecute op = false → (step s op).executed = s.executed) := fun h => ⟨fun _ => h.1, fun _ => h.2.1, fun _ => h.2.2⟩
  cases op with
  | execute f mem mem' =>
    show (_ → (s.execute f mem mem').api = _) ∧ (_ → (s.execute f mem mem').connAlive = _) ∧ _
    have : (s.execute f mem mem').api = s.api ∧ (s.execute f mem mem').connAlive = s.connAlive := by
      rw [St.execute]
      split
      · exact ⟨rfl, rfl⟩
      · split
        · exact ⟨rfl, rfl⟩
        · dsimp only
          cases f with
          | notFound =>
            have := frame_sendError { s with executed := true, core := some { Core.new with serverFreed := true }, listed := true } 132 notFoundText mem'
            exact ⟨this.1, this.2.1⟩
          | refused =>
            have h1 := frame_sendError { s with executed := true, core := some Core.new, listed := true } 160 insufficient mem'
            have h2 := frame_serverFree ({ s with executed := true, core := some Core.new, listed := true }.sendError 160 (some insufficient) mem')
            exact ⟨h2.1.trans h1.1, h2.2.1.trans h1.2.1⟩
          | queue => exact ⟨rfl, rfl⟩
          | handler => exact ⟨rfl, rfl⟩
    exact ⟨fun _ => this.1, fun _ => this.2, fun h => by cases h⟩
  | take =>
    refine of ?_
    rw [step]
    split <;> exact ⟨rfl, rfl, rfl⟩
  | listenerStop mem =>
    refine of ?_
    rw [step]
    split
    · have := frame_sendError s 163 (some unavailable) mem
      exact ⟨this.1, this.2.1, this.2.2⟩
    · exact ⟨rfl, rfl, rfl⟩
  | setCode v => exact of (frame_asHandler s _ (frame_withCore s _ fun c => ⟨rfl, rfl, rfl⟩))
  | setPayload d mem => exact of (frame_asHandler s _ (frame_withCore s _ fun c => ⟨rfl, rfl, rfl⟩))
  | setFormat v => exact of (frame_asHandler s _ (frame_withCore s _ fun c => ⟨rfl, rfl, rfl⟩))
  | ready =>
    refine of (frame_asHandler s _ (frame_withCore s _ fun c => ?_))
    split
    · exact ⟨rfl, rfl, rfl⟩
    · exact frame_resolve s _ _
  | error v d mem => exact of (frame_asHandler s _ (frame_sendError s v d mem))
  | serverFree =>
    refine of (frame_asHandler s _ ?_)
    have := frame_serverFree s
    exact ⟨this.1, this.2.1, this.2.2⟩
  | getCode => exact of (frame_read s _)
  | getFormat => exact of (frame_read s _)
  | getPayload => exact of (frame_read s _)
  | apiFree =>
    have : s.apiFree.connAlive = s.connAlive ∧ s.apiFree.executed = s.executed := by
      rw [St.apiFree]
      split
      · exact ⟨rfl, rfl⟩
      · dsimp only
        split
        · exact (frame_clientFree { s with api := false }).2
        · exact ⟨rfl, rfl⟩
    exact ⟨fun h => absurd rfl h, fun _ => this.1, fun _ => this.2⟩
  | connClosed =>
    have : s.connClosed.api = s.api ∧ s.connClosed.executed = s.executed := by
      rw [St.connClosed]
      split
      · split
        · have := frame_resolve { s with connAlive := false, listed := false } { ‹Core› with connectionClosed := true } .stopped
          exact ⟨this.1, this.2.2⟩
        · exact ⟨rfl, rfl⟩
      · exact ⟨rfl, rfl⟩
    exact ⟨fun _ => this.1, fun h => absurd rfl h, fun _ => this.2⟩

theorem api_of (ops : List Op) (h : .apiFree ∉ ops) : (run ops).api = true := by
  induction ops using run_ind with
  | h0 => rfl
  | hs ops op ih =>
    rw [List.mem_append] at h
    rw [run_snoc, (frame_step _ _).1 (fun e => h (Or.inr (by rw [e]; exact List.mem_singleton.2 rfl)))]
    exact ih fun hm => h (Or.inl hm)

theorem alive_of (ops : List Op) (h : .connClosed ∉ ops) : (run ops).connAlive = true := by
  induction ops using run_ind with
  | h0 => rfl
  | hs ops op ih =>
    rw [List.mem_append] at h
    rw [run_snoc, (frame_step _ _).2.1 (fun e => h (Or.inr (by rw [e]; exact List.mem_singleton.2 rfl)))]
    exact ih fun hm => h (Or.inl hm)

theorem executed_of (ops : List Op) (h : ∀ o ∈ ops, isExecute o = false) : (run ops).executed = false := by
  induction ops using run_ind with
  | h0 => rfl
  | hs ops op ih =>
    rw [run_snoc, (frame_step _ _).2.2 (h op (List.mem_append.2 (Or.inr (List.mem_singleton.2 rfl))))]
    exact ih fun o ho => h o (List.mem_append.2 (Or.inl ho))

theorem ok_of_allowed {ops : List Op} {op : Op} (h : Allowed ops op) : Ok (run ops) op := by
  cases op with
  | execute f mem mem' => exact ⟨executed_of _ h.1, alive_of _ h.2.1, api_of _ h.2.2⟩
  | getCode => exact ⟨api_of _ h.1, alive_of _ h.2⟩
  | getFormat => exact ⟨api_of _ h.1, alive_of _ h.2⟩
  | getPayload => exact ⟨api_of _ h.1, alive_of _ h.2⟩
  | apiFree =>
    refine ⟨api_of _ h.1, fun hx => h.2 ?_⟩
    by_cases hn : ∃ o ∈ ops, isExecute o = true
    · exact hn
    · rw [executed_of ops (fun o ho => by
        cases hi : isExecute o with
        | false => rfl
        | true => exact absurd ⟨o, ho, hi⟩ hn)] at hx
      cases hx
  | take => trivial
  | listenerStop => trivial
  | setCode => trivial
  | setPayload => trivial
  | setFormat => trivial
  | ready => trivial
  | error => trivial
  | serverFree => trivial
  | connClosed => trivial

theorem executed_execute (s : St) (f : Found) (mem mem' : Bool) (h : Ok s (.execute f mem mem')) :
    (s.execute f mem mem').executed = true := by
  obtain ⟨h1, h2, h3⟩ := h
  rw [St.execute, if_neg (by rw [h1, h2, h3]; simp)]
  split
  · rfl
  · cases f with
    | notFound => exact (frame_sendError { s with executed := true, core := some { Core.new with serverFreed := true }, listed := true } 132 (some notFoundText) mem').2.2
    | refused =>
      have h1 := frame_sendError { s with executed := true, core := some Core.new, listed := true } 160 (some insufficient) mem'
      have h2 := frame_serverFree ({ s with executed := true, core := some Core.new, listed := true }.sendError 160 (some insufficient) mem')
      exact h2.2.2.trans h1.2.2
    | queue => rfl
    | handler => rfl

theorem executed_has (ops : List Op) (h : Polite ops) (hx : ∃ o ∈ ops, isExecute o = true) : (run ops).executed = true := by
  induction ops using run_ind with
  | h0 => obtain ⟨o, ho, -⟩ := hx; cases ho
  | hs ops op ih =>
    obtain ⟨h1, h2⟩ := polite_init h
    rw [run_snoc]
    cases he : isExecute op with
    | true =>
      cases op with
      | execute f mem mem' => exact executed_execute _ _ _ _ (ok_of_allowed h2)
      | _ => cases he
    | false =>
      rw [(frame_step _ _).2.2 he]
      obtain ⟨o, ho, hb⟩ := hx
      rcases List.mem_append.1 ho with ho | ho
      · exact ih h1 ⟨o, ho, hb⟩
      · rw [List.mem_singleton.1 ho, he] at hb; cases hb

theorem inv_run (ops : List Op) (h : Polite ops) : Inv (run ops) := by
  induction ops using run_ind with
  | h0 => exact inv_init
  | hs ops op ih =>
    obtain ⟨h1, h2⟩ := polite_init h
    rw [run_snoc]
    exact inv_step _ _ (ih h1) (ok_of_allowed h2)

theorem api_gone (ops : List Op) (h : .apiFree ∈ ops) : (run ops).api = false := by
  induction ops using run_ind with
  | h0 => cases h
  | hs ops op ih =>
    rw [run_snoc]
    by_cases hop : op = .apiFree
    · subst hop
      show (run ops).apiFree.api = false
      rw [St.apiFree]
      split
      next hx => simpa using hx
      next hx =>
        dsimp only
        split
        · exact (frame_clientFree { run ops with api := false }).1
        · rfl
    · rw [(frame_step _ _).1 hop]
      rcases List.mem_append.1 h with h | h
      · exact ih h
      · exact absurd (List.mem_singleton.1 h).symm hop

theorem alive_gone (ops : List Op) (h : .connClosed ∈ ops) : (run ops).connAlive = false := by
  induction ops using run_ind with
  | h0 => cases h
  | hs ops op ih =>
    rw [run_snoc]
    by_cases hop : op = .connClosed
    · subst hop
      show (run ops).connClosed.connAlive = false
      rw [St.connClosed]
      split
      · split
        · exact (frame_resolve { run ops with connAlive := false, listed := false } _ _).2.1
        · rfl
      · rfl
    · rw [(frame_step _ _).2.1 hop]
      rcases List.mem_append.1 h with h | h
      · exact ih h
      · exact absurd (List.mem_singleton.1 h).symm hop

/-- The response is ready for the client exactly when its future was resolved with success. -/
def Told (s : St) : Prop := s.apiReady = true ↔ .resolved .ok ∈ s.out

theorem told_tell {s : St} {o : Out} (ho : isRes o = false) (h : Told s) : Told (s.tell o) := by
  unfold Told St.tell
  rw [List.mem_append, List.mem_singleton]
  exact h.trans ⟨Or.inl, fun hx => hx.elim id fun e => by rw [← e] at ho; cases ho⟩

theorem told_resolve {s : St} (c : Core) (e : Ec) (h : Told s) : Told (s.resolve c e) := by
  rw [St.resolve]
  split
  · exact h
  · rw [St.onResponse]
    split
    · unfold Told St.tell
      dsimp only
      rw [List.mem_append, List.mem_singleton, ← show s.apiReady = true ↔ .resolved .ok ∈ s.out from h]
      cases e <;> simp
    · exact h

theorem told_sendError {s : St} (c : UInt8) (d : Option (List UInt8)) (mem : Bool) (h : Told s) : Told (s.sendError c d mem) := by
  rw [St.sendError, St.withCore]
  split
  · exact h
  · cases d with
    | none => exact told_resolve _ _ h
    | some d => exact told_resolve (s := s.lose _) _ _ h

theorem told_doFree {s : St} (c : Core) (h : Told s) : Told (s.doFree c) := by
  rw [St.doFree]
  split
  · exact h
  · split <;> exact h

theorem told_serverFree {s : St} (h : Told s) : Told s.serverFree := by
  rw [St.serverFree, St.withCore]
  split
  · exact h
  · dsimp only
    split
    · exact told_doFree (s := { s with core := _ }) _ h
    · exact h

theorem told_clientFree {s : St} (h : Told s) : Told s.clientFree := by
  rw [St.clientFree, St.withCore]
  split
  · exact h
  · dsimp only
    split
    · exact told_doFree (s := { s with core := _ }) _ h
    · exact h

theorem told_read {s : St} (f : Core → Out) (hf : ∀ c, isRes (f c) = false) (h : Told s) : Told (s.read f) := by
  rw [St.read]
  split
  · exact h
  · split
    · exact told_tell rfl h
    · split
      · exact h
      · rw [St.withCore]
        split
        · exact h
        · refine told_tell ?_ h
          split
          · exact hf _
          · rfl

theorem told_asHandler {s : St} (f : St → St) (h : Told s) (hf : Told (f s)) : Told (s.asHandler f) := by
  rw [St.asHandler]
  split
  · exact hf
  · exact h

theorem told_withCore {s : St} (f : Core → St) (h : Told s) (hf : ∀ c, Told (f c)) : Told (s.withCore f) := by
  rw [St.withCore]
  split
  · exact h
  · exact hf _

theorem told_step (s : St) (op : Op) (h : Told s) : Told (step s op) := by
  cases op with
  | execute f mem mem' =>
    show Told (s.execute f mem mem')
    rw [St.execute]
    split
    · exact h
    · split
      · unfold Told St.tell
        dsimp only
        rw [List.mem_append, List.mem_singleton, ← show s.apiReady = true ↔ .resolved .ok ∈ s.out from h]
        simp
      · cases f with
        | notFound => exact told_sendError (s := { s with executed := true, core := _, listed := true }) _ _ _ h
        | refused =>
          exact told_serverFree (told_sendError (s := { s with executed := true, core := _, listed := true }) _ _ _ h)
        | queue => exact h
        | handler => exact h
  | take => rw [step]; split <;> exact h
  | listenerStop mem =>
    rw [step]
    split
    · exact told_sendError (s := s) 163 (some unavailable) mem h
    · exact h
  | setCode v => exact told_asHandler _ h (told_withCore _ h fun _ => h)
  | setPayload d mem => exact told_asHandler _ h (told_withCore _ h fun _ => h)
  | setFormat v => exact told_asHandler _ h (told_withCore _ h fun _ => h)
  | ready =>
    refine told_asHandler _ h (told_withCore _ h fun c => ?_)
    split
    · exact h
    · exact told_resolve _ _ h
  | error v d mem => exact told_asHandler _ h (told_sendError _ _ _ h)
  | serverFree => exact told_asHandler _ h (told_serverFree h)
  | getCode => exact told_read _ (fun _ => rfl) h
  | getFormat => exact told_read _ (fun _ => rfl) h
  | getPayload => exact told_read _ (fun c => by split <;> rfl) h
  | apiFree =>
    show Told s.apiFree
    rw [St.apiFree]
    split
    · exact h
    · dsimp only
      split
      · exact told_clientFree (s := { s with api := false }) h
      · exact h
  | connClosed =>
    show Told s.connClosed
    rw [St.connClosed]
    split
    · split
      · exact told_resolve (s := { s with connAlive := false, listed := false }) _ _ h
      · exact h
    · exact h

theorem told_run (ops : List Op) : Told (run ops) := by
  induction ops using run_ind with
  | h0 => exact Iff.intro (fun h => by cases h) (fun h => by cases h)
  | hs ops op ih => rw [run_snoc]; exact told_step _ _ ih

/-- The request in the core has the response. -/
def Has (r : Response) (s : St) : Prop := ∀ c, s.core = some c → c.code = r.code ∧ c.format = r.format ∧ c.payload = r.payload

theorem has_resolve {s : St} {c : Core} {e : Ec} {r : Response} (h : c.code = r.code ∧ c.format = r.format ∧ c.payload = r.payload) :
    Has r (s.resolve c e) := by
  intro c2 h2
  rw [St.resolve] at h2
  split at h2
  · injection h2 with h2; rw [← h2]; exact h
  · rw [St.onResponse] at h2
    split at h2 <;> · injection h2 with h2; rw [← h2]; exact h

theorem has_doFree (s : St) (c : Core) (r : Response) : Has r (s.doFree c) := by
  intro c2 h2
  rw [St.doFree] at h2
  cases h2

theorem response_snoc (ops : List Op) (op : Op) : response (ops ++ [op]) = (response ops).after op := by
  rw [response, List.foldl_append]; rfl

theorem has_serverFree {s : St} {r : Response} (h : Has r s) : Has r s.serverFree := by
  rw [St.serverFree, St.withCore]
  rcases opt_cases s.core with hc | ⟨c, hc⟩
  · rw [hc]; intro c2 h2; cases h2
  · rw [hc]
    dsimp only
    split
    · exact has_doFree _ _ _
    · intro c2 h2; injection h2 with h2; rw [← h2]; exact h c hc

theorem has_clientFree {s : St} {r : Response} (h : Has r s) : Has r s.clientFree := by
  rw [St.clientFree, St.withCore]
  rcases opt_cases s.core with hc | ⟨c, hc⟩
  · rw [hc]; intro c2 h2; cases h2
  · rw [hc]
    dsimp only
    split
    · exact has_doFree _ _ _
    · intro c2 h2; injection h2 with h2; rw [← h2]; exact h c hc

theorem has_read {s : St} {r : Response} (f : Core → Out) (h : Has r s) : Has r (s.read f) := by
  rw [St.read]
  split
  · exact h
  · split
    · exact h
    · split
      · exact h
      · rw [St.withCore]
        rcases opt_cases s.core with hc | ⟨c, hc⟩
        · rw [hc]; intro c2 h2; cases h2
        · rw [hc]; dsimp only; intro c2 h2; exact h c2 h2

theorem has_sendError {s : St} {r : Response} (v : UInt8) (d : List UInt8) (mem : Bool) (h : Has r s) :
    Has { r with code := v, payload := if mem then some d else none } (s.sendError v (some d) mem) := by
  rw [St.sendError, St.withCore]
  rcases opt_cases s.core with hc | ⟨c, hc⟩
  · rw [hc]; intro c2 h2; cases h2
  · rw [hc]
    exact has_resolve ⟨rfl, (h c hc).2.1, rfl⟩

theorem response_fresh (ops : List Op) (hp : Polite ops) (hh : Handled ops) (he : (run ops).executed = false) :
    response ops = ⟨0, 0, none⟩ := by
  induction ops using run_ind with
  | h0 => rfl
  | hs ops op ih =>
    obtain ⟨hp1, hp2⟩ := polite_init hp
    have hh1 : Handled ops := fun b o a e => hh b o (a ++ [op]) (by rw [e, List.append_assoc]; rfl)
    have hok := ok_of_allowed hp2
    have hi := inv_run ops hp1
    obtain ⟨hq, hl⟩ := hh ops op [] rfl
    rw [run_snoc] at he
    cases hx : isExecute op with
    | true =>
      cases op with
      | execute f mem mem' => rw [show step (run ops) (.execute f mem mem') = (run ops).execute f mem mem' from rfl, executed_execute _ _ _ _ hok] at he; cases he
      | _ => cases hx
    | false =>
      rw [(frame_step _ _).2.2 hx] at he
      have no : (run ops).holder = .handler ∨ (run ops).holder = .queue → False := by
        intro h
        obtain ⟨c, -, hl⟩ := core_of_holder hi (by rcases h with h | h <;> rw [h] <;> simp) (by rcases h with h | h <;> rw [h] <;> simp)
        rw [hl.executed] at he; cases he
      rw [response_snoc, ih hp1 hh1 he]
      cases op with
      | execute => cases hx
      | listenerStop mem => exact (no (Or.inr (hl mem rfl))).elim
      | setCode => exact (no (Or.inl (hq rfl))).elim
      | setPayload => exact (no (Or.inl (hq rfl))).elim
      | setFormat => exact (no (Or.inl (hq rfl))).elim
      | error => exact (no (Or.inl (hq rfl))).elim
      | _ => rfl

theorem has_run (ops : List Op) (hp : Polite ops) (hh : Handled ops) : Has (response ops) (run ops) := by
  induction ops using run_ind with
  | h0 => intro c hc; cases hc
  | hs ops op ih =>
    obtain ⟨hp1, hp2⟩ := polite_init hp
    have hh1 : Handled ops := fun b o a e => hh b o (a ++ [op]) (by rw [e, List.append_assoc]; rfl)
    have ih := ih hp1 hh1
    have hi := inv_run ops hp1
    obtain ⟨hq, hl⟩ := hh ops op [] rfl
    have hok := ok_of_allowed hp2
    have hf := response_fresh ops hp1 hh1
    rw [run_snoc, response_snoc]
    clear hp hh hp1 hp2 hh1
    generalize run ops = s at *
    generalize response ops = r at *
    cases op with
    | execute f mem mem' =>
      obtain ⟨h1, h2, h3⟩ := hok
      rw [hf h1]
      show Has _ (s.execute f mem mem')
      have h0 : s.core = none := by
        rcases opt_cases s.core with hc | ⟨c, hc⟩
        · exact hc
        · have := hi.2
          rw [hc] at this
          have : Live s c := this
          rw [this.executed] at h1; cases h1
      rw [St.execute, if_neg (by rw [h1, h2, h3]; simp)]
      cases mem with
      | false =>
        intro c2 hc2
        have hc2 : s.core = some c2 := hc2
        rw [h0] at hc2; cases hc2
      | true =>
        rw [if_neg (by simp)]
        dsimp only
        have new : ∀ (s : St) (c : Core), s.core = some c → c.code = 0 → c.format = 0 → c.payload = none → Has ⟨0, 0, none⟩ s := by
          intro s c hc e1 e2 e3 c2 h2
          rw [hc] at h2; injection h2 with h2; rw [← h2]; exact ⟨e1, e2, e3⟩
        cases f with
        | notFound => exact has_sendError 132 notFoundText mem' (new _ _ rfl rfl rfl rfl)
        | refused => exact has_serverFree (has_sendError 160 insufficient mem' (new _ _ rfl rfl rfl rfl))
        | queue => exact new _ _ rfl rfl rfl rfl
        | handler => exact new _ _ rfl rfl rfl rfl
    | take => rw [step]; split <;> exact ih
    | listenerStop mem =>
      rw [step, if_pos (hl mem rfl)]
      exact has_sendError 163 unavailable mem ih
    | setCode v =>
      show Has _ (s.asHandler _)
      rw [St.asHandler, if_pos (hq rfl)]
      obtain ⟨c, hc, -⟩ := core_of_holder hi (by rw [hq rfl]; simp) (by rw [hq rfl]; simp)
      rw [St.withCore, hc]
      intro c2 h2; injection h2 with h2; rw [← h2]; exact ⟨rfl, (ih c hc).2⟩
    | setPayload d mem =>
      show Has _ (s.asHandler _)
      rw [St.asHandler, if_pos (hq rfl)]
      obtain ⟨c, hc, -⟩ := core_of_holder hi (by rw [hq rfl]; simp) (by rw [hq rfl]; simp)
      rw [St.withCore, hc]
      intro c2 h2; injection h2 with h2; rw [← h2]; exact ⟨(ih c hc).1, (ih c hc).2.1, rfl⟩
    | setFormat v =>
      show Has _ (s.asHandler _)
      rw [St.asHandler, if_pos (hq rfl)]
      obtain ⟨c, hc, -⟩ := core_of_holder hi (by rw [hq rfl]; simp) (by rw [hq rfl]; simp)
      rw [St.withCore, hc]
      intro c2 h2; injection h2 with h2; rw [← h2]; exact ⟨(ih c hc).1, rfl, (ih c hc).2.2⟩
    | ready =>
      show Has _ (s.asHandler _)
      rw [St.asHandler, if_pos (hq rfl)]
      obtain ⟨c, hc, -⟩ := core_of_holder hi (by rw [hq rfl]; simp) (by rw [hq rfl]; simp)
      rw [St.withCore, hc]
      dsimp only
      split
      · exact ih
      · exact has_resolve (ih c hc)
    | error v d mem =>
      show Has _ (s.asHandler _)
      rw [St.asHandler, if_pos (hq rfl)]
      cases d with
      | some d => exact has_sendError v d mem ih
      | none =>
        obtain ⟨c, hc, -⟩ := core_of_holder hi (by rw [hq rfl]; simp) (by rw [hq rfl]; simp)
        rw [St.sendError, St.withCore, hc]
        exact has_resolve ⟨rfl, (ih c hc).2⟩
    | serverFree =>
      show Has _ (s.asHandler _)
      rw [St.asHandler, if_pos (hq rfl)]
      exact has_serverFree (s := s) ih
    | getCode => exact has_read _ ih
    | getFormat => exact has_read _ ih
    | getPayload => exact has_read _ ih
    | apiFree =>
      show Has _ s.apiFree
      rw [St.apiFree]
      split
      · exact ih
      · dsimp only
        split
        · exact has_clientFree (s := { s with api := false }) ih
        · exact ih
    | connClosed =>
      show Has _ s.connClosed
      rw [St.connClosed]
      rcases opt_cases s.core with hc | ⟨c, hc⟩
      · rw [hc]; intro c2 h2; cases h2
      · rw [hc]
        dsimp only
        split
        · exact has_resolve (ih c hc)
        · exact fun c2 h2 => ih c2 (hc.trans (show some c = some c2 from h2))

/-! ### Paths -/

theorem starts_skip (g rest : List UInt8) (h : 47 ∉ g) : starts (g ++ rest) = starts rest := by
  induction g with
  | nil => rfl
  | cons c cs ih =>
    rw [List.mem_cons, not_or] at h
    rw [List.cons_append, starts, if_neg (Ne.symm h.1)]
    exact ih h.2

theorem cstr_seg (g : List UInt8) (rest : List UInt8) (h : 47 ∉ g) (h0 : 0 ∉ g) (hr : rest = [] ∨ ∃ r, rest = 47 :: r) :
    cstr ((g ++ rest).map fun d => if d = 47 then 0 else d) = g := by
  induction g with
  | nil =>
    rcases hr with rfl | ⟨r, rfl⟩
    · rfl
    · simp [cstr]
  | cons c cs ih =>
    rw [List.mem_cons, not_or] at h h0
    rw [List.cons_append, List.map_cons, if_neg (Ne.symm h.1), cstr, if_neg (Ne.symm h0.1)]
    rw [ih h.2 h0.2]

theorem starts_join (segs : List (List UInt8)) (h : ∀ g ∈ segs, 47 ∉ g ∧ 0 ∉ g) : (starts (join segs)).map cstr = segs := by
  induction segs with
  | nil => rfl
  | cons g gs ih =>
    have hg := h g List.mem_cons_self
    rw [join, starts, if_pos rfl, List.map_cons, starts_skip _ _ hg.1, ih fun x hx => h x (List.mem_cons_of_mem _ hx)]
    rw [cstr_seg g _ hg.1 hg.2]
    cases gs with
    | nil => exact Or.inl rfl
    | cons x xs => exact Or.inr ⟨x ++ join xs, rfl⟩

theorem join_append (a b : List (List UInt8)) : join (a ++ b) = join a ++ join b := by
  induction a with
  | nil => rfl
  | cons g gs ih => rw [List.cons_append, join, join, ih]; simp

end Verif.Coap.Virtual
