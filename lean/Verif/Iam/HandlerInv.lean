import Verif.Iam.HandlerStep

/-!
# The authorization handler of the IAM module — every event keeps the invariant
-/

namespace Verif.Iam.Handler

open Verif.Api Verif.Api.Auth Verif.Api.Auth.Spec Verif.Iam.Spec Verif.Iam.Handler.Spec

/-- What a call of the library leaves alone. -/
structure Called (w w' : W) (e : Auth.Ev) : Prop where
  step : Auth.step w.auth e = some w'.auth
  trace : w'.trace = w.trace ++ [e]
  pc : w'.pc = notice w.pc (w'.auth.log.drop w.auth.log.length)
  iam : w'.iam = w.iam
  conns : w'.conns = w.conns
  reqs : w'.reqs = w.reqs
  sweep : ∃ w2, w2.auth = w'.auth ∧ w2.reqs = w.reqs ∧ w2.made = w.made ∧ w2.freed = w.freed ∧ w' = Handler.sweep w w2 (subject e)

theorem sweep_eq (w w2 : W) (i : Nat) : (sweep w w2 i).auth = w2.auth ∧ (sweep w w2 i).trace = w2.trace ∧ (sweep w w2 i).pc = w2.pc ∧
    (sweep w w2 i).iam = w2.iam ∧ (sweep w w2 i).conns = w2.conns ∧ (sweep w w2 i).reqs = w2.reqs := by
  unfold sweep; split <;> simp

theorem api_called {w w' : W} {e : Auth.Ev} (h : api w e = some w') : Called w w' e := by
  unfold api at h
  cases ha : Auth.step w.auth e with
  | none => rw [ha] at h; cases h
  | some a =>
    rw [ha] at h
    simp only [Option.some.injEq] at h
    subst h
    obtain ⟨h1, h2, h3, h4, h5, h6⟩ := sweep_eq w { w with auth := a, trace := w.trace ++ [e], pc := notice w.pc (a.log.drop w.auth.log.length) } (subject e)
    exact ⟨by rw [h1, ha], h2, by rw [h3, h1], h4, h5, h6, _, h1.symm, rfl, rfl, rfl, rfl⟩

theorem api_some {w : W} {e : Auth.Ev} (h : Auth.step w.auth e ≠ none) : api w e ≠ none := by
  unfold api
  cases ha : Auth.step w.auth e with
  | none => exact absurd ha h
  | some a => simp

/-- The log grows, and the handler notices what is new. -/
theorem Called.notice {w w' : W} {e : Auth.Ev} (h : Called w w' e) {s : List Obs} (hs : w'.auth.log = w.auth.log ++ s) :
    w'.pc = Handler.notice w.pc s := by
  rw [h.pc, hs]; simp

theorem Called.memory {w w' : W} {e : Auth.Ev} (h : Called w w' e) (hm : w.made = w.freed + 3 * live w) (hn : w'.auth.next = w.auth.next)
    (hf : ∀ j, (w'.auth.reqs j).freed = (w.auth.reqs j).freed) : w'.made = w'.freed + 3 * live w' := by
  obtain ⟨w2, h1, h2, h3, h4, h5⟩ := h.sweep
  have hl : live w' = live w := live_same hn h.reqs hf
  have : w' = w2 := by
    rw [h5]; unfold Handler.sweep
    rw [h1]
    rw [if_neg]
    rw [hf]
    rintro ⟨ha, hb⟩
    rw [ha] at hb; cases hb
  rw [hl, this, h3, h4, hm]

theorem Called.memory_own {w w' : W} {e : Auth.Ev} (h : Called w w' e) (hm : w.made = w.freed + 3 * live w) (hn : w'.auth.next = w.auth.next)
    (hi : subject e < w.auth.next) (hf : ∀ j, j ≠ subject e → (w'.auth.reqs j).freed = (w.auth.reqs j).freed)
    (hmono : (w.auth.reqs (subject e)).freed = true → (w'.auth.reqs (subject e)).freed = true) : w'.made = w'.freed + 3 * live w' := by
  obtain ⟨w2, h1, h2, h3, h4, h5⟩ := h.sweep
  exact mem_sweep hm (by rw [h1, hn]) h2 (fun j hj => by rw [h1]; exact hf j hj) h3 h4 hi (by rw [h1]; exact hmono) h5

/-! ### Links -/

theorem Link.same {trace : List Auth.Ev} {hist : List Ev} (h : Link trace hist) (a : List Auth.Ev) (e : Ev)
    (hc : ∀ i, Auth.Ev.check i ∈ a ↔ e = .check i) (hd : ∀ i, Auth.Ev.discard i ∈ a ↔ e = .discard i)
    (hs : Auth.Ev.stopListener ∈ a ↔ e = .stop) (hf : Auth.Ev.freeListener ∈ a ↔ e = .deinit) : Link (trace ++ a) (hist ++ [e]) := by
  refine ⟨fun i => ?_, fun i => ?_, ?_, ?_⟩
  · rw [List.mem_append, List.mem_append, h.check, hc, List.mem_singleton, eq_comm (a := e)]
  · rw [List.mem_append, List.mem_append, h.discard, hd, List.mem_singleton, eq_comm (a := e)]
  · rw [List.mem_append, List.mem_append, h.stop, hs, List.mem_singleton, eq_comm (a := e)]
  · rw [List.mem_append, List.mem_append, h.deinit, hf, List.mem_singleton, eq_comm (a := e)]

/-! ### The handler -/

theorem Place.calm {w w' : W} {hist : List Ev} {e : Ev} (h : Place w hist) (he : e ≠ .init ∧ e ≠ .stop ∧ e ≠ .deinit)
    (hi : w'.auth.lst.initialized = w.auth.lst.initialized) (hec : w'.auth.lst.ec = w.auth.lst.ec)
    (ho : w'.pc = .off ↔ w.pc = .off) (hg : w'.pc = .gone ↔ w.pc = .gone) (hv : w'.pc = .ended → .stop ∈ hist)
    (hw : w'.pc = .waiting ↔ w'.auth.lst.fut ≠ none)
    (hc : ∀ i, (0 < handed i w'.auth.log ∧ .free i ∉ w'.trace) ↔ current w'.pc = some i)
    (ha : ∀ i, current w'.pc = some i → (answer i w'.trace = none ↔ w'.pc ≠ .answered i)) : Place w' (hist ++ [e]) := by
  have e1 : .init ∈ hist ++ [e] ↔ .init ∈ hist := by simp [Ne.symm he.1]
  have e2 : .stop ∈ hist ++ [e] ↔ .stop ∈ hist := by simp [Ne.symm he.2.1]
  have e3 : .deinit ∈ hist ++ [e] ↔ .deinit ∈ hist := by simp [Ne.symm he.2.2]
  refine ⟨by rw [e1, ho, h.off], by rw [e3, hg, h.gone], by rw [e1, e2]; exact h.stopInit, by rw [e2, e3]; exact h.goneStop,
    by rw [e1, e2, hi, hec]; exact h.ready, by rw [e1, hi]; exact h.fresh, by rw [e2]; exact hv, hw, hc, ha⟩

/-- The handler is not touched. -/
theorem Place.same {w w' : W} {hist : List Ev} {e : Ev} (h : Place w hist) (he : e ≠ .init ∧ e ≠ .stop ∧ e ≠ .deinit)
    (hl : w'.auth.lst = w.auth.lst) (hp : w'.pc = w.pc) (hh : ∀ i, handed i w'.auth.log = handed i w.auth.log)
    (hf : ∀ i, Auth.Ev.free i ∈ w'.trace ↔ Auth.Ev.free i ∈ w.trace) (ha : ∀ i, answer i w'.trace = answer i w.trace) : Place w' (hist ++ [e]) :=
  h.calm he (by rw [hl]) (by rw [hl]) (by rw [hp]) (by rw [hp]) (by rw [hp]; exact h.over) (by rw [hp, hl]; exact h.wait)
    (fun i => by rw [hh, hf, hp]; exact h.cur i) (fun i => by rw [hp, ha]; exact h.ans i)

/-- A request is handed over: it is the only one. -/
theorem handed_new {w w' : World} {evs : List Auth.Ev} {e : Auth.Ev} {j f : Nat} (h : Auth.Inv w evs) (h' : Auth.Inv w' (evs ++ [e]))
    (hl : w'.log = w.log ++ [.handed j f, .resolved f .ok]) (h1 : ∀ i, e ≠ .free i) (h2 : ∀ i v, e ≠ .verdict i v) :
    (∀ i, handed i w'.log = (if j = i then 1 else 0) + handed i w.log) ∧ handed j w.log = 0 ∧ .free j ∉ evs ++ [e] ∧
      answer j (evs ++ [e]) = none := by
  have e1 : ∀ i, handed i w'.log = (if j = i then 1 else 0) + handed i w.log := by
    intro i; rw [hl, handed_append]; simp only [handed]; omega
  have e2 : handed j w.log = 0 := by
    have := (facts h' j).once; rw [e1, if_pos rfl] at this; omega
  have e3 : answer j [e] = none := by
    cases e <;> simp_all [answer]
  refine ⟨e1, e2, ?_, ?_⟩
  · rw [List.mem_append, not_or]
    refine ⟨fun hm => ?_, by simp [Ne.symm (h1 j)]⟩
    have := (facts h j).freed hm; omega
  · rw [answer_append, e3, Option.or_none]
    cases ha : answer j evs with
    | none => rfl
    | some v => have := (facts h j).answered (by simp [ha]); omega

theorem quiet_trace {trace : List Auth.Ev} {e : Auth.Ev} (h1 : ∀ i, e ≠ .free i) (h2 : ∀ i v, e ≠ .verdict i v) :
    (∀ i, Auth.Ev.free i ∈ trace ++ [e] ↔ Auth.Ev.free i ∈ trace) ∧ ∀ i, answer i (trace ++ [e]) = answer i trace := by
  refine ⟨fun i => by simp [Ne.symm (h1 i)], fun i => ?_⟩
  have : answer i [e] = none := by cases e <;> simp_all [answer]
  rw [answer_append, this, Option.or_none]

/-- The handler waits for a request and is given one. -/
theorem Place.handed {w w' : W} {hist : List Ev} {e : Ev} {a : Auth.Ev} {j f : Nat} (h : Place w hist) (hA : Auth.Inv w.auth w.trace)
    (hA' : Auth.Inv w'.auth (w.trace ++ [a])) (ht : w'.trace = w.trace ++ [a])
    (he : e ≠ .init ∧ e ≠ .stop ∧ e ≠ .deinit) (h1 : ∀ i, a ≠ .free i) (h2 : ∀ i v, a ≠ .verdict i v)
    (hi : w'.auth.lst.initialized = w.auth.lst.initialized) (hec : w'.auth.lst.ec = w.auth.lst.ec) (hfut : w'.auth.lst.fut = none)
    (hl : w'.auth.log = w.auth.log ++ [.handed j f, .resolved f .ok]) (hp : w.pc = .waiting ∨ w.pc = .listening) (hp' : w'.pc = .called j) :
    Place w' (hist ++ [e]) := by
  obtain ⟨e1, e2, e3, e4⟩ := handed_new hA hA' hl h1 h2
  obtain ⟨q1, q2⟩ := quiet_trace (trace := w.trace) h1 h2
  have hcn : current w.pc = none := by rcases hp with h | h <;> rw [h] <;> rfl
  refine h.calm he hi hec ?_ ?_ (by simp [hp']) (by simp [hp', hfut]) (fun i => ?_) (fun i hci => ?_)
  · rcases hp with h | h <;> simp [h, hp']
  · rcases hp with h | h <;> simp [h, hp']
  · rw [hp', ht, e1]
    show _ ↔ some j = some i
    by_cases hij : j = i
    · subst hij; exact ⟨fun _ => rfl, fun _ => ⟨by rw [if_pos rfl]; omega, e3⟩⟩
    · have := h.cur i
      rw [hcn] at this
      rw [if_neg hij, q1 i]
      simp only [Nat.zero_add, this, Option.some.injEq, hij]
      simp
  · rw [hp'] at hci
    obtain rfl : j = i := by simpa [current] using hci
    rw [ht, e4, hp']; simp

/-! ### Events -/

variable {E : Env} {w w' : W} {hist : List Ev}

/-- Calls which neither touch the listener nor answer anything. -/
theorem hinv_plain (h : HInv E.N w hist) {e : Ev} {a : Auth.Ev} (hc : Called w w' a) (hA : Auth.Inv w'.auth (w.trace ++ [a]))
    (hp : Plain w.auth w'.auth) (hl : w'.auth.lst = w.auth.lst) (hn : w'.auth.next = w.auth.next) (hd : dull e = true)
    (he : e ≠ .init ∧ e ≠ .stop ∧ e ≠ .deinit) (h1 : ∀ i, a ≠ .free i) (h2 : ∀ i v, a ≠ .verdict i v)
    (hlink : Link (w.trace ++ [a]) (hist ++ [e])) (hv : ∀ j, (w'.auth.reqs j).verdict = (w.auth.reqs j).verdict)
    (hg : ∀ i, given i w'.auth.log ≠ [] → given i w.auth.log ≠ [] ∨ e = .run i)
    (hm : w'.made = w'.freed + 3 * live w') : HInv E.N w' (hist ++ [e]) := by
  obtain ⟨s, hs, hsg⟩ := hp.log
  obtain ⟨q1, q2⟩ := quiet_trace (trace := w.trace) h1 h2
  have hpc : w'.pc = w.pc := by rw [hc.notice hs, notice_given _ _ hsg]
  refine ⟨hc.trace ▸ hA, h.data.dull hd hn hc.iam hc.conns hc.reqs, hc.trace ▸ hlink, ?_, ?_, hm⟩
  · exact h.place.same he hl hpc (fun i => by rw [hs, handed_append, handed_given _ _ hsg]; rfl) (fun i => by rw [hc.trace, q1])
      (fun i => by rw [hc.trace, q2])
  · exact h.verdicts.grow (by rw [hpc]; exact fun _ _ h => h) (fun i => by rw [hc.trace, q2]) hg (fun i => by rw [hv]; exact fun h => h)

theorem inv_of (h : Auth.Inv w.auth w.trace) {a : Auth.Ev} (hs : Auth.step w.auth a = some w'.auth)
    (ha : Allowed w.auth.next w.trace w.auth.log a) (hc : ∀ i, a = .check i → .freeListener ∉ w.trace) : Auth.Inv w'.auth (w.trace ++ [a]) := by
  obtain ⟨k, h1, h2⟩ := Auth.inv_step w.auth w.trace h a ha hc
  rw [hs] at h1
  cases h1
  exact h2

theorem own_allowed (h : HInv E.N w hist) {i : Nat} (ho : own hist i) :
    i < w.auth.next ∧ Auth.Ev.discard i ∉ w.trace ∧ Auth.Ev.check i ∉ w.trace :=
  ⟨by rw [h.data.next]; exact ho.1, by rw [h.link.discard]; exact ho.2.2, by rw [h.link.check]; exact ho.2.1⟩

/-- A request which the core has not used yet is not freed. -/
theorem own_live (h : HInv E.N w hist) {i : Nat} (ho : own hist i) : (w.auth.reqs i).freed = false := by
  obtain ⟨h1, h2, h3⟩ := own_allowed h ho
  obtain ⟨s, hr, hv⟩ := h.auth.cells.some i h1
  have e3 : decide (.check i ∈ w.trace) = s.view.checked := congrArg View.checked hv
  have e4 : decide (.discard i ∈ w.trace) = s.view.discarded := congrArg View.discarded hv
  rw [hr]
  cases s <;> simp_all [Stage.view, Stage.req]

/-- What is freed stays freed. -/
theorem freed_mono {k k' : World} {evs : List Auth.Ev} {i : Nat} (h : Auth.Inv k evs) {a : Auth.Ev} (h' : Auth.Inv k' (evs ++ [a]))
    (hi : i < k.next) (hn : k'.next = k.next) (hr : a = .run i) (hs : Auth.step k a = some k') :
    (k.reqs i).freed = true → (k'.reqs i).freed = true := by
  subst hr
  intro hf
  simp only [Auth.step] at hs
  split at hs
  · unfold handleVerdict at hs
    split at hs
    · obtain ⟨-, -, -, -, -⟩ := refDec_eq hs
      unfold refDec at hs
      simp [set_same, hf] at hs
    · cases hs
  · cases hs; exact hf

theorem hinv_discard (h : HInv E.N w hist) {i : Nat} (ho : own hist i) (hs : api w (.discard i) = some w') :
    HInv E.N w' (hist ++ [.discard i]) := by
  have hc := api_called hs
  have hA := inv_of h.auth hc.step (own_allowed h ho) (by simp)
  obtain ⟨hp, hl, hn, hv, hr⟩ := discard_fx hc.step
  refine hinv_plain h hc hA hp hl hn rfl (by simp) (by simp) (by simp) ?_ hv ?_ ?_
  · exact h.link.same _ _ (by simp) (by simp [eq_comm]) (by simp) (by simp)
  · intro j hj
    obtain ⟨s, hls, -⟩ := hp.log
    have := (refDec_eq (w := w.auth) (i := i) hc.step).2.1
    rw [this] at hj
    exact .inl hj
  · exact hc.memory_own h.mem hn (own_allowed h ho).1 (fun j hj => by rw [hr j hj]) (by simp [subject, own_live h ho])

theorem hinv_run (h : HInv E.N w hist) {i : Nat} (hs : api w (.run i) = some w') : HInv E.N w' (hist ++ [.run i]) := by
  have hc := api_called hs
  have hA := inv_of h.auth hc.step trivial (by simp)
  obtain ⟨hp, hl, hn, hv, hr⟩ := run_fx hc.step
  refine hinv_plain h hc hA hp hl hn rfl (by simp) (by simp) (by simp) ?_ hv ?_ ?_
  · exact h.link.same _ _ (by simp) (by simp) (by simp) (by simp)
  · intro j hj
    by_cases hji : i = j
    · subst hji; exact .inr rfl
    · refine .inl ?_
      have hst := hc.step
      simp only [Auth.step] at hst
      split at hst
      · unfold handleVerdict at hst
        split at hst
        · rename_i v _ _
          have := (refDec_eq hst).2.1
          rw [this, given_append] at hj
          simpa [given, hji] using hj
        · cases hst
      · simp only [Option.some.injEq] at hst; rw [← hst] at hj; exact hj
  · by_cases hi : i < w.auth.next
    · exact hc.memory_own h.mem hn hi (fun j hj => by rw [hr j hj]) (freed_mono h.auth hA hi hn rfl hc.step)
    · refine hc.memory h.mem hn fun j => ?_
      by_cases hj : j = i
      · subst hj
        rw [(h.auth.cells.none j (by omega)).1, (hA.cells.none j (by omega)).1]
      · rw [hr j hj]

theorem hinv_check (h : HInv E.N w hist) {i : Nat} (ho : own hist i) (hde : .deinit ∉ hist) (hs : api w (.check i) = some w') :
    HInv E.N w' (hist ++ [.check i]) := by
  have hc := api_called hs
  have hnf : Auth.Ev.freeListener ∉ w.trace := by rw [h.link.deinit]; exact hde
  have hA := inv_of h.auth hc.step (a := .check i) (own_allowed h ho) (fun _ _ => hnf)
  have hx := check_fx h.auth (fun hd => hnf (h.auth.dangling hd)) hc.step
  obtain ⟨q1, q2⟩ := quiet_trace (trace := w.trace) (e := .check i) (by simp) (by simp)
  have hgv : ∀ j, given j w'.auth.log = given j w.auth.log := by
    intro j
    rcases hx.fut with ⟨-, -, hl⟩ | ⟨f, -, -, hl⟩ <;> rw [hl]
    simp [given_append, given]
  have hpc : ∀ j v, w'.pc = .decided j v → w.pc = .decided j v := by
    intro j v hp
    rcases hx.fut with ⟨-, -, hl⟩ | ⟨f, hf, -, hl⟩
    · rw [hc.notice (s := []) (by simp [hl])] at hp; exact hp
    · have hw := h.place.wait.2 (by simp [hf])
      rw [hc.notice hl, hw] at hp
      simp [notice] at hp
  refine ⟨hc.trace ▸ hA, h.data.dull rfl hx.next hc.iam hc.conns hc.reqs, ?_, ?_, ?_, hc.memory h.mem hx.next hx.freed⟩
  · rw [hc.trace]; exact h.link.same _ _ (by simp [eq_comm]) (by simp) (by simp) (by simp)
  · rcases hx.fut with ⟨hf, hf', hl⟩ | ⟨f, hf, hf', hl⟩
    · have hp : w'.pc = w.pc := by rw [hc.notice (s := []) (by simp [hl])]; rfl
      refine h.place.calm (by simp) hx.init hx.ec (by rw [hp]) (by rw [hp]) (by rw [hp]; exact h.place.over) ?_ (fun j => ?_) (fun j => ?_)
      · have := h.place.wait
        rw [hf] at this; rw [hp, hf']; exact this
      · rw [hp, hc.trace, q1, hl]; exact h.place.cur j
      · rw [hp, hc.trace, q2]; exact h.place.ans j
    · have hw := h.place.wait.2 (by simp [hf])
      refine h.place.handed h.auth hA hc.trace (by simp) (by simp) (by simp) hx.init hx.ec hf' hl (.inl hw) ?_
      rw [hc.notice hl, hw]; rfl
  · refine ⟨fun j v hp => (h.verdicts.decided j v (hpc j v hp)).grow _, fun j v ha => ?_, fun j hv ha => ?_⟩
    · rw [hc.trace, q2] at ha
      obtain ⟨p, rest, rfl, h1, h2, h3⟩ := h.verdicts.answered j v ha
      exact ⟨p, rest ++ [.check i], by simp, h1, h2, fun hg => by rw [hgv] at hg; simp [h3 hg]⟩
    · rw [hc.trace, q2] at ha
      by_cases hvo : (w.auth.reqs j).verdict = none
      · have hji : j = i := by
          apply Classical.byContradiction
          intro hji; rw [hx.others j hji] at hv; exact hv hvo
        subst hji
        by_cases hin : .init ∈ hist
        · obtain ⟨r1, r2⟩ := h.place.ready hin
          by_cases hst : .stop ∈ hist
          · exact .inl (by simp [hst])
          · rw [hx.mine r1 (r2 hst)] at hv; exact absurd hvo hv
        · exact .inr ⟨hist, [], rfl, hin⟩
      · exact notAsked_grow (h.verdicts.denied j hvo ha) _

theorem hinv_init_ev (h : HInv E.N w hist) (hi : .init ∉ hist) (hs : api { w with pc := .listening } .initListener = some w') :
    HInv E.N w' (hist ++ [.init]) := by
  have hc := api_called hs
  have hns : .stop ∉ hist := fun hm => hi (h.place.stopInit hm)
  have hnd : .deinit ∉ hist := fun hm => hns (h.place.goneStop hm)
  have hA := inv_of (w := { w with pc := .listening }) h.auth hc.step ⟨by show _ ∉ w.trace; rw [h.link.deinit]; exact hnd, by show _ ∉ w.trace; rw [h.link.stop]; exact hns⟩ (by simp)
  have hnull : w.auth.listener = .null := h.auth.null.2 (h.place.fresh hi)
  have hst : w'.auth = { w.auth with listener := .alive, lst := Listener.init w.auth.lst } := by
    have := hc.step
    simp [Auth.step, Auth.initListener, hnull] at this
    exact this.symm
  obtain ⟨q1, q2⟩ := quiet_trace (trace := w.trace) (e := .initListener) (by simp) (by simp)
  have hpc : w'.pc = .listening := by rw [hc.notice (s := []) (by simp [hst])]; rfl
  have hoff := h.place.off.2 hi
  have hfut : w.auth.lst.fut = none := by rw [h.auth.lst.fresh (h.place.fresh hi)]; rfl
  have htr : w'.trace = w.trace ++ [.initListener] := hc.trace
  refine ⟨hc.trace ▸ hA, h.data.dull rfl (by rw [hst]) hc.iam hc.conns hc.reqs, ?_, ?_, ?_, ?_⟩
  · rw [hc.trace]; exact h.link.same _ _ (by simp) (by simp) (by simp) (by simp)
  · refine ⟨by simp [hpc], by simp [hpc, hnd], by simp [hns], by simp [hnd], ?_, by simp, by simp [hpc], ?_, fun i => ?_, by simp [hpc, current]⟩
    · intro _; rw [hst]; exact ⟨rfl, fun _ => rfl⟩
    · rw [hpc, hst]; simp [Listener.init, hfut]
    · have := h.place.cur i
      rw [hoff] at this
      rw [hpc, htr, q1, hst]; exact this
  · refine h.verdicts.grow (by simp [hpc]) (fun i => by rw [htr, q2]) (fun i hg => .inl (by rw [hst] at hg; exact hg)) (fun i hv => by rw [hst] at hv; exact hv)
  · exact hc.memory h.mem (by rw [hst]) (by rw [hst]; exact fun _ => rfl)

theorem hinv_stop (h : HInv E.N w hist) (hi : .init ∈ hist) (hd : .deinit ∉ hist) (hs : api w .stopListener = some w') :
    HInv E.N w' (hist ++ [.stop]) := by
  have hc := api_called hs
  have hA := inv_of h.auth hc.step (a := .stopListener) (by show _ ∉ w.trace; rw [h.link.deinit]; exact hd) (by simp)
  have hx := stop_fx h.auth hc.step
  obtain ⟨q1, q2⟩ := quiet_trace (trace := w.trace) (e := .stopListener) (by simp) (by simp)
  have hgv : ∀ j, given j w'.auth.log = given j w.auth.log := by
    intro j
    rcases hx.fut with ⟨-, -, hl⟩ | ⟨f, ec, -, -, hl⟩ <;> rw [hl]
    simp [given_append, given]
  have hhv : ∀ j, handed j w'.auth.log = handed j w.auth.log := by
    intro j
    rcases hx.fut with ⟨-, -, hl⟩ | ⟨f, ec, -, -, hl⟩ <;> rw [hl]
    simp [handed_append, handed]
  have hpc : w'.pc = w.pc ∧ w.pc ≠ .waiting ∨ w.pc = .waiting ∧ w'.pc = .ended := by
    rcases hx.fut with ⟨hf, -, hl⟩ | ⟨f, ec, hf, -, hl⟩
    · exact .inl ⟨by rw [hc.notice (s := []) (by simp [hl])]; rfl, by rw [Ne, h.place.wait, hf]; simp⟩
    · have hw := h.place.wait.2 (by simp [hf])
      exact .inr ⟨hw, by rw [hc.notice hl, hw]; rfl⟩
  have hfut : w'.auth.lst.fut = none := by
    rcases hx.fut with ⟨-, hf, -⟩ | ⟨f, ec, -, hf, -⟩ <;> exact hf
  have hcur : current w'.pc = current w.pc := by rcases hpc with ⟨h1, -⟩ | ⟨h1, h2⟩ <;> simp [*, current]
  have hno : w.pc ≠ .off := fun ho => (h.place.off.1 ho) hi
  have hng : w.pc ≠ .gone := fun ho => hd (h.place.gone.1 ho)
  refine ⟨hc.trace ▸ hA, h.data.dull rfl hx.next hc.iam hc.conns hc.reqs, ?_, ?_, ?_, hc.memory h.mem hx.next hx.freed⟩
  · rw [hc.trace]; exact h.link.same _ _ (by simp) (by simp) (by simp) (by simp)
  · refine ⟨?_, ?_, by simp [hi], by simp, ?_, by simp [hi], by simp, ?_, fun i => ?_, fun i => ?_⟩
    · rcases hpc with ⟨h1, -⟩ | ⟨h1, h2⟩ <;> simp [*]
    · rcases hpc with ⟨h1, -⟩ | ⟨h1, h2⟩ <;> simp [*]
    · intro _; rw [hx.init]; exact ⟨(h.place.ready hi).1, by simp⟩
    · rcases hpc with ⟨h1, h2⟩ | ⟨h1, h2⟩ <;> simp [*]
    · rw [hhv, hc.trace, q1, hcur]; exact h.place.cur i
    · intro hci
      rw [hc.trace, q2]
      rcases hpc with ⟨h1, -⟩ | ⟨h1, h2⟩
      · rw [h1] at hci ⊢; exact h.place.ans i hci
      · rw [h2] at hci; cases hci
  · refine ⟨fun i v hp => ?_, fun j v ha => ?_, fun j _ _ => .inl (by simp)⟩
    · rcases hpc with ⟨h1, -⟩ | ⟨h1, h2⟩
      · rw [h1] at hp; exact (h.verdicts.decided i v hp).grow _
      · rw [h2] at hp; cases hp
    · rw [hc.trace, q2] at ha
      obtain ⟨p, rest, rfl, h1, h2, h3⟩ := h.verdicts.answered j v ha
      exact ⟨p, rest ++ [.stop], by simp, h1, h2, fun hg => by rw [hgv] at hg; simp [h3 hg]⟩

theorem hinv_deinit (h : HInv E.N w hist) (hst : .stop ∈ hist) (hd : .deinit ∉ hist) (he : w.pc = .ended)
    (hs : api { w with pc := .gone } .freeListener = some w') : HInv E.N w' (hist ++ [.deinit]) := by
  have hc := api_called hs
  have hA := inv_of (w := { w with pc := .gone }) h.auth hc.step (a := .freeListener)
    ⟨by show _ ∉ w.trace; rw [h.link.deinit]; exact hd, by show _ ∈ w.trace; rw [h.link.stop]; exact hst⟩ (by simp)
  have hin := h.place.stopInit hst
  have hq : w'.auth.lst = w.auth.lst ∧ w'.auth.log = w.auth.log ∧ w'.auth.next = w.auth.next ∧ w'.auth.reqs = w.auth.reqs := by
    have := hc.step
    simp only [Auth.step] at this
    split at this
    · simp only [Option.some.injEq] at this; rw [← this]; exact ⟨rfl, rfl, rfl, rfl⟩
    · simp only [Option.some.injEq] at this; rw [← this]; exact ⟨rfl, rfl, rfl, rfl⟩
    · cases this
  obtain ⟨hl, hlog, hn, hr⟩ := hq
  obtain ⟨q1, q2⟩ := quiet_trace (trace := w.trace) (e := .freeListener) (by simp) (by simp)
  have htr : w'.trace = w.trace ++ [.freeListener] := hc.trace
  have hpc : w'.pc = .gone := by rw [hc.notice (s := []) (by simp [hlog])]; rfl
  refine ⟨hc.trace ▸ hA, h.data.dull rfl hn hc.iam hc.conns hc.reqs, ?_, ?_, ?_, ?_⟩
  · rw [hc.trace]; exact h.link.same _ _ (by simp) (by simp) (by simp) (by simp)
  · refine ⟨by simp [hpc, hin], by simp [hpc], by simp [hin], by simp [hst], ?_, by simp [hin], by simp [hpc], ?_, fun i => ?_, by simp [hpc, current]⟩
    · intro _; rw [hl]; exact ⟨(h.place.ready hin).1, by simp [hst]⟩
    · have := h.place.wait
      rw [hpc, hl]
      rw [he] at this
      simpa using this
    · have := h.place.cur i
      rw [he] at this
      rw [hpc, htr, q1, hlog]; exact this
  · refine h.verdicts.grow (by simp [hpc]) (fun i => by rw [htr, q2]) (fun i hg => .inl (by rw [hlog] at hg; exact hg)) (fun i hv => by rw [hr] at hv; exact hv)
  · exact hc.memory h.mem hn (by rw [hr]; exact fun _ => rfl)

theorem hinv_quiet (h : HInv E.N w hist) {e : Ev} (hauth : w'.auth = w.auth) (htr : w'.trace = w.trace) (hpc : w'.pc = w.pc)
    (hdata : Data w' (hist ++ [e])) (he : e ≠ .init ∧ e ≠ .stop ∧ e ≠ .deinit ∧ (∀ i, e ≠ .check i) ∧ (∀ i, e ≠ .discard i))
    (hm : w'.made = w'.freed + 3 * live w') : HInv E.N w' (hist ++ [e]) := by
  refine ⟨by rw [hauth, htr]; exact h.auth, hdata, ?_, ?_, ?_, hm⟩
  · have := h.link.same [] e (by simp [he.2.2.2.1]) (by simp [he.2.2.2.2]) (by simp [he.2.1]) (by simp [he.2.2.1])
    rw [htr]; simpa using this
  · exact h.place.same ⟨he.1, he.2.1, he.2.2.1⟩ (by rw [hauth]) hpc (fun i => by rw [hauth]) (fun i => by rw [htr]) (fun i => by rw [htr])
  · exact h.verdicts.grow (by rw [hpc]; exact fun _ _ h => h) (fun i => by rw [htr]) (fun i => by rw [hauth]; exact .inl) (fun i => by rw [hauth]; exact fun h => h)

theorem hinv_iam (h : HInv E.N w hist) (x : Iam) : HInv E.N { w with iam := x } (hist ++ [.iam x]) := by
  refine hinv_quiet h rfl rfl rfl ?_ (by simp) h.mem
  have := h.data
  exact ⟨by simp [creates, this.next], by simp [iamOf], fun r => by simp [this.conns, connOf],
    fun i hi => by simpa [creates] using this.info i hi, fun i hi => by simpa [attrsOf] using this.attrs i hi,
    fun i hi => by simpa [attrsOf] using this.none i hi⟩

theorem hinv_conn (h : HInv E.N w hist) (ref : Nat) (x : ConnInfo) :
    HInv E.N { w with conns := fun j => if j = ref then x else w.conns j } (hist ++ [.conn ref x]) := by
  refine hinv_quiet h rfl rfl rfl ?_ (by simp) h.mem
  have := h.data
  exact ⟨by simp [creates, this.next], by simp [iamOf, this.iam], fun r => by simp [this.conns, connOf, eq_comm],
    fun i hi => by simpa [creates] using this.info i hi, fun i hi => by simpa [attrsOf] using this.attrs i hi,
    fun i hi => by simpa [attrsOf] using this.none i hi⟩

theorem hinv_add (h : HInv E.N w hist) {i : Nat} {k v : String} {m1 m2 m3 : Bool} (ho : own hist i) (hs : add w i k v m1 m2 m3 = some w') :
    HInv E.N w' (hist ++ [.add i k v m1 m2 m3]) := by
  have hl := own_live h ho
  have hi : i < w.auth.next := (own_allowed h ho).1
  unfold add at hs
  rw [hl] at hs
  have hdata := h.data
  have hnone : ∀ (w' : W), (m1 && m2 && m3) = false → w'.auth = w.auth → w'.iam = w.iam → w'.conns = w.conns → w'.reqs = w.reqs →
      Data w' (hist ++ [.add i k v m1 m2 m3]) := by
    intro w' hm h1 h2 h3 h4
    have ha : ∀ j, attrsOf j (hist ++ [.add i k v m1 m2 m3]) = attrsOf j hist := by
      intro j; cases m1 <;> cases m2 <;> cases m3 <;> simp_all [attrsOf]
    exact ⟨by simp [creates, h1, hdata.next], by simp [iamOf, h2, hdata.iam], fun r => by simp [h3, hdata.conns, connOf],
      fun i hi => by rw [h4]; rw [h1] at hi; simpa [creates] using hdata.info i hi, fun i hi => by rw [ha, h4]; rw [h1] at hi; exact hdata.attrs i hi,
      fun i hi => by rw [ha]; rw [h1] at hi; exact hdata.none i hi⟩
  cases m1 with
  | false =>
    simp only [Bool.false_eq_true, if_false, Bool.not_false, if_true, Option.some.injEq] at hs
    subst hs
    exact hinv_quiet h rfl rfl rfl (hnone _ rfl rfl rfl rfl rfl) (by simp) h.mem
  | true =>
    by_cases hm : (m2 && m3) = true
    · simp only [Bool.and_eq_true] at hm
      obtain ⟨rfl, rfl⟩ := hm
      simp only [Bool.false_eq_true, if_false, Bool.not_true, Bool.and_self, Option.some.injEq] at hs
      subst hs
      refine hinv_quiet h rfl rfl rfl ?_ (by simp) ?_
      · refine ⟨by simp [creates, hdata.next], by simp [iamOf, hdata.iam], fun r => by simp [hdata.conns, connOf], fun j hj => ?_, fun j hj => ?_,
          fun j hj => ?_⟩
        · have := hdata.info j hj
          by_cases hji : j = i
          · subst hji; simpa [creates] using this
          · simpa [creates, hji] using this
        · have := hdata.attrs j hj
          by_cases hji : j = i
          · subst hji; simpa [attrsOf] using this
          · simpa [attrsOf, hji, Ne.symm hji] using this
        · have hji : i ≠ j := by have : w.auth.next ≤ j := hj; omega
          simpa [attrsOf, hji] using hdata.none j hj
      · have := sum_change (fun j => if (w.auth.reqs j).freed then 0 else
            (if j = i then { w.reqs i with attrs := (k, v) :: (w.reqs i).attrs } else w.reqs j : Info).attrs.length)
          (fun j => if (w.auth.reqs j).freed then 0 else (w.reqs j).attrs.length) i 1 w.auth.next hi (fun j hj => by simp [hj]) (by simp [hl])
        show w.made + 3 = w.freed + 3 * ((List.range w.auth.next).map _).sum
        rw [this, h.mem]
        unfold live
        omega
    · simp only [Bool.not_eq_true] at hm
      simp only [Bool.false_eq_true, if_false, Bool.not_true, hm, Bool.not_false, if_true, Option.some.injEq] at hs
      subst hs
      refine hinv_quiet h rfl rfl rfl (hnone _ (by simp [hm]) rfl rfl rfl rfl) (by simp) ?_
      show w.made + 1 + m2.toNat + m3.toNat = w.freed + 1 + m2.toNat + m3.toNat + 3 * live w
      have := h.mem; omega

theorem hinv_create (h : HInv E.N w hist) {c : Nat} {a : String} (hs : create w c a = some w') : HInv E.N w' (hist ++ [.create c a]) := by
  have hc := api_called hs
  have hA := inv_of (w := { w with reqs := fun j => if j = w.auth.next then { conn := c, action := a } else w.reqs j }) h.auth hc.step trivial (by simp)
  have hst : w'.auth = Auth.create w.auth := by
    have := hc.step
    simp [Auth.step] at this
    exact this.symm
  obtain ⟨q1, q2⟩ := quiet_trace (trace := w.trace) (e := .create) (by simp) (by simp)
  have htr : w'.trace = w.trace ++ [.create] := hc.trace
  have hpc : w'.pc = w.pc := by rw [hc.notice (s := []) (by simp [hst, Auth.create])]; rfl
  have hdata := h.data
  have hreqs : w'.reqs = fun j => if j = w.auth.next then { conn := c, action := a } else w.reqs j := hc.reqs
  have hnext : w'.auth.next = w.auth.next + 1 := by rw [hst]; rfl
  have hv : ∀ i, (w'.auth.reqs i).verdict ≠ none → (w.auth.reqs i).verdict ≠ none := by
    intro i
    rw [hst]
    by_cases hi : i = w.auth.next
    · subst hi; simp [Auth.create, set_same]
    · simp [Auth.create, set_other _ hi]
  refine ⟨hc.trace ▸ hA, ?_, ?_, ?_, ?_, ?_⟩
  · refine ⟨by simp [creates, hnext, hdata.next], by simp [iamOf, hc.iam, hdata.iam], fun r => by simp [hc.conns, hdata.conns, connOf], fun j hj => ?_,
      fun j hj => ?_, fun j hj => ?_⟩
    · rw [hreqs]
      have hcr : creates (hist ++ [.create c a]) = creates hist ++ [(c, a)] := by simp [creates]
      rw [hcr]
      by_cases hjn : j = w.auth.next
      · subst hjn; simp [hdata.next]
      · rw [List.getElem?_append_left (by rw [← hdata.next]; omega)]
        simp only [if_neg hjn]
        exact hdata.info j (by omega)
    · rw [hreqs]
      by_cases hjn : j = w.auth.next
      · subst hjn; simpa [attrsOf] using (hdata.none _ (Nat.le_refl _)).symm
      · simpa [attrsOf, hjn] using hdata.attrs j (by omega)
    · simpa [attrsOf] using hdata.none j (by omega)
  · rw [hc.trace]; exact h.link.same _ _ (by simp) (by simp) (by simp) (by simp)
  · exact h.place.same (by simp) (by rw [hst]; rfl) hpc (fun i => by rw [hst]; rfl) (fun i => by rw [htr, q1]) (fun i => by rw [htr, q2])
  · exact h.verdicts.grow (by rw [hpc]; exact fun _ _ h => h) (fun i => by rw [htr, q2]) (fun i hg => .inl (by rw [hst] at hg; exact hg)) hv
  · obtain ⟨w2, h1, h2, h3, h4, h5⟩ := hc.sweep
    have hne : ¬((w.auth.reqs 0).freed = false ∧ (w2.auth.reqs 0).freed = true) := by
      rw [h1, hst]
      by_cases h0 : 0 = w.auth.next
      · simp [Auth.create, ← h0, set_same]
      · simp [Auth.create, set_other _ h0]
    have hw : w' = w2 := by rw [h5]; unfold Handler.sweep; exact if_neg hne
    have hlv : live w' = live w := by
      unfold live
      rw [hnext, List.range_succ, hreqs, hst]
      simp only [List.map_append, List.map_cons, List.map_nil, List.sum_append, List.sum_cons, List.sum_nil, Auth.create, set_same]
      simp only [Bool.false_eq_true, if_false, if_true, List.length_nil, Nat.add_zero]
      congr 1
      apply List.map_congr_left
      intro j hj
      have : j ≠ w.auth.next := by have := List.mem_range.1 hj; omega
      simp [this, set_other _ this]
    rw [hlv, hw, h3, h4]; exact h.mem

/-! ### The handler at work -/

theorem hinv_listen (h : HInv E.N w hist) (hp : w.pc = .listening) (hs : api { w with pc := .waiting } (.listen 0) = some w') :
    HInv E.N w' (hist ++ [.work]) := by
  have hc := api_called hs
  have hnd : .deinit ∉ hist := fun hm => by have := h.place.gone.2 hm; rw [hp] at this; cases this
  have hin : .init ∈ hist := Classical.byContradiction fun hm => by have := h.place.off.2 hm; rw [hp] at this; cases this
  have hA := inv_of (w := { w with pc := .waiting }) h.auth hc.step (a := .listen 0) (by show _ ∉ w.trace; rw [h.link.deinit]; exact hnd) (by simp)
  have hfn : w.auth.lst.fut = none := by
    cases hf : w.auth.lst.fut with
    | none => rfl
    | some f => have := h.place.wait.2 (by simp [hf]); rw [hp] at this; cases this
  have hx := listen_fx (w := w.auth) h.auth hfn hc.step
  obtain ⟨q1, q2⟩ := quiet_trace (trace := w.trace) (e := .listen 0) (by simp) (by simp)
  have htr : w'.trace = w.trace ++ [.listen 0] := hc.trace
  have hnot : ∀ (s : List Obs), w'.auth.log = w.auth.log ++ s → w'.pc = notice .waiting s := fun s hs => hc.notice hs
  have hgv : ∀ j, given j w'.auth.log = given j w.auth.log := by
    intro j
    rcases hx.fut with ⟨-, hl⟩ | ⟨k, -, hl⟩ | ⟨-, -, ec, hl⟩ <;> rw [hl] <;> simp [given_append, given]
  have hpc : ∀ j v, w'.pc ≠ .decided j v := by
    intro j v
    rcases hx.fut with ⟨-, hl⟩ | ⟨k, -, hl⟩ | ⟨-, -, ec, hl⟩
    · rw [hnot [] (by simp [hl])]; simp [notice]
    · rw [hnot _ hl]; simp [notice]
    · rw [hnot _ hl]; simp [notice]
  have hcn : ∀ i, ¬ (0 < handed i w.auth.log ∧ .free i ∉ w.trace) := by
    intro i hcon
    have := (h.place.cur i).1 hcon
    rw [hp] at this; cases this
  refine ⟨hc.trace ▸ hA, h.data.dull rfl hx.next hc.iam hc.conns hc.reqs, ?_, ?_, ?_, hc.memory h.mem hx.next hx.freed⟩
  · rw [hc.trace]; exact h.link.same _ _ (by simp) (by simp) (by simp) (by simp)
  · rcases hx.fut with ⟨hf, hl⟩ | ⟨k, hf, hl⟩ | ⟨hf, hno, ec, hl⟩
    · have hp' : w'.pc = .waiting := by rw [hnot [] (by simp [hl])]; rfl
      refine h.place.calm (by simp) hx.init hx.ec (by simp [hp, hp']) (by simp [hp, hp']) (by simp [hp']) (by simp [hp', hf]) (fun i => ?_) (by simp [hp', current])
      rw [hp', hl, htr, q1]
      exact ⟨fun hcon => absurd hcon (hcn i), fun hcon => by cases hcon⟩
    · exact h.place.handed h.auth hA htr (by simp) (by simp) (by simp) hx.init hx.ec hf hl (.inr hp) (by rw [hnot _ hl]; rfl)
    · have hp' : w'.pc = .ended := by rw [hnot _ hl]; rfl
      refine h.place.calm (by simp) hx.init hx.ec (by simp [hp, hp']) (by simp [hp, hp']) (fun _ => ?_) (by simp [hp', hf]) (fun i => ?_) (by simp [hp', current])
      · obtain ⟨r1, r2⟩ := h.place.ready hin
        exact Classical.byContradiction fun hst => hno r1 (r2 hst)
      · rw [hp', htr, q1]
        have : handed i w'.auth.log = handed i w.auth.log := by rw [hl]; simp [handed_append, handed]
        rw [this]
        exact ⟨fun hcon => absurd hcon (hcn i), fun hcon => by cases hcon⟩
  · exact h.verdicts.grow (fun j v hd => absurd hd (hpc j v)) (fun i => by rw [htr, q2]) (fun i hg => .inl (by rw [hgv] at hg; exact hg))
      (fun i hv => by rw [hx.verdicts] at hv; exact hv)

/-- The request the handler works on. -/
theorem current_facts (h : HInv E.N w hist) {i : Nat} (hc : current w.pc = some i) :
    (0 < handed i w.auth.log ∧ Auth.Ev.free i ∉ w.trace) ∧ handed i w.auth.log = 1 ∧ i < w.auth.next ∧ .check i ∈ hist ∧ (w.auth.reqs i).freed = false := by
  have h1 := (h.place.cur i).2 hc
  have hf := facts h.auth i
  have h2 : handed i w.auth.log = 1 := by have := hf.once; omega
  refine ⟨h1, h2, ?_, ?_, ?_⟩
  · apply Classical.byContradiction
    intro hn
    have e4 : handed i w.auth.log = 0 := congrArg View.handed (h.auth.cells.none i (by omega)).2
    omega
  · rw [← h.link.check]; exact hf.checked h2
  · exact hf.mine h2 h1.2

/-- What the handler decides is what the configuration permits. -/
theorem decide_permits (h : HInv E.N w hist) (hE : IsMap E.ins) {i : Nat} {v : Bool} (hi : i < w.auth.next) (hf : (w.auth.reqs i).freed = false)
    (hd : decideReq E w i = some v) : v = true ↔ Permits E.N hist i := by
  rw [decide_eq E w i hf] at hd
  have hinfo := h.data.info i hi
  have hat := h.data.attrs i hi
  have key := check_true E hE w.iam (w.conns (w.reqs i).conn) (w.reqs i).conn (w.reqs i).action (w.reqs i).attrs
  have hv : v = true ↔ checkAccess E w.iam (w.conns (w.reqs i).conn) (w.reqs i).conn (w.reqs i).action
      ((w.reqs i).attrs.foldl (fun m kv => E.ins m kv.1 kv.2) []) = .ok true := by
    cases hx : checkAccess E w.iam (w.conns (w.reqs i).conn) (w.reqs i).conn (w.reqs i).action
      ((w.reqs i).attrs.foldl (fun m kv => E.ins m kv.1 kv.2) []) with
    | ub => rw [hx] at hd; cases hd
    | ok b => rw [hx] at hd; simp at hd; simp [hd]
  rw [hv, key, hat, h.data.iam, h.data.conns]
  unfold Permits
  constructor
  · intro hp; exact ⟨_, _, hinfo, hp⟩
  · rintro ⟨c, a, h1, hp⟩
    rw [hinfo] at h1
    simp only [Option.some.injEq, Prod.mk.injEq] at h1
    rw [h1.1, h1.2]; exact hp

theorem hinv_decide (h : HInv E.N w hist) (hE : IsMap E.ins) {i : Nat} {v : Bool} (hp : w.pc = .called i) (hd : decideReq E w i = some v) :
    HInv E.N { w with pc := .decided i v } (hist ++ [.work]) := by
  have hcur : current w.pc = some i := by rw [hp]; rfl
  obtain ⟨-, -, h3, h4, h5⟩ := current_facts h hcur
  refine ⟨h.auth, h.data.dull rfl rfl rfl rfl rfl, ?_, ?_, ?_, h.mem⟩
  · have := h.link.same [] .work (by simp) (by simp) (by simp) (by simp)
    simpa using this
  · have hc := h.place.cur
    have ha := h.place.ans
    have hw := h.place.wait
    rw [hp] at hc hw
    refine h.place.calm (by simp) rfl rfl (by simp [hp]) (by simp [hp]) (by simp) ?_ hc (fun j hj => ?_)
    · exact ⟨fun hh => (by cases hh), fun hh => by have := hw.2 hh; cases this⟩
    · have hji : i = j := by simpa [current] using hj
      subst hji
      rw [ha i hcur, hp]; simp
  · refine ⟨fun j b hj => ?_, fun j b hb => ?_, fun j h1 h2 => notAsked_grow (h.verdicts.denied j h1 h2) _⟩
    · simp only [Pc.decided.injEq] at hj
      obtain ⟨rfl, rfl⟩ := hj
      exact ⟨hist, [], rfl, h4, decide_permits h hE h3 h5 hd⟩
    · obtain ⟨p, rest, rfl, h1, h2, h3⟩ := h.verdicts.answered j b hb
      exact ⟨p, rest ++ [.work], by simp, h1, h2, fun hg => by simp [h3 hg]⟩

theorem hinv_verdict (h : HInv E.N w hist) {i : Nat} {v : Bool} (hp : w.pc = .decided i v)
    (hs : api { w with pc := .answered i } (.verdict i v) = some w') : HInv E.N w' (hist ++ [.work]) := by
  have hc := api_called hs
  have hcur : current w.pc = some i := by rw [hp]; rfl
  obtain ⟨h1, h2, h3, h4, h5⟩ := current_facts h hcur
  have hA := inv_of (w := { w with pc := .answered i }) h.auth hc.step h1 (by simp)
  obtain ⟨hpl, hl, hn, hr, hf⟩ := verdict_fx hc.step
  have hlog : w'.auth.log = w.auth.log := (doVerdict_eq (w := w.auth) hc.step).2.1
  have htr : w'.trace = w.trace ++ [.verdict i v] := hc.trace
  have hpc : w'.pc = .answered i := by rw [hc.notice (s := []) (by simp [hlog])]; rfl
  have hnone : answer i w.trace = none := (h.place.ans i hcur).2 (by rw [hp]; simp)
  have hfree : ∀ j, Auth.Ev.free j ∈ w'.trace ↔ Auth.Ev.free j ∈ w.trace := by intro j; rw [htr]; simp
  have hans : ∀ j, answer j w'.trace = if j = i then some v else answer j w.trace := by
    intro j
    rw [htr, answer_append]
    by_cases hji : j = i
    · subst hji; simp [hnone, answer]
    · simp [answer, Ne.symm hji, hji]
  refine ⟨hc.trace ▸ hA, h.data.dull rfl hn hc.iam hc.conns hc.reqs, ?_, ?_, ?_, hc.memory h.mem hn hf⟩
  · rw [hc.trace]; exact h.link.same _ _ (by simp) (by simp) (by simp) (by simp)
  · have hcc := h.place.cur
    have hw := h.place.wait
    rw [hp] at hcc hw
    refine h.place.calm (by simp) (by rw [hl]) (by rw [hl]) (by simp [hp, hpc]) (by simp [hp, hpc]) (by simp [hpc]) ?_ (fun j => ?_) (fun j hj => ?_)
    · rw [hpc, hl]
      exact ⟨fun hh => (by cases hh), fun hh => by have := hw.2 hh; cases this⟩
    · rw [hlog, hfree, hpc]; exact hcc j
    · rw [hpc] at hj
      obtain rfl : i = j := by simpa [current] using hj
      rw [hans, if_pos rfl, hpc]; simp
  · refine ⟨fun j b hj => (by rw [hpc] at hj; cases hj), fun j b hb => ?_, fun j hj1 hj2 => ?_⟩
    · rw [hans] at hb
      by_cases hji : j = i
      · subst hji
        rw [if_pos rfl] at hb
        cases hb
        obtain ⟨p, rest, he, k1, k2⟩ := h.verdicts.decided j v hp
        refine ⟨p, rest ++ [.work], by rw [he]; simp, k1, k2, fun hg => ?_⟩
        rw [hlog] at hg
        exact absurd ((facts h.auth j).fresh h2 hnone).2.1 hg
      · rw [if_neg hji] at hb
        obtain ⟨p, rest, rfl, k1, k2, k3⟩ := h.verdicts.answered j b hb
        exact ⟨p, rest ++ [.work], by simp, k1, k2, fun hg => by rw [hlog] at hg; simp [k3 hg]⟩
    · rw [hans] at hj2
      by_cases hji : j = i
      · rw [if_pos hji] at hj2; cases hj2
      · rw [if_neg hji] at hj2
        rw [hr j hji] at hj1
        exact notAsked_grow (h.verdicts.denied j hj1 hj2) _

theorem hinv_free (h : HInv E.N w hist) {i : Nat} (hp : w.pc = .answered i) (hs : api { w with pc := .listening } (.free i) = some w') :
    HInv E.N w' (hist ++ [.work]) := by
  have hc := api_called hs
  have hcur : current w.pc = some i := by rw [hp]; rfl
  obtain ⟨h1, h2, h3, h4, h5⟩ := current_facts h hcur
  have hA := inv_of (w := { w with pc := .listening }) h.auth hc.step h1 (by simp)
  obtain ⟨hpl, hl, hn, hr⟩ := free_fx hc.step
  obtain ⟨s, hls, hsg⟩ := hpl.log
  have htr : w'.trace = w.trace ++ [.free i] := hc.trace
  have hpc : w'.pc = .listening := by rw [hc.notice hls, notice_given _ _ hsg]
  have hsome : answer i w.trace ≠ none := fun hn => ((h.place.ans i hcur).1 hn) hp
  have hans : ∀ j, answer j w'.trace = answer j w.trace := by
    intro j
    rw [htr, answer_append]
    by_cases hji : j = i
    · subst hji
      cases ha : answer j w.trace with
      | none => exact absurd ha hsome
      | some v => rfl
    · simp [answer, Ne.symm hji]
  have hgv : ∀ j, given j w'.auth.log = given j w.auth.log := by
    intro j
    have e1 : given j w'.auth.log = given j w.auth.log ++ given j s := by rw [hls]; exact given_append _ _ _
    have hst := hc.step
    simp only [Auth.step, Auth.free] at hst
    have : w'.auth.log = w.auth.log := by
      split at hst
      · cases hst
      · split at hst
        · cases hd : doVerdict w.auth i false with
          | none => rw [hd] at hst; cases hst
          | some k =>
            rw [hd] at hst
            exact ((refDec_eq (w := k) hst).2.1).trans (doVerdict_eq hd).2.1
        · exact (refDec_eq (w := w.auth) hst).2.1
    rw [this]
  refine ⟨hc.trace ▸ hA, h.data.dull rfl hn hc.iam hc.conns hc.reqs, ?_, ?_, ?_, ?_⟩
  · rw [hc.trace]; exact h.link.same _ _ (by simp) (by simp) (by simp) (by simp)
  · have hcc := h.place.cur
    have hw := h.place.wait
    refine h.place.calm (by simp) (by rw [hl]) (by rw [hl]) (by simp [hp, hpc]) (by simp [hp, hpc]) (by simp [hpc]) ?_ (fun j => ?_) (fun j hj => ?_)
    · rw [hp] at hw
      rw [hpc, hl]
      exact ⟨fun hh => (by cases hh), fun hh => by have := hw.2 hh; cases this⟩
    · have hhj : handed j w'.auth.log = handed j w.auth.log := by
        rw [hls, handed_append, handed_given _ _ hsg]; rfl
      rw [hhj, hpc, htr]
      constructor
      · rintro ⟨k1, k2⟩
        rw [List.mem_append, not_or] at k2
        have := (hcc j).1 ⟨k1, k2.1⟩
        rw [hcur] at this
        obtain rfl : i = j := by simpa using this
        exact absurd (List.mem_singleton.2 rfl) k2.2
      · intro hh; cases hh
    · rw [hpc] at hj; cases hj
  · refine ⟨fun j b hj => (by rw [hpc] at hj; cases hj), fun j b hb => ?_, fun j hj1 hj2 => ?_⟩
    · rw [hans] at hb
      obtain ⟨p, rest, rfl, k1, k2, k3⟩ := h.verdicts.answered j b hb
      exact ⟨p, rest ++ [.work], by simp, k1, k2, fun hg => by rw [hgv] at hg; simp [k3 hg]⟩
    · rw [hans] at hj2
      have hji : j ≠ i := fun hji => by subst hji; exact hsome hj2
      rw [hr j hji] at hj1
      exact notAsked_grow (h.verdicts.denied j hj1 hj2) _
  · exact hc.memory_own h.mem hn h3 (fun j hj => by rw [hr j hj]) (by show (w.auth.reqs i).freed = true → _; rw [h5]; simp)

theorem hinv_idle (h : HInv E.N w hist) : HInv E.N w (hist ++ [.work]) :=
  hinv_quiet h rfl rfl rfl (h.data.dull rfl rfl rfl rfl rfl) (by simp) h.mem

theorem hinv_work (h : HInv E.N w hist) (hE : IsMap E.ins) (hs : work E w = some w') : HInv E.N w' (hist ++ [.work]) := by
  unfold work at hs
  cases hp : w.pc with
  | listening => rw [hp] at hs; exact hinv_listen h hp hs
  | called i =>
    rw [hp] at hs
    simp only at hs
    cases hd : decideReq E w i with
    | none => rw [hd] at hs; cases hs
    | some v =>
      rw [hd] at hs
      simp only [Option.some.injEq] at hs
      subst hs
      exact hinv_decide h hE hp hd
  | decided i v => rw [hp] at hs; exact hinv_verdict h hp hs
  | answered i => rw [hp] at hs; exact hinv_free h hp hs
  | _ =>
    rw [hp] at hs
    simp only [Option.some.injEq] at hs
    subst hs
    exact hinv_idle h

theorem hinv_step (h : HInv E.N w hist) (hE : IsMap E.ins) {e : Ev} (ha : allowed hist w e) (hs : step E w e = some w') :
    HInv E.N w' (hist ++ [e]) := by
  cases e with
  | create c a => exact hinv_create h hs
  | add i k v m1 m2 m3 => exact hinv_add h ha hs
  | discard i => exact hinv_discard h ha hs
  | check i => exact hinv_check h ha.1 ha.2 hs
  | run i => exact hinv_run h hs
  | iam x => cases hs; exact hinv_iam h x
  | conn r x => cases hs; exact hinv_conn h r x
  | init => exact hinv_init_ev h ha hs
  | work => exact hinv_work h hE hs
  | stop => exact hinv_stop h ha.1 ha.2 hs
  | deinit => exact hinv_deinit h ha.1 ha.2.1 ha.2.2 hs

/-- Nothing undefined happens. -/
theorem step_safe (h : HInv E.N w hist) {e : Ev} (ha : allowed hist w e)
    (hd : e = .work → ∀ (i c : Nat) (a : String), (creates hist)[i]? = some (c, a) → ¬ Dangling (iamOf hist) (connOf c hist) c) :
    step E w e ≠ none := by
  have go : ∀ (w2 : W) (a : Auth.Ev), w2.auth = w.auth → Allowed w.auth.next w.trace w.auth.log a → (∀ i, a = .check i → .freeListener ∉ w.trace) →
      api w2 a ≠ none := by
    intro w2 a h1 h2 h3
    obtain ⟨k, h4, -⟩ := Auth.inv_step w.auth w.trace h.auth a h2 h3
    exact api_some (by rw [h1, h4]; simp)
  cases e with
  | create c a => exact go _ .create rfl trivial (by simp)
  | add i k v m1 m2 m3 =>
    show add w i k v m1 m2 m3 ≠ none
    unfold add
    rw [own_live h ha]
    cases m1 <;> cases m2 <;> cases m3 <;> simp
  | discard i => exact go _ (.discard i) rfl (own_allowed h ha) (by simp)
  | check i => exact go _ (.check i) rfl (own_allowed h ha.1) (fun _ _ => by rw [h.link.deinit]; exact ha.2)
  | run i => exact go _ (.run i) rfl trivial (by simp)
  | iam x => simp [step]
  | conn r x => simp [step]
  | init =>
    have hns : .stop ∉ hist := fun hm => ha (h.place.stopInit hm)
    exact go _ .initListener rfl ⟨by rw [h.link.deinit]; exact fun hm => hns (h.place.goneStop hm), by rw [h.link.stop]; exact hns⟩ (by simp)
  | work =>
    show work E w ≠ none
    unfold work
    cases hp : w.pc with
    | listening =>
      refine go _ (.listen 0) rfl ?_ (by simp)
      show _ ∉ w.trace
      rw [h.link.deinit]
      exact fun hm => by have := h.place.gone.2 hm; rw [hp] at this; cases this
    | called i =>
      obtain ⟨-, -, h3, -, h5⟩ := current_facts h (i := i) (by rw [hp]; rfl)
      have hx := check_ub E w.iam (w.conns (w.reqs i).conn) (w.reqs i).conn (w.reqs i).action
        ((w.reqs i).attrs.foldl (fun m kv => E.ins m kv.1 kv.2) [])
      simp only [decide_eq E w i h5]
      cases hc : checkAccess E w.iam (w.conns (w.reqs i).conn) (w.reqs i).conn (w.reqs i).action
        ((w.reqs i).attrs.foldl (fun m kv => E.ins m kv.1 kv.2) []) with
      | ok v => simp
      | ub =>
        have hb := hx hc
        rw [h.data.iam, h.data.conns] at hb
        exact absurd hb (hd rfl i _ _ (h.data.info i h3))
    | decided i v => exact go _ (.verdict i v) rfl (current_facts h (i := i) (by rw [hp]; rfl)).1 (by simp)
    | answered i => exact go _ (.free i) rfl (current_facts h (i := i) (by rw [hp]; rfl)).1 (by simp)
    | _ => simp
  | stop => exact go _ .stopListener rfl (by show _ ∉ w.trace; rw [h.link.deinit]; exact ha.2) (by simp)
  | deinit => exact go _ .freeListener rfl ⟨by rw [h.link.deinit]; exact ha.2.1, by rw [h.link.stop]; exact ha.1⟩ (by simp)

end Verif.Iam.Handler
