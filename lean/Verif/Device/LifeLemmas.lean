import Verif.Device.LifeSpec

/-!
# Starting, closing and stopping a device — lemmas
-/

namespace Verif.Device.Life

open Spec

theorem run_snoc (ops : List Op) (op : Op) : run (ops ++ [op]) = step (run ops) op := by simp [run]

theorem run_append (a b : List Op) : run (a ++ b) = b.foldl step (run a) := by simp [run]

theorem snoc_ind {P : List Op → Prop} (h0 : P []) (hs : ∀ ops op, P ops → P (ops ++ [op])) : ∀ ops, P ops := by
  intro ops
  have : ∀ r : List Op, P r.reverse := by
    intro r
    induction r with
    | nil => exact h0
    | cons x xs ih => rw [List.reverse_cons]; exact hs _ _ ih
  have h := this ops.reverse
  rwa [List.reverse_reverse] at h

theorem polite_init {ops : List Op} {op : Op} (h : Polite (ops ++ [op])) : Polite ops := by
  intro b o a e
  exact h b o (a ++ [op]) (by rw [e]; simp)

theorem polite_left {a b : List Op} (h : Polite (a ++ b)) : Polite a := by
  intro x o y e
  exact h x o (y ++ b) (by rw [e]; simp)

theorem polite_last {ops : List Op} {op : Op} (h : Polite (ops ++ [op])) : Allowed ops op := h ops op [] rfl

/-- What holds of the futures; `p`: a start is pending. -/
structure Fut (s : St) (p : Bool) : Prop where
  nodup : (s.out.map (·.1)).Nodup
  lt : ∀ o ∈ s.out, o.1 < s.next
  startOk : p = true → ∃ f, s.startFut = some f ∧ f < s.next ∧ (∀ o ∈ s.out, o.1 ≠ f) ∧ s.closeFut ≠ some f
  closeOk : ∀ f, s.closeFut = some f → f < s.next ∧ ∀ o ∈ s.out, o.1 ≠ f
  good : s.bad = false
  all : ∀ f, f < s.next → (∃ e, (f, e) ∈ s.out) ∨ (p = true ∧ s.startFut = some f) ∨ s.closeFut = some f

/-- What holds of the rest. -/
structure Rest (s : St) : Prop where
  bind : s.bind.isSome = s.startCb
  close : s.closeFut.isSome = (s.closeCb || s.platClosing)
  one : (s.closeCb && s.platClosing) = false
  wait : s.closeCb = true → s.stopped = false → s.connsCb = true ∨ s.attachCb = true
  conns : s.connsCb = true → s.connsClosing = true ∧ 0 < s.clients + s.virtuals

structure Inv (s : St) : Prop where
  fut : Fut s s.startCb
  rest : Rest s

theorem inv_init : Inv St.init :=
  ⟨⟨by simp [St.init], by simp [St.init], by simp [St.init], by simp [St.init], rfl, by simp [St.init]⟩,
    ⟨rfl, rfl, rfl, by simp [St.init], by simp [St.init]⟩⟩

theorem fut_congr {s t : St} {p : Bool} (h : Fut s p) (ho : t.out = s.out) (hn : t.next = s.next)
    (hs : t.startFut = s.startFut) (hc : t.closeFut = s.closeFut) (hb : t.bad = s.bad) : Fut t p := by
  constructor
  · rw [ho]; exact h.nodup
  · rw [ho, hn]; exact h.lt
  · rw [ho, hn, hs, hc]; exact h.startOk
  · rw [ho, hn, hc]; exact h.closeOk
  · rw [hb]; exact h.good
  · rw [ho, hn, hs, hc]; exact h.all

/-- Resolving a future which was not resolved. -/
theorem nodup_snoc {l : List (Nat × Ec)} {f : Nat} {e : Ec} (h : (l.map (·.1)).Nodup) (hf : ∀ o ∈ l, o.1 ≠ f) :
    ((l ++ [(f, e)]).map (·.1)).Nodup := by
  rw [List.map_append]
  apply List.nodup_append.2
  refine ⟨h, by simp, ?_⟩
  intro a ha b hb
  simp at hb
  obtain ⟨o, ho, rfl⟩ := List.mem_map.1 ha
  rw [hb]
  exact hf o ho

theorem closed_some {s : St} {f : Nat} (h : s.closeFut = some f) (e : Ec) :
    s.closed e = { s with closeFut := none, out := s.out ++ [(f, e)] } := by
  unfold St.closed
  rw [h]
  rfl

theorem started_some {s : St} {f : Nat} (h : s.startFut = some f) (e : Ec) :
    s.started e = { s with out := s.out ++ [(f, e)] } := by
  have : ∀ o : Option Nat, o = some f → (match o with | some f => s.tell f e | none => { s with bad := true }) = s.tell f e := by
    intro o ho; rw [ho]
  exact this _ h

theorem fut_closed {s : St} {p : Bool} {f : Nat} (h : Fut s p) (hf : s.closeFut = some f) (e : Ec) :
    Fut { s with closeFut := none, out := s.out ++ [(f, e)] } p := by
  have hc := h.closeOk f hf
  constructor
  · exact nodup_snoc h.nodup hc.2
  · intro o ho
    rcases List.mem_append.1 ho with ho | ho
    · exact h.lt o ho
    · simp at ho; rw [ho]; exact hc.1
  · intro hp
    obtain ⟨g, hg, hl, ho, hne⟩ := h.startOk hp
    refine ⟨g, hg, hl, ?_, by simp⟩
    intro o hm
    rcases List.mem_append.1 hm with hm | hm
    · exact ho o hm
    · simp at hm; rw [hm]
      intro heq
      simp only at heq
      rw [heq] at hf
      exact hne hf
  · intro g hg; cases hg
  · exact h.good
  · intro g hg
    rcases h.all g hg with ⟨e', he⟩ | hs | hc'
    · exact Or.inl ⟨e', List.mem_append_left _ he⟩
    · exact Or.inr (Or.inl hs)
    · rw [hf] at hc'
      cases hc'
      exact Or.inl ⟨e, by simp⟩

theorem fut_started {s : St} {f : Nat} (h : Fut s true) (hf : s.startFut = some f) (e : Ec) :
    Fut { s with out := s.out ++ [(f, e)] } false := by
  obtain ⟨g, hg, hl, ho, hne⟩ := h.startOk rfl
  rw [hf] at hg; cases hg
  constructor
  · exact nodup_snoc h.nodup ho
  · intro o ho'
    rcases List.mem_append.1 ho' with ho' | ho'
    · exact h.lt o ho'
    · simp at ho'; rw [ho']; exact hl
  · intro hp; cases hp
  · intro g hg
    have hc := h.closeOk g hg
    refine ⟨hc.1, ?_⟩
    intro o hm
    rcases List.mem_append.1 hm with hm | hm
    · exact hc.2 o hm
    · simp at hm; rw [hm]
      intro heq
      simp only at heq
      apply hne
      rw [heq]
      exact hg
  · exact h.good
  · intro g hg
    rcases h.all g hg with ⟨e', he⟩ | hs | hc'
    · exact Or.inl ⟨e', List.mem_append_left _ he⟩
    · have := hs.2
      rw [hf] at this; cases this
      exact Or.inl ⟨e, by simp⟩
    · exact Or.inr (Or.inr hc')

/-- A call which takes a future and resolves it at once. -/
theorem fut_tell_new {s : St} {p : Bool} (h : Fut s p) (e : Ec) (sf : Option Nat) (hsf : p = true → sf = s.startFut) :
    Fut { s with next := s.next + 1, startFut := sf, out := s.out ++ [(s.next, e)] } p := by
  constructor
  · apply nodup_snoc h.nodup
    intro o ho heq
    have := h.lt o ho
    omega
  · intro o ho
    rcases List.mem_append.1 ho with ho | ho
    · have := h.lt o ho
      show o.1 < s.next + 1
      omega
    · simp at ho; rw [ho]
      show s.next < s.next + 1
      omega
  · intro hp
    obtain ⟨g, hg, hl, ho, hne⟩ := h.startOk hp
    refine ⟨g, ?_, ?_, ?_, hne⟩
    · show sf = some g
      rw [hsf hp]; exact hg
    · show g < s.next + 1
      omega
    · intro o hm
      rcases List.mem_append.1 hm with hm | hm
      · exact ho o hm
      · simp at hm; rw [hm]
        show s.next ≠ g
        omega
  · intro g hg
    have hc := h.closeOk g hg
    refine ⟨Nat.lt_succ_of_lt hc.1, ?_⟩
    intro o hm
    rcases List.mem_append.1 hm with hm | hm
    · exact hc.2 o hm
    · simp at hm; rw [hm]
      have := hc.1
      show s.next ≠ g
      omega
  · exact h.good
  · intro g hg
    by_cases hgn : g = s.next
    · exact Or.inl ⟨e, by rw [hgn]; simp⟩
    · have hl : g < s.next := by
        have : g < s.next + 1 := hg
        omega
      rcases h.all g hl with ⟨e', he⟩ | hs | hc'
      · exact Or.inl ⟨e', List.mem_append_left _ he⟩
      · refine Or.inr (Or.inl ⟨hs.1, ?_⟩)
        show sf = some g
        rw [hsf hs.1]; exact hs.2
      · exact Or.inr (Or.inr hc')

theorem fut_start_new {s : St} (h : Fut s false) : Fut { s with next := s.next + 1, startFut := some s.next } true := by
  constructor
  · exact h.nodup
  · intro o ho
    have := h.lt o ho
    show o.1 < s.next + 1
    omega
  · intro _
    refine ⟨s.next, rfl, Nat.lt_succ_self _, ?_, ?_⟩
    · intro o ho
      have := h.lt o ho
      omega
    · intro hc
      have := (h.closeOk _ hc).1
      omega
  · intro g hg
    have hc := h.closeOk g hg
    exact ⟨Nat.lt_succ_of_lt hc.1, hc.2⟩
  · exact h.good
  · intro g hg
    by_cases hgn : g = s.next
    · exact Or.inr (Or.inl ⟨rfl, by rw [hgn]⟩)
    · have hl : g < s.next := by
        have : g < s.next + 1 := hg
        omega
      rcases h.all g hl with he | hs | hc'
      · exact Or.inl he
      · cases hs.1
      · exact Or.inr (Or.inr hc')

theorem fut_close_new {s : St} {p : Bool} (h : Fut s p) (hn : s.closeFut = none) :
    Fut { s with next := s.next + 1, closeFut := some s.next } p := by
  constructor
  · exact h.nodup
  · intro o ho
    have := h.lt o ho
    show o.1 < s.next + 1
    omega
  · intro hp
    obtain ⟨g, hg, hl, ho, hne⟩ := h.startOk hp
    refine ⟨g, hg, Nat.lt_succ_of_lt hl, ho, ?_⟩
    intro hc
    cases hc
    omega
  · intro g hg
    cases hg
    refine ⟨Nat.lt_succ_self _, ?_⟩
    intro o ho
    have := h.lt o ho
    omega
  · exact h.good
  · intro g hg
    by_cases hgn : g = s.next
    · exact Or.inr (Or.inr (by rw [hgn]))
    · have hl : g < s.next := by
        have : g < s.next + 1 := hg
        omega
      rcases h.all g hl with he | hs | hc'
      · exact Or.inl he
      · exact Or.inr (Or.inl hs)
      · rw [hn] at hc'; cases hc'

theorem opt_cases {α} (o : Option α) : o = none ∨ ∃ a, o = some a := by cases o <;> simp

/-- What `resolveStartClose` does, in a state in which the callbacks stand for the futures. `s` has no bind result queued. -/
theorem resolve_spec {s : St} (h : Fut s s.startCb) (hc : s.closeFut.isSome = (s.closeCb || s.platClosing))
    (h1 : (s.closeCb && s.platClosing) = false) (e : Ec) :
    Fut (s.resolveStartClose e) false ∧ (s.resolveStartClose e).startCb = false ∧
    (s.resolveStartClose e).closeCb = false ∧
    (s.resolveStartClose e).closeFut.isSome = (s.resolveStartClose e).platClosing ∧
    (s.resolveStartClose e).bind = s.bind ∧ (s.resolveStartClose e).connsCb = s.connsCb ∧
    (s.resolveStartClose e).connsClosing = s.connsClosing ∧
    (s.resolveStartClose e).clients = s.clients ∧ (s.resolveStartClose e).virtuals = s.virtuals := by
  have key : ∃ s2 : St, (if s.closeCb then ({ s with startCb := false, closeCb := false } : St).coreClosed e
      else { s with startCb := false, closeCb := false }) = s2 ∧ Fut s2 s.startCb ∧ s2.startCb = false ∧ s2.closeCb = false ∧
      s2.closeFut.isSome = s2.platClosing ∧ s2.bind = s.bind ∧ s2.connsCb = s.connsCb ∧ s2.connsClosing = s.connsClosing ∧
      s2.clients = s.clients ∧ s2.virtuals = s.virtuals := by
    refine ⟨_, rfl, ?_⟩
    by_cases hcb : s.closeCb = true
    · rw [if_pos hcb]
      have hp : s.platClosing = false := by rw [hcb] at h1; simpa using h1
      have hsome : s.closeFut.isSome = true := by rw [hc, hcb]; rfl
      obtain ⟨f, hf⟩ := Option.isSome_iff_exists.1 hsome
      unfold St.coreClosed
      by_cases he : e ≠ .ok
      · rw [if_pos he, closed_some (s := { s with startCb := false, closeCb := false }) (f := f) hf]
        refine ⟨?_, rfl, rfl, ?_, rfl, rfl, rfl, rfl, rfl⟩
        · exact fut_congr (fut_closed h hf e) rfl rfl rfl rfl rfl
        · exact hp.symm
      · rw [if_neg he]
        exact ⟨fut_congr h rfl rfl rfl rfl rfl, rfl, rfl, hsome, rfl, rfl, rfl, rfl, rfl⟩
    · rw [if_neg hcb]
      have hcb' : s.closeCb = false := by simpa using hcb
      refine ⟨fut_congr h rfl rfl rfl rfl rfl, rfl, rfl, ?_, rfl, rfl, rfl, rfl, rfl⟩
      show s.closeFut.isSome = s.platClosing
      rw [hc, hcb']; rfl
  obtain ⟨s2, hs2, hfut, ha, hb, hcl, hd, he1, he2, hf1, hf2⟩ := key
  have hdef : s.resolveStartClose e = if s.startCb then s2.started e else s2 := by
    rw [← hs2]; rfl
  rw [hdef]
  by_cases hsc : s.startCb = true
  · rw [if_pos hsc]
    rw [hsc] at hfut
    obtain ⟨f, hf, -⟩ := hfut.startOk rfl
    rw [started_some hf]
    exact ⟨fut_started hfut hf e, ha, hb, hcl, hd, he1, he2, hf1, hf2⟩
  · rw [if_neg hsc]
    have : s.startCb = false := by simpa using hsc
    rw [this] at hfut
    exact ⟨hfut, ha, hb, hcl, hd, he1, he2, hf1, hf2⟩

theorem inv_of_resolve {s : St} (h : Inv s) (e : Ec) (c : Core) :
    Inv (({ s with bind := none, core := c } : St).resolveStartClose e) := by
  have hr := resolve_spec (s := { s with bind := none, core := c }) (fut_congr h.fut rfl rfl rfl rfl rfl)
    h.rest.close h.rest.one e
  obtain ⟨hf, ha, hb, hc, hd, h1, h2, h3, h4⟩ := hr
  refine ⟨?_, ?_, ?_, ?_, ?_, ?_⟩
  · rw [ha]; exact hf
  · rw [hd, ha]; rfl
  · rw [hb, hc]; rfl
  · rw [hb]; rfl
  · intro hcb; rw [hb] at hcb; cases hcb
  · rw [h1, h2, h3, h4]
    exact h.rest.conns

/-- The application may do this in this state. -/
def Ok (s : St) : Op → Prop
  | .start .. => s.startCb = false
  | _ => True

theorem inv_connFreed {s : St} (hf : Fut s s.startCb) (hb : s.bind.isSome = s.startCb)
    (hc : s.closeFut.isSome = (s.closeCb || s.platClosing)) (h1 : (s.closeCb && s.platClosing) = false)
    (hw : s.closeCb = true → s.stopped = false → s.connsCb = true ∨ s.attachCb = true)
    (hcl : s.connsCb = true → s.connsClosing = true) : Inv s.connFreed := by
  unfold St.connFreed
  by_cases hcond : (s.connsClosing && s.clients + s.virtuals == 0 && s.connsCb) = true
  · rw [if_pos hcond]
    refine ⟨fut_congr hf rfl rfl rfl rfl rfl, hb, hc, h1, ?_, ?_⟩
    · intro _ _; exact Or.inr rfl
    · intro hx; cases hx
  · rw [if_neg hcond]
    refine ⟨hf, hb, hc, h1, hw, ?_⟩
    intro hx
    refine ⟨hcl hx, ?_⟩
    rw [hcl hx, hx] at hcond
    simp at hcond
    omega

theorem inv_step {s : St} {op : Op} (h : Inv s) (hok : Ok s op) : Inv (step s op) := by
  obtain ⟨hf, hb, hc, h1, hw, hcl⟩ := h
  cases op with
  | setKeys k => exact ⟨fut_congr hf rfl rfl rfl rfl rfl, hb, hc, h1, hw, hcl⟩
  | start a b c =>
    have hs : s.startCb = false := hok
    show Inv (s.start a b c)
    have hf' : Fut s false := by rw [← hs]; exact hf
    have told : ∀ e, Inv (({ s with next := s.next + 1, startFut := some s.next } : St).tell s.next e) := by
      intro e
      refine ⟨?_, hb, hc, h1, hw, hcl⟩
      show Fut { s with next := s.next + 1, startFut := some s.next, out := s.out ++ [(s.next, e)] } s.startCb
      exact fut_tell_new hf e (some s.next) (by intro hx; rw [hs] at hx; cases hx)
    unfold St.start
    by_cases h2 : (!s.keys) = true
    · rw [if_pos h2]; exact told _
    rw [if_neg h2]
    by_cases h3 : a ≠ .ok
    · rw [if_pos h3]; exact told _
    rw [if_neg h3]
    by_cases h4 : b ≠ .ok
    · rw [if_pos h4]; exact told _
    rw [if_neg h4]
    refine ⟨?_, rfl, hc, h1, hw, hcl⟩
    exact fut_congr (fut_start_new hf') rfl rfl rfl rfl rfl
  | close =>
    show Inv s.close
    have told : ∀ e, Inv (({ s with next := s.next + 1 } : St).tell s.next e) := by
      intro e
      exact ⟨fut_tell_new hf e s.startFut (fun _ => rfl), hb, hc, h1, hw, hcl⟩
    unfold St.close
    by_cases h2 : s.closeFut.isSome = true
    · rw [if_pos h2]; exact told _
    rw [if_neg h2]
    by_cases h3 : s.core ≠ .running
    · rw [if_pos h3]; exact told _
    rw [if_neg h3]
    have hn : s.closeFut = none := by simpa using h2
    have hp : s.platClosing = false := by
      rw [hn] at hc
      cases hx : s.platClosing
      · rfl
      · rw [hx] at hc; simp at hc
    by_cases h4 : s.clients = 0
    · refine ⟨?_, ?_⟩
      · dsimp only
        rw [if_pos h4]
        exact fut_congr (fut_close_new hf hn) rfl rfl rfl rfl rfl
      · dsimp only
        rw [if_pos h4]
        refine ⟨hb, rfl, ?_, ?_, ?_⟩
        · show (true && s.platClosing) = false
          rw [hp]; rfl
        · intro _ _; exact Or.inr rfl
        · intro hx; exact ⟨rfl, (hcl hx).2⟩
    · refine ⟨?_, ?_⟩
      · dsimp only
        rw [if_neg h4]
        exact fut_congr (fut_close_new hf hn) rfl rfl rfl rfl rfl
      · dsimp only
        rw [if_neg h4]
        refine ⟨hb, rfl, ?_, ?_, ?_⟩
        · show (true && s.platClosing) = false
          rw [hp]; rfl
        · intro _ _; exact Or.inl rfl
        · intro _
          refine ⟨rfl, ?_⟩
          show 0 < s.clients + s.virtuals
          omega
  | stop =>
    show Inv s.stop
    unfold St.stop
    by_cases h2 : s.stopped = true
    · rw [if_pos h2]; exact ⟨hf, hb, hc, h1, hw, hcl⟩
    rw [if_neg h2]
    refine ⟨fut_congr hf rfl rfl rfl rfl rfl, hb, hc, h1, ?_, ?_⟩
    · intro _ hx; cases hx
    · intro hx
      refine ⟨rfl, ?_⟩
      have hx' : (if s.clients = 0 then s.connsCb else false) = true := hx
      by_cases h4 : s.clients = 0
      · rw [if_pos h4] at hx'; exact (hcl hx').2
      · rw [if_neg h4] at hx'; cases hx'
  | runBind a b =>
    show Inv (s.runBind a b)
    unfold St.runBind
    rcases opt_cases s.bind with hn | ⟨e, he⟩
    · rw [hn]; exact ⟨hf, by rw [hn]; rw [hn] at hb; exact hb, hc, h1, hw, hcl⟩
    · have hs : s.startCb = true := by rw [← hb, he]; rfl
      rw [he]
      dsimp only
      have hI : Inv s := ⟨hf, hb, hc, h1, hw, hcl⟩
      by_cases h2 : s.core = .stopped
      · rw [if_pos h2]; exact inv_of_resolve hI _ s.core
      rw [if_neg h2]
      by_cases h3 : e ≠ .ok
      · rw [if_pos h3]; exact inv_of_resolve hI _ .stopped
      rw [if_neg h3]
      split
      · exact ⟨fut_congr hf rfl rfl rfl rfl rfl, by show true = s.startCb; rw [hs], hc, h1, hw, hcl⟩
      · exact ⟨fut_congr hf rfl rfl rfl rfl rfl, by show true = s.startCb; rw [hs], hc, h1, hw, hcl⟩
      · exact inv_of_resolve hI _ s.core
  | attachClosed =>
    show Inv s.attachClosed
    unfold St.attachClosed
    by_cases h2 : s.attachCb = true
    · rw [if_pos h2]
      dsimp only
      by_cases h3 : s.closeCb = true
      · rw [if_pos h3]
        unfold St.coreClosed
        rw [if_neg (by simp)]
        refine ⟨fut_congr hf rfl rfl rfl rfl rfl, hb, ?_, rfl, ?_, hcl⟩
        · show s.closeFut.isSome = (false || true)
          rw [hc, h3]; rfl
        · intro hx; cases hx
      · rw [if_neg h3]
        refine ⟨fut_congr hf rfl rfl rfl rfl rfl, hb, hc, h1, ?_, hcl⟩
        intro hx; exact absurd hx h3
    · rw [if_neg h2]; exact ⟨hf, hb, hc, h1, hw, hcl⟩
  | platClosed e =>
    show Inv (if s.platClosing then { s with platClosing := false }.closed e else s)
    by_cases h2 : s.platClosing = true
    · rw [if_pos h2]
      have hsome : s.closeFut.isSome = true := by rw [hc, h2]; simp
      have h3 : s.closeCb = false := by rw [h2] at h1; simpa using h1
      obtain ⟨f, hf'⟩ := Option.isSome_iff_exists.1 hsome
      rw [closed_some (s := { s with platClosing := false }) (f := f) hf']
      refine ⟨fut_congr (fut_closed hf hf' e) rfl rfl rfl rfl rfl, hb, ?_, ?_, hw, hcl⟩
      · show false = (s.closeCb || false)
        rw [h3]; rfl
      · show (s.closeCb && false) = false
        rw [h3]; rfl
    · rw [if_neg h2]; exact ⟨hf, hb, hc, h1, hw, hcl⟩
  | clientOpened =>
    refine ⟨fut_congr hf rfl rfl rfl rfl rfl, hb, hc, h1, hw, ?_⟩
    intro hx
    refine ⟨(hcl hx).1, ?_⟩
    show 0 < s.clients + 1 + s.virtuals
    omega
  | clientFreed =>
    show Inv (if s.clients = 0 then s else { s with clients := s.clients - 1 }.connFreed)
    by_cases h2 : s.clients = 0
    · rw [if_pos h2]; exact ⟨hf, hb, hc, h1, hw, hcl⟩
    · rw [if_neg h2]
      exact inv_connFreed (fut_congr hf rfl rfl rfl rfl rfl) hb hc h1 hw (fun hx => (hcl hx).1)
  | virtualOpened =>
    refine ⟨fut_congr hf rfl rfl rfl rfl rfl, hb, hc, h1, hw, ?_⟩
    intro hx
    refine ⟨(hcl hx).1, ?_⟩
    show 0 < s.clients + (s.virtuals + 1)
    omega
  | virtualFreed =>
    show Inv (if s.virtuals = 0 then s else { s with virtuals := s.virtuals - 1 }.connFreed)
    by_cases h2 : s.virtuals = 0
    · rw [if_pos h2]; exact ⟨hf, hb, hc, h1, hw, hcl⟩
    · rw [if_neg h2]
      exact inv_connFreed (fut_congr hf rfl rfl rfl rfl rfl) hb hc h1 hw (fun hx => (hcl hx).1)

/-! ## The futures and their calls -/

theorem coreClosed_frame (s : St) (e : Ec) : (s.coreClosed e).next = s.next ∧ (s.coreClosed e).startFut = s.startFut ∧
    ((s.coreClosed e).closeFut = s.closeFut ∨ (s.coreClosed e).closeFut = none) ∧
    (∃ l, (s.coreClosed e).out = s.out ++ l) ∧ (s.coreClosed e).startCb = s.startCb ∧
    (s.coreClosed e).stage = s.stage ∧ (s.coreClosed e).bind = s.bind := by
  unfold St.coreClosed
  split
  · unfold St.closed
    split
    · exact ⟨rfl, rfl, Or.inr rfl, ⟨_, rfl⟩, rfl, rfl, rfl⟩
    · exact ⟨rfl, rfl, Or.inl rfl, ⟨[], by simp⟩, rfl, rfl, rfl⟩
  · exact ⟨rfl, rfl, Or.inl rfl, ⟨[], by simp⟩, rfl, rfl, rfl⟩

theorem started_frame (s : St) (e : Ec) : (s.started e).next = s.next ∧ (s.started e).startFut = s.startFut ∧
    (s.started e).closeFut = s.closeFut ∧ (∃ l, (s.started e).out = s.out ++ l) ∧ (s.started e).startCb = s.startCb := by
  unfold St.started
  split
  · exact ⟨rfl, rfl, rfl, ⟨_, rfl⟩, rfl⟩
  · exact ⟨rfl, rfl, rfl, ⟨[], by simp⟩, rfl⟩

theorem resolve_frame (s : St) (e : Ec) : (s.resolveStartClose e).next = s.next ∧
    (s.resolveStartClose e).startFut = s.startFut ∧
    ((s.resolveStartClose e).closeFut = s.closeFut ∨ (s.resolveStartClose e).closeFut = none) ∧
    (∃ l, (s.resolveStartClose e).out = s.out ++ l) ∧ (s.resolveStartClose e).startCb = false := by
  have key : ∃ s2 : St, (if s.closeCb then ({ s with startCb := false, closeCb := false } : St).coreClosed e
      else { s with startCb := false, closeCb := false }) = s2 ∧ s2.next = s.next ∧ s2.startFut = s.startFut ∧
      (s2.closeFut = s.closeFut ∨ s2.closeFut = none) ∧ (∃ l, s2.out = s.out ++ l) ∧ s2.startCb = false := by
    refine ⟨_, rfl, ?_⟩
    split
    · have h := coreClosed_frame { s with startCb := false, closeCb := false } e
      exact ⟨h.1, h.2.1, h.2.2.1, h.2.2.2.1, h.2.2.2.2.1⟩
    · exact ⟨rfl, rfl, Or.inl rfl, ⟨[], by simp⟩, rfl⟩
  obtain ⟨s2, hs2, h1, h2, h3, ⟨l, h4⟩, h5⟩ := key
  have hdef : s.resolveStartClose e = if s.startCb then s2.started e else s2 := by
    rw [← hs2]; rfl
  rw [hdef]
  split
  · have h := started_frame s2 e
    obtain ⟨l', hl'⟩ := h.2.2.2.1
    refine ⟨h.1.trans h1, h.2.1.trans h2, ?_, ⟨l ++ l', ?_⟩, h.2.2.2.2.trans h5⟩
    · rw [h.2.2.1]; exact h3
    · rw [hl', h4]; simp
  · exact ⟨h1, h2, h3, ⟨l, h4⟩, h5⟩

theorem connFreed_frame (s : St) : s.connFreed.next = s.next ∧ s.connFreed.startFut = s.startFut ∧
    s.connFreed.closeFut = s.closeFut ∧ s.connFreed.out = s.out ∧ s.connFreed.startCb = s.startCb ∧
    s.connFreed.stage = s.stage ∧ s.connFreed.bind = s.bind ∧ s.connFreed.core = s.core ∧
    s.connFreed.closeCb = s.closeCb ∧ s.connFreed.platClosing = s.platClosing ∧
    (s.attachCb = true → s.connFreed.attachCb = true) := by
  unfold St.connFreed
  split
  · exact ⟨rfl, rfl, rfl, rfl, rfl, rfl, rfl, rfl, rfl, rfl, fun _ => rfl⟩
  · exact ⟨rfl, rfl, rfl, rfl, rfl, rfl, rfl, rfl, rfl, rfl, id⟩

/-- What an operation without a future leaves alone. -/
theorem frame (s : St) (op : Op) (h : takesFuture op = false) : (step s op).next = s.next ∧
    (step s op).startFut = s.startFut ∧ ((step s op).closeFut = s.closeFut ∨ (step s op).closeFut = none) ∧
    ∃ l, (step s op).out = s.out ++ l := by
  have same : ∀ t : St, t.next = s.next → t.startFut = s.startFut → t.closeFut = s.closeFut → t.out = s.out →
      t.next = s.next ∧ t.startFut = s.startFut ∧ (t.closeFut = s.closeFut ∨ t.closeFut = none) ∧ ∃ l, t.out = s.out ++ l :=
    fun t a b c d => ⟨a, b, Or.inl c, ⟨[], by rw [d]; simp⟩⟩
  cases op with
  | setKeys k => exact same _ rfl rfl rfl rfl
  | start a b c => cases h
  | close => cases h
  | stop =>
    show _ = _ ∧ _
    dsimp only [step]
    unfold St.stop
    split <;> exact same _ rfl rfl rfl rfl
  | runBind a b =>
    dsimp only [step]
    unfold St.runBind
    split
    · exact same _ rfl rfl rfl rfl
    · dsimp only
      split
      · have h := resolve_frame { s with bind := none } .stopped
        exact ⟨h.1, h.2.1, h.2.2.1, h.2.2.2.1⟩
      · split
        · have h := resolve_frame { s with bind := none, core := .stopped } ‹Ec›
          exact ⟨h.1, h.2.1, h.2.2.1, h.2.2.2.1⟩
        · split
          · exact same _ rfl rfl rfl rfl
          · exact same _ rfl rfl rfl rfl
          · have h := resolve_frame { s with bind := none } b
            exact ⟨h.1, h.2.1, h.2.2.1, h.2.2.2.1⟩
  | attachClosed =>
    dsimp only [step]
    unfold St.attachClosed
    split
    · dsimp only
      split
      · have h := coreClosed_frame { s with attachCb := false, closeCb := false } .ok
        exact ⟨h.1, h.2.1, h.2.2.1, h.2.2.2.1⟩
      · exact same _ rfl rfl rfl rfl
    · exact same _ rfl rfl rfl rfl
  | platClosed e =>
    dsimp only [step]
    split
    · unfold St.closed
      split
      · exact ⟨rfl, rfl, Or.inr rfl, ⟨_, rfl⟩⟩
      · exact same _ rfl rfl rfl rfl
    · exact same _ rfl rfl rfl rfl
  | clientOpened => exact same _ rfl rfl rfl rfl
  | virtualOpened => exact same _ rfl rfl rfl rfl
  | clientFreed =>
    dsimp only [step]
    split
    · exact same _ rfl rfl rfl rfl
    · have h := connFreed_frame { s with clients := s.clients - 1 }
      exact same _ h.1 h.2.1 h.2.2.1 h.2.2.2.1
  | virtualFreed =>
    dsimp only [step]
    split
    · exact same _ rfl rfl rfl rfl
    · have h := connFreed_frame { s with virtuals := s.virtuals - 1 }
      exact same _ h.1 h.2.1 h.2.2.1 h.2.2.2.1

theorem start_frame (s : St) (a b c : Ec) : (s.start a b c).next = s.next + 1 ∧
    (s.start a b c).startFut = some s.next ∧ (s.start a b c).closeFut = s.closeFut ∧
    ∃ l, (s.start a b c).out = s.out ++ l := by
  unfold St.start
  dsimp only
  split
  · exact ⟨rfl, rfl, rfl, ⟨_, rfl⟩⟩
  · split
    · exact ⟨rfl, rfl, rfl, ⟨_, rfl⟩⟩
    · split
      · exact ⟨rfl, rfl, rfl, ⟨_, rfl⟩⟩
      · exact ⟨rfl, rfl, rfl, ⟨[], by simp⟩⟩

theorem close_frame (s : St) : s.close.next = s.next + 1 ∧ s.close.startFut = s.startFut ∧
    (s.close.closeFut = s.closeFut ∨ s.close.closeFut = some s.next) ∧ (∃ l, s.close.out = s.out ++ l) ∧
    s.close.startCb = s.startCb ∧ s.close.stage = s.stage ∧ s.close.bind = s.bind := by
  unfold St.close
  dsimp only
  split
  · exact ⟨rfl, rfl, Or.inl rfl, ⟨_, rfl⟩, rfl, rfl, rfl⟩
  · split
    · exact ⟨rfl, rfl, Or.inl rfl, ⟨_, rfl⟩, rfl, rfl, rfl⟩
    · split
      · exact ⟨rfl, rfl, Or.inr rfl, ⟨[], by simp [St.clientsClosed]⟩, rfl, rfl, rfl⟩
      · exact ⟨rfl, rfl, Or.inr rfl, ⟨[], by simp⟩, rfl, rfl, rfl⟩

theorem step_out (s : St) (op : Op) : ∃ l, (step s op).out = s.out ++ l := by
  cases h : takesFuture op with
  | false => exact (frame s op h).2.2.2
  | true =>
    cases op <;> simp [takesFuture] at h
    · exact (start_frame s _ _ _).2.2.2
    · exact (close_frame s).2.2.2.1

theorem out_mono (s : St) (ops : List Op) (o : Nat × Ec) (h : o ∈ s.out) : o ∈ (ops.foldl step s).out := by
  induction ops generalizing s with
  | nil => exact h
  | cons x xs ih =>
    apply ih
    obtain ⟨l, hl⟩ := step_out s x
    rw [hl]; exact List.mem_append_left _ h

theorem resolved_mono {ops : List Op} {i : Nat} {e : Ec} (h : Resolved ops i e) (more : List Op) :
    Resolved (ops ++ more) i e := by
  unfold Resolved
  rw [run_append]
  exact out_mono _ more _ h

/-- The futures of the state are those of the calls. -/
structure Linked (ops : List Op) : Prop where
  next : (run ops).next = (calls ops).length
  start : ∀ f, (run ops).startFut = some f → ∃ a b c, (calls ops)[f]? = some (.start a b c)
  close : ∀ f, (run ops).closeFut = some f → (calls ops)[f]? = some .close

theorem calls_snoc (ops : List Op) (op : Op) : calls (ops ++ [op]) = if takesFuture op then calls ops ++ [op] else calls ops := by
  unfold calls
  rw [List.filter_append]
  cases h : takesFuture op <;> simp [h]

theorem get_snoc {l : List Op} {i : Nat} {x y : Op} (h : l[i]? = some x) : (l ++ [y])[i]? = some x := by
  obtain ⟨hi, hx⟩ := List.getElem?_eq_some_iff.1 h
  rw [List.getElem?_append_left hi]; exact h

theorem linked (ops : List Op) : Linked ops := by
  induction ops using snoc_ind with
  | h0 => exact ⟨rfl, (by intro f hf; cases hf), (by intro f hf; cases hf)⟩
  | hs ops op ih =>
    obtain ⟨hn, hs, hc⟩ := ih
    cases h : takesFuture op with
    | false =>
      obtain ⟨f1, f2, f3, -⟩ := frame (run ops) op h
      have hcalls : calls (ops ++ [op]) = calls ops := by rw [calls_snoc, h]; rfl
      refine ⟨?_, ?_, ?_⟩
      · rw [run_snoc, hcalls, f1]; exact hn
      · intro f hf
        rw [run_snoc, f2] at hf
        rw [hcalls]; exact hs f hf
      · intro f hf
        rw [run_snoc] at hf
        rw [hcalls]
        rcases f3 with f3 | f3
        · rw [f3] at hf; exact hc f hf
        · rw [f3] at hf; cases hf
    | true =>
      have hcalls : calls (ops ++ [op]) = calls ops ++ [op] := by rw [calls_snoc, h]; rfl
      cases op <;> simp [takesFuture] at h
      · rename_i a b c
        have g := start_frame (run ops) a b c
        refine ⟨?_, ?_, ?_⟩
        · rw [run_snoc, hcalls]
          show ((run ops).start a b c).next = _
          rw [g.1, hn]; simp
        · intro f hf
          rw [run_snoc] at hf
          have hf' : ((run ops).start a b c).startFut = some f := hf
          rw [g.2.1] at hf'
          cases hf'
          refine ⟨a, b, c, ?_⟩
          rw [hcalls, hn]; simp
        · intro f hf
          rw [run_snoc] at hf
          have hf' : ((run ops).start a b c).closeFut = some f := hf
          rw [g.2.2.1] at hf'
          rw [hcalls]; exact get_snoc (hc f hf')
      · have g := close_frame (run ops)
        refine ⟨?_, ?_, ?_⟩
        · rw [run_snoc, hcalls]
          show (run ops).close.next = _
          rw [g.1, hn]; simp
        · intro f hf
          rw [run_snoc] at hf
          have hf' : (run ops).close.startFut = some f := hf
          rw [g.2.1] at hf'
          obtain ⟨a, b, c, hx⟩ := hs f hf'
          exact ⟨a, b, c, by rw [hcalls]; exact get_snoc hx⟩
        · intro f hf
          rw [run_snoc] at hf
          have hf' : (run ops).close.closeFut = some f := hf
          rw [hcalls]
          rcases g.2.2.1 with g1 | g1
          · rw [g1] at hf'; exact get_snoc (hc f hf')
          · rw [g1] at hf'
            cases hf'
            rw [hn]; simp

theorem ok_of_allowed {ops : List Op} {op : Op} (hi : Inv (run ops)) (h : Allowed ops op) : Ok (run ops) op := by
  cases op <;> try trivial
  rename_i a b c
  show (run ops).startCb = false
  cases hs : (run ops).startCb with
  | false => rfl
  | true =>
    obtain ⟨f, hf, -, hno, -⟩ := hi.fut.startOk hs
    obtain ⟨x, y, z, hx⟩ := (linked ops).start f hf
    obtain ⟨e, he⟩ := h f _ hx rfl
    exact absurd rfl (hno _ he)

theorem inv_run (ops : List Op) (h : Polite ops) : Inv (run ops) := by
  induction ops using snoc_ind with
  | h0 => exact inv_init
  | hs ops op ih =>
    have hi := ih (polite_init h)
    rw [run_snoc]
    exact inv_step hi (ok_of_allowed hi (polite_last h))

/-! ## Progress of a start -/

/-- How many bind results a pending start still needs, at most. -/
def rank (s : St) : Nat :=
  if s.startCb then
    match s.stage with
    | .p2p => 3
    | .localPort => 2
    | .secondary => 1
  else 0

theorem rank_zero {s : St} (h : s.startCb = false) : rank s = 0 := by unfold rank; rw [h]; rfl

theorem rank_congr {s t : St} (h1 : t.startCb = s.startCb) (h2 : t.stage = s.stage) : rank t = rank s := by
  unfold rank; rw [h1, h2]

theorem rank_runBind (s : St) (a b : Ec) (h : s.bind.isSome = s.startCb) : rank (s.runBind a b) ≤ rank s - 1 := by
  unfold St.runBind
  rcases opt_cases s.bind with hn | ⟨e, he⟩
  · rw [hn] at h
    have : s.startCb = false := h.symm
    rw [hn]
    rw [rank_zero (by exact this)]
    exact Nat.zero_le _
  · rw [he] at h
    have hs : s.startCb = true := h.symm
    rw [he]
    dsimp only
    split
    · rw [rank_zero (resolve_frame _ _).2.2.2.2]; exact Nat.zero_le _
    · split
      · rw [rank_zero (resolve_frame _ _).2.2.2.2]; exact Nat.zero_le _
      · split
        · next hst => unfold rank; dsimp only; rw [hs, hst]; decide
        · next hst => unfold rank; dsimp only; rw [hs, hst]; decide
        · rw [rank_zero (resolve_frame _ _).2.2.2.2]; exact Nat.zero_le _

theorem rank_step (s : St) (op : Op) (h : isStart op = false) (hb : s.bind.isSome = s.startCb) :
    rank (step s op) ≤ rank s := by
  cases op with
  | start a b c => cases h
  | runBind a b => exact Nat.le_trans (rank_runBind s a b hb) (Nat.sub_le _ _)
  | setKeys k => exact Nat.le_of_eq (rank_congr rfl rfl)
  | close => exact Nat.le_of_eq (rank_congr (close_frame s).2.2.2.2.1 (close_frame s).2.2.2.2.2.1)
  | stop =>
    dsimp only [step]
    unfold St.stop
    split <;> exact Nat.le_of_eq (rank_congr rfl rfl)
  | attachClosed =>
    dsimp only [step]
    unfold St.attachClosed
    split
    · dsimp only
      split
      · have h := coreClosed_frame { s with attachCb := false, closeCb := false } .ok
        exact Nat.le_of_eq (rank_congr h.2.2.2.2.1 h.2.2.2.2.2.1)
      · exact Nat.le_of_eq (rank_congr rfl rfl)
    · exact Nat.le_refl _
  | platClosed e =>
    dsimp only [step]
    split
    · unfold St.closed
      split <;> exact Nat.le_of_eq (rank_congr rfl rfl)
    · exact Nat.le_refl _
  | clientOpened => exact Nat.le_of_eq (rank_congr rfl rfl)
  | virtualOpened => exact Nat.le_of_eq (rank_congr rfl rfl)
  | clientFreed =>
    dsimp only [step]
    split
    · exact Nat.le_refl _
    · have h := connFreed_frame { s with clients := s.clients - 1 }
      exact Nat.le_of_eq (rank_congr h.2.2.2.2.1 h.2.2.2.2.2.1)
  | virtualFreed =>
    dsimp only [step]
    split
    · exact Nat.le_refl _
    · have h := connFreed_frame { s with virtuals := s.virtuals - 1 }
      exact Nat.le_of_eq (rank_congr h.2.2.2.2.1 h.2.2.2.2.2.1)

/-- Where a future is, for a call which was made. -/
theorem where_is {ops : List Op} (h : Polite ops) {i : Nat} {op : Op} (hc : (calls ops)[i]? = some op) :
    (∃ e, Resolved ops i e) ∨
    (isStart op = true ∧ (run ops).startCb = true ∧ (run ops).startFut = some i) ∨
    (op = .close ∧ (run ops).closeFut = some i) := by
  have hi := inv_run ops h
  have hl := linked ops
  obtain ⟨hlt, -⟩ := List.getElem?_eq_some_iff.1 hc
  rcases hi.fut.all i (by rw [hl.next]; exact hlt) with he | ⟨hs, hf⟩ | hf
  · exact Or.inl he
  · obtain ⟨a, b, c, hx⟩ := hl.start i hf
    rw [hc] at hx
    cases hx
    exact Or.inr (Or.inl ⟨rfl, hs, hf⟩)
  · have hx := hl.close i hf
    rw [hc] at hx
    cases hx
    exact Or.inr (Or.inr ⟨rfl, hf⟩)

theorem calls_mono {ops : List Op} {i : Nat} {op : Op} (hc : (calls ops)[i]? = some op) (more : List Op) :
    (calls (ops ++ more))[i]? = some op := by
  unfold calls
  rw [List.filter_append]
  obtain ⟨hlt, -⟩ := List.getElem?_eq_some_iff.1 hc
  exact (List.getElem?_append_left hlt).trans hc

theorem start_progress {ops : List Op} {i : Nat} {op : Op} (hop : isStart op = true)
    (hc : (calls ops)[i]? = some op) (more : List Op) (hp : Polite (ops ++ more)) :
    (∃ e, Resolved (ops ++ more) i e) ∨ rank (run (ops ++ more)) ≤ 3 - more.countP isRunBind := by
  induction more using snoc_ind with
  | h0 =>
    right
    unfold rank
    split
    · split <;> simp
    · exact Nat.zero_le _
  | hs more x ih =>
    have hp' : Polite ((ops ++ more) ++ [x]) := by rw [List.append_assoc]; exact hp
    rcases ih (polite_init hp') with ⟨e, he⟩ | hr
    · left
      refine ⟨e, ?_⟩
      rw [← List.append_assoc]
      exact resolved_mono he [x]
    · by_cases hx : isStart x = true
      · left
        cases x <;> simp [isStart] at hx
        obtain ⟨e, he⟩ := polite_last hp' i op (calls_mono hc more) hop
        refine ⟨e, ?_⟩
        rw [← List.append_assoc]
        exact resolved_mono he _
      · right
        have hi := inv_run _ (polite_init hp')
        rw [← List.append_assoc, run_snoc, List.countP_append]
        by_cases hb : isRunBind x = true
        · cases x <;> simp [isRunBind] at hb
          rename_i a b
          have h1 := rank_runBind (run (ops ++ more)) a b hi.rest.bind
          have h2 : rank (step (run (ops ++ more)) (.runBind a b)) = rank ((run (ops ++ more)).runBind a b) := rfl
          rw [h2]
          simp only [List.countP_singleton, isRunBind]
          simp only [if_true]
          omega
        · have h1 := rank_step (run (ops ++ more)) x (by simpa using hx) hi.rest.bind
          rw [List.countP_singleton, if_neg hb]
          omega

/-! ## Progress of a close -/

/-- The close with this future waits for the attacher, or for the platform, or is done. -/
def Near (s : St) (i : Nat) : Prop :=
  (∃ e, (i, e) ∈ s.out) ∨ (s.closeFut = some i ∧ (s.platClosing = true ∨ (s.closeCb = true ∧ s.attachCb = true)))

/-- It waits for the platform, or is done. -/
def Nearer (s : St) (i : Nat) : Prop := (∃ e, (i, e) ∈ s.out) ∨ (s.closeFut = some i ∧ s.platClosing = true)

theorem resolve_close {s : St} {i : Nat} (hf : s.closeFut = some i) (hn : Near s i) (e : Ec) :
    Near (s.resolveStartClose e) i ∧ (Nearer s i → Nearer (s.resolveStartClose e) i) := by
  have key : ∀ s2 : St, (if s.closeCb then ({ s with startCb := false, closeCb := false } : St).coreClosed e
      else { s with startCb := false, closeCb := false }) = s2 → Nearer s2 i := by
    intro s2 hs2
    rcases hn with ⟨e', he⟩ | ⟨_, hp⟩
    · left
      refine ⟨e', ?_⟩
      rw [← hs2]
      split
      · obtain ⟨l, hl⟩ := (coreClosed_frame { s with startCb := false, closeCb := false } e).2.2.2.1
        rw [hl]; exact List.mem_append_left _ he
      · exact he
    · by_cases hcb : s.closeCb = true
      · rw [if_pos hcb] at hs2
        unfold St.coreClosed at hs2
        by_cases h : e ≠ .ok
        · rw [if_pos h, closed_some (s := { s with startCb := false, closeCb := false }) (f := i) hf] at hs2
          left
          exact ⟨e, by rw [← hs2]; simp⟩
        · rw [if_neg h] at hs2
          right
          rw [← hs2]
          exact ⟨hf, rfl⟩
      · rw [if_neg hcb] at hs2
        rcases hp with hp | hp
        · right
          rw [← hs2]
          exact ⟨hf, hp⟩
        · exact absurd hp.1 hcb
  have fin : Nearer (s.resolveStartClose e) i := by
    have h2 := key _ rfl
    unfold St.resolveStartClose
    dsimp only
    split
    · have g := started_frame (if s.closeCb then ({ s with startCb := false, closeCb := false } : St).coreClosed e
        else { s with startCb := false, closeCb := false }) e
      rcases h2 with ⟨e', he⟩ | ⟨h3, h4⟩
      · left
        obtain ⟨l, hl⟩ := g.2.2.2.1
        exact ⟨e', by rw [hl]; exact List.mem_append_left _ he⟩
      · right
        refine ⟨g.2.2.1.trans h3, ?_⟩
        unfold St.started
        split
        · exact h4
        · exact h4
    · exact h2
  refine ⟨?_, fun _ => fin⟩
  rcases fin with h | ⟨h1, h2⟩
  · exact Or.inl h
  · exact Or.inr ⟨h1, Or.inl h2⟩

theorem near_of_nearer {s : St} {i : Nat} (h : Nearer s i) : Near s i := by
  rcases h with h | ⟨h1, h2⟩
  · exact Or.inl h
  · exact Or.inr ⟨h1, Or.inl h2⟩

theorem near_congr {s t : St} {i : Nat} (h : Near s i) (h1 : ∃ l, t.out = s.out ++ l) (h2 : t.closeFut = s.closeFut)
    (h3 : t.platClosing = s.platClosing) (h4 : t.closeCb = s.closeCb) (h5 : s.attachCb = true → t.attachCb = true) :
    Near t i := by
  obtain ⟨l, hl⟩ := h1
  rcases h with ⟨e, he⟩ | ⟨hf, hp⟩
  · exact Or.inl ⟨e, by rw [hl]; exact List.mem_append_left _ he⟩
  · refine Or.inr ⟨h2.trans hf, ?_⟩
    rcases hp with hp | ⟨ha, hb⟩
    · exact Or.inl (h3.trans hp)
    · exact Or.inr ⟨h4.trans ha, h5 hb⟩

theorem nearer_congr {s t : St} {i : Nat} (h : Nearer s i) (h1 : ∃ l, t.out = s.out ++ l) (h2 : t.closeFut = s.closeFut)
    (h3 : t.platClosing = s.platClosing) : Nearer t i := by
  obtain ⟨l, hl⟩ := h1
  rcases h with ⟨e, he⟩ | ⟨hf, hp⟩
  · exact Or.inl ⟨e, by rw [hl]; exact List.mem_append_left _ he⟩
  · exact Or.inr ⟨h2.trans hf, h3.trans hp⟩

/-- Operations which neither resolve a close nor make one. -/
theorem close_same (s : St) (op : Op) (hf : s.closeFut ≠ none)
    (h : match op with | .runBind .. | .attachClosed | .platClosed _ => False | _ => True) :
    (step s op).closeFut = s.closeFut ∧ (step s op).platClosing = s.platClosing ∧ (step s op).closeCb = s.closeCb ∧
    (s.attachCb = true → (step s op).attachCb = true) := by
  cases op with
  | runBind a b => cases h
  | attachClosed => cases h
  | platClosed e => cases h
  | setKeys k => exact ⟨rfl, rfl, rfl, id⟩
  | start a b c =>
    dsimp only [step]
    unfold St.start
    dsimp only
    split
    · exact ⟨rfl, rfl, rfl, id⟩
    · split
      · exact ⟨rfl, rfl, rfl, id⟩
      · split
        · exact ⟨rfl, rfl, rfl, id⟩
        · exact ⟨rfl, rfl, rfl, id⟩
  | close =>
    dsimp only [step]
    unfold St.close
    dsimp only
    rw [if_pos (by cases hx : s.closeFut with | none => exact absurd hx hf | some f => rfl)]
    exact ⟨rfl, rfl, rfl, id⟩
  | stop =>
    dsimp only [step]
    unfold St.stop
    split <;> exact ⟨rfl, rfl, rfl, id⟩
  | clientOpened => exact ⟨rfl, rfl, rfl, id⟩
  | virtualOpened => exact ⟨rfl, rfl, rfl, id⟩
  | clientFreed =>
    dsimp only [step]
    split
    · exact ⟨rfl, rfl, rfl, id⟩
    · have h := connFreed_frame { s with clients := s.clients - 1 }
      exact ⟨h.2.2.1, h.2.2.2.2.2.2.2.2.2.1, h.2.2.2.2.2.2.2.2.1, h.2.2.2.2.2.2.2.2.2.2⟩
  | virtualFreed =>
    dsimp only [step]
    split
    · exact ⟨rfl, rfl, rfl, id⟩
    · have h := connFreed_frame { s with virtuals := s.virtuals - 1 }
      exact ⟨h.2.2.1, h.2.2.2.2.2.2.2.2.2.1, h.2.2.2.2.2.2.2.2.1, h.2.2.2.2.2.2.2.2.2.2⟩

theorem near_attachClosed {s : St} {i : Nat} (hi : Rest s) (h : Near s i) : Nearer (step s .attachClosed) i := by
  rcases h with ⟨e, he⟩ | ⟨hf, hp⟩
  · obtain ⟨l, hl⟩ := step_out s .attachClosed
    exact Or.inl ⟨e, by rw [hl]; exact List.mem_append_left _ he⟩
  · show Nearer s.attachClosed i
    right
    unfold St.attachClosed
    rcases hp with hp | ⟨ha, hb⟩
    · have hcb : s.closeCb = false := by
        have := hi.one
        rw [hp] at this
        simpa using this
      split
      · dsimp only
        rw [if_neg (by rw [hcb]; simp)]
        exact ⟨hf, hp⟩
      · exact ⟨hf, hp⟩
    · rw [if_pos hb]
      dsimp only
      rw [if_pos ha]
      unfold St.coreClosed
      rw [if_neg (by simp)]
      exact ⟨hf, rfl⟩

theorem nearer_platClosed {s : St} {i : Nat} (h : Nearer s i) (e : Ec) : ∃ e', (i, e') ∈ (step s (.platClosed e)).out := by
  rcases h with ⟨e', he⟩ | ⟨hf, hp⟩
  · obtain ⟨l, hl⟩ := step_out s (.platClosed e)
    exact ⟨e', by rw [hl]; exact List.mem_append_left _ he⟩
  · dsimp only [step]
    rw [if_pos hp, closed_some (s := { s with platClosing := false }) (f := i) hf]
    exact ⟨e, by simp⟩

theorem nearer_runBind {s : St} {i : Nat} (h : Near s i) (a b : Ec) :
    Near (step s (.runBind a b)) i ∧ (Nearer s i → Nearer (step s (.runBind a b)) i) := by
  rcases h with ⟨e, he⟩ | ⟨hf, hp⟩
  · obtain ⟨l, hl⟩ := step_out s (.runBind a b)
    have : (i, e) ∈ (step s (.runBind a b)).out := by rw [hl]; exact List.mem_append_left _ he
    exact ⟨Or.inl ⟨e, this⟩, fun _ => Or.inl ⟨e, this⟩⟩
  · have h : Near s i := Or.inr ⟨hf, hp⟩
    show Near (s.runBind a b) i ∧ (Nearer s i → Nearer (s.runBind a b) i)
    unfold St.runBind
    have res : ∀ t : St, t.closeFut = s.closeFut → t.out = s.out → t.platClosing = s.platClosing →
        t.closeCb = s.closeCb → t.attachCb = s.attachCb → ∀ e, Near (t.resolveStartClose e) i ∧
        (Nearer s i → Nearer (t.resolveStartClose e) i) := by
      intro t t1 t2 t3 t4 t5 e
      have hn : Near t i := near_congr h ⟨[], by rw [t2]; simp⟩ t1 t3 t4 (by rw [t5]; exact id)
      have r := resolve_close (t1.trans hf) hn e
      exact ⟨r.1, fun hr => r.2 (nearer_congr hr ⟨[], by rw [t2]; simp⟩ t1 t3)⟩
    split
    · exact ⟨h, id⟩
    · dsimp only
      split
      · apply res <;> rfl
      · split
        · apply res <;> rfl
        · split
          · exact ⟨near_congr h ⟨[], by simp⟩ rfl rfl rfl id, fun hr => nearer_congr hr ⟨[], by simp⟩ rfl rfl⟩
          · exact ⟨near_congr h ⟨[], by simp⟩ rfl rfl rfl id, fun hr => nearer_congr hr ⟨[], by simp⟩ rfl rfl⟩
          · apply res <;> rfl

theorem near_step {s : St} {i : Nat} (hi : Rest s) (h : Near s i) (op : Op) :
    Near (step s op) i ∧ (Nearer s i → Nearer (step s op) i) := by
  by_cases hop : match op with | .runBind .. | .attachClosed | .platClosed _ => False | _ => True
  · rcases h with ⟨e, he⟩ | ⟨hf, hp⟩
    · obtain ⟨l, hl⟩ := step_out s op
      have : (i, e) ∈ (step s op).out := by rw [hl]; exact List.mem_append_left _ he
      exact ⟨Or.inl ⟨e, this⟩, fun _ => Or.inl ⟨e, this⟩⟩
    · have g := close_same s op (by rw [hf]; simp) hop
      exact ⟨near_congr (Or.inr ⟨hf, hp⟩) (step_out s op) g.1 g.2.1 g.2.2.1 g.2.2.2,
        fun hr => nearer_congr hr (step_out s op) g.1 g.2.1⟩
  · cases op with
    | runBind a b => exact nearer_runBind h a b
    | attachClosed =>
      have := near_attachClosed hi h
      exact ⟨near_of_nearer this, fun _ => this⟩
    | platClosed e =>
      by_cases hp : s.platClosing = true
      · have hn : Nearer s i := by
          rcases h with h | ⟨h1, h2⟩
          · exact Or.inl h
          · exact Or.inr ⟨h1, hp⟩
        have := nearer_platClosed hn e
        exact ⟨Or.inl this, fun _ => Or.inl this⟩
      · have : step s (.platClosed e) = s := by dsimp only [step]; rw [if_neg hp]
        rw [this]
        exact ⟨h, id⟩
    | _ => exact absurd trivial hop

theorem near_run {ops more : List Op} {i : Nat} (hp : Polite (ops ++ more)) (h : Near (run ops) i) :
    Near (run (ops ++ more)) i ∧ (Nearer (run ops) i → Nearer (run (ops ++ more)) i) := by
  induction more using snoc_ind with
  | h0 => rw [List.append_nil]; exact ⟨h, id⟩
  | hs more x ih =>
    have hp' : Polite ((ops ++ more) ++ [x]) := by rw [List.append_assoc]; exact hp
    have hi := ih (polite_init hp')
    have hr := (inv_run _ (polite_init hp')).rest
    rw [← List.append_assoc, run_snoc]
    have g := near_step hr hi.1 x
    exact ⟨g.1, fun hn => g.2 (hi.2 hn)⟩

theorem stopped_iff (ops : List Op) : (run ops).stopped = true → .stop ∈ ops := by
  induction ops using snoc_ind with
  | h0 => intro h; cases h
  | hs ops op ih =>
    intro h
    by_cases hop : op = .stop
    · rw [hop]; simp
    · apply List.mem_append_left
      apply ih
      rw [run_snoc] at h
      have key : (step (run ops) op).stopped = (run ops).stopped := by
        have cf : ∀ (s : St) e, (s.coreClosed e).stopped = s.stopped := by
          intro s e
          unfold St.coreClosed
          split
          · unfold St.closed; split <;> rfl
          · rfl
        have rf : ∀ (s : St) e, (s.resolveStartClose e).stopped = s.stopped := by
          intro s e
          unfold St.resolveStartClose
          dsimp only
          have k : (if s.closeCb then ({ s with startCb := false, closeCb := false } : St).coreClosed e
              else { s with startCb := false, closeCb := false }).stopped = s.stopped := by
            split
            · exact cf _ e
            · rfl
          split
          · unfold St.started
            split <;> exact k
          · exact k
        have ff : ∀ s : St, s.connFreed.stopped = s.stopped := by
          intro s; unfold St.connFreed; split <;> rfl
        cases op with
        | stop => exact absurd rfl hop
        | setKeys k => rfl
        | start a b c =>
          dsimp only [step]
          unfold St.start
          dsimp only
          split
          · rfl
          · split
            · rfl
            · split <;> rfl
        | close =>
          dsimp only [step]
          unfold St.close
          dsimp only
          split
          · rfl
          · split
            · rfl
            · split <;> rfl
        | runBind a b =>
          dsimp only [step]
          unfold St.runBind
          split
          · rfl
          · dsimp only
            split
            · exact rf _ _
            · split
              · exact rf _ _
              · split
                · rfl
                · rfl
                · exact rf _ _
        | attachClosed =>
          dsimp only [step]
          unfold St.attachClosed
          split
          · dsimp only
            split
            · exact cf _ _
            · rfl
          · rfl
        | platClosed e =>
          dsimp only [step]
          split
          · unfold St.closed; split <;> rfl
          · rfl
        | clientOpened => rfl
        | virtualOpened => rfl
        | clientFreed =>
          dsimp only [step]
          split
          · rfl
          · exact ff _
        | virtualFreed =>
          dsimp only [step]
          split
          · rfl
          · exact ff _
      rw [key] at h
      exact h

/-! ## The result of a start -/

theorem keys_step (s : St) (op : Op) : (step s op).keys = match op with | .setKeys b => b | _ => s.keys := by
  have cf : ∀ (s : St) e, (s.coreClosed e).keys = s.keys := by
    intro s e
    unfold St.coreClosed
    split
    · unfold St.closed; split <;> rfl
    · rfl
  have rf : ∀ (s : St) e, (s.resolveStartClose e).keys = s.keys := by
    intro s e
    unfold St.resolveStartClose
    dsimp only
    have k : (if s.closeCb then ({ s with startCb := false, closeCb := false } : St).coreClosed e
        else { s with startCb := false, closeCb := false }).keys = s.keys := by
      split
      · exact cf _ e
      · rfl
    split
    · unfold St.started
      split <;> exact k
    · exact k
  cases op with
  | stop =>
    dsimp only [step]
    unfold St.stop
    split <;> rfl
  | setKeys k => rfl
  | start a b c =>
    dsimp only [step]
    unfold St.start
    dsimp only
    repeat' split
    all_goals rfl
  | close =>
    dsimp only [step]
    unfold St.close
    dsimp only
    repeat' split
    all_goals rfl
  | runBind a b =>
    dsimp only [step]
    unfold St.runBind
    split
    · rfl
    · dsimp only
      split
      · exact rf _ _
      · split
        · exact rf _ _
        · split
          · rfl
          · rfl
          · exact rf _ _
  | attachClosed =>
    dsimp only [step]
    unfold St.attachClosed
    split
    · dsimp only
      split
      · exact cf _ _
      · rfl
    · rfl
  | platClosed e =>
    dsimp only [step]
    split
    · unfold St.closed; split <;> rfl
    · rfl
  | clientOpened => rfl
  | virtualOpened => rfl
  | clientFreed =>
    dsimp only [step]
    split
    · rfl
    · unfold St.connFreed; split <;> rfl
  | virtualFreed =>
    dsimp only [step]
    split
    · rfl
    · unfold St.connFreed; split <;> rfl

theorem keys_run (ops : List Op) : (run ops).keys = keysSet ops := by
  induction ops using snoc_ind with
  | h0 => rfl
  | hs ops op ih =>
    rw [run_snoc, keys_step]
    unfold keysSet at ih ⊢
    rw [List.foldl_append]
    cases op <;> first | rfl | exact ih

/-- The device is starting: this result of binding is in the queue. -/
structure Starting (s : St) (i : Nat) (st : Stage) (e : Ec) (c : Core) : Prop where
  cb : s.startCb = true
  fut : s.startFut = some i
  stage : s.stage = st
  bind : s.bind = some e
  core : s.core = c

theorem starting_aside {s : St} {i : Nat} {st : Stage} {e : Ec} {c : Core} (h : Starting s i st e c) (op : Op)
    (ha : Aside op) : Starting (step s op) i st e c := by
  obtain ⟨h1, h2, h3, h4, h5⟩ := h
  have cf : ∀ (s : St) e, (s.coreClosed e).core = s.core := by
    intro s e
    unfold St.coreClosed
    split
    · unfold St.closed; split <;> rfl
    · rfl
  cases op with
  | start a b c => cases ha
  | close => cases ha
  | stop => cases ha
  | runBind a b => cases ha
  | setKeys k => exact ⟨h1, h2, h3, h4, h5⟩
  | attachClosed =>
    dsimp only [step]
    unfold St.attachClosed
    split
    · dsimp only
      split
      · have g := coreClosed_frame { s with attachCb := false, closeCb := false } .ok
        exact ⟨g.2.2.2.2.1.trans h1, g.2.1.trans h2, g.2.2.2.2.2.1.trans h3, g.2.2.2.2.2.2.trans h4, (cf _ _).trans h5⟩
      · exact ⟨h1, h2, h3, h4, h5⟩
    · exact ⟨h1, h2, h3, h4, h5⟩
  | platClosed e' =>
    dsimp only [step]
    split
    · unfold St.closed
      split
      · exact ⟨h1, h2, h3, h4, h5⟩
      · exact ⟨h1, h2, h3, h4, h5⟩
    · exact ⟨h1, h2, h3, h4, h5⟩
  | clientOpened => exact ⟨h1, h2, h3, h4, h5⟩
  | virtualOpened => exact ⟨h1, h2, h3, h4, h5⟩
  | clientFreed =>
    dsimp only [step]
    split
    · exact ⟨h1, h2, h3, h4, h5⟩
    · have g := connFreed_frame { s with clients := s.clients - 1 }
      exact ⟨g.2.2.2.2.1.trans h1, g.2.1.trans h2, g.2.2.2.2.2.1.trans h3, g.2.2.2.2.2.2.1.trans h4,
        g.2.2.2.2.2.2.2.1.trans h5⟩
  | virtualFreed =>
    dsimp only [step]
    split
    · exact ⟨h1, h2, h3, h4, h5⟩
    · have g := connFreed_frame { s with virtuals := s.virtuals - 1 }
      exact ⟨g.2.2.2.2.1.trans h1, g.2.1.trans h2, g.2.2.2.2.2.1.trans h3, g.2.2.2.2.2.2.1.trans h4,
        g.2.2.2.2.2.2.2.1.trans h5⟩

theorem starting_asides {s : St} {i : Nat} {st : Stage} {e : Ec} {c : Core} (h : Starting s i st e c) (m : List Op)
    (ha : ∀ op ∈ m, Aside op) : Starting (m.foldl step s) i st e c := by
  induction m generalizing s with
  | nil => exact h
  | cons x xs ih => exact ih (starting_aside h x (ha x (by simp))) (fun op ho => ha op (List.mem_cons_of_mem _ ho))

theorem resolve_starts {s : St} {i : Nat} (h1 : s.startCb = true) (h2 : s.startFut = some i) (e : Ec) :
    (i, e) ∈ (s.resolveStartClose e).out := by
  have k : (if s.closeCb then ({ s with startCb := false, closeCb := false } : St).coreClosed e
      else { s with startCb := false, closeCb := false }).startFut = some i := by
    split
    · exact (coreClosed_frame _ e).2.1.trans h2
    · exact h2
  unfold St.resolveStartClose
  dsimp only
  rw [if_pos h1, started_some k]
  simp

theorem starting_runBind {s : St} {i : Nat} {st : Stage} {e : Ec} {c : Core} (h : Starting s i st e c) (a b : Ec) :
    (c = .stopped → (i, Ec.stopped) ∈ (s.runBind a b).out) ∧
    (c ≠ .stopped → e ≠ .ok → (i, e) ∈ (s.runBind a b).out) ∧
    (c ≠ .stopped → e = .ok →
      (st = .p2p → Starting (s.runBind a b) i .localPort a c) ∧
      (st = .localPort → Starting (s.runBind a b) i .secondary a c) ∧
      (st = .secondary → (i, b) ∈ (s.runBind a b).out)) := by
  obtain ⟨h1, h2, h3, h4, h5⟩ := h
  have hdef : s.runBind a b = (if s.core = .stopped then ({ s with bind := none } : St).resolveStartClose .stopped
      else if e ≠ .ok then ({ s with bind := none, core := .stopped } : St).resolveStartClose e
      else match s.stage with
        | .p2p => { s with stage := .localPort, bind := some a }
        | .localPort => { s with stage := .secondary, bind := some a }
        | .secondary => ({ s with bind := none } : St).resolveStartClose b) := by
    have : ∀ o : Option Ec, o = some e → (match o with
        | none => s
        | some e =>
          if s.core = Core.stopped then ({ s with bind := none } : St).resolveStartClose Ec.stopped
          else if e ≠ Ec.ok then ({ s with bind := none, core := Core.stopped } : St).resolveStartClose e
          else match s.stage with
            | .p2p => { s with stage := .localPort, bind := some a }
            | .localPort => { s with stage := .secondary, bind := some a }
            | .secondary => ({ s with bind := none } : St).resolveStartClose b) =
        (if s.core = Core.stopped then ({ s with bind := none } : St).resolveStartClose Ec.stopped
          else if e ≠ Ec.ok then ({ s with bind := none, core := Core.stopped } : St).resolveStartClose e
          else match s.stage with
            | .p2p => { s with stage := .localPort, bind := some a }
            | .localPort => { s with stage := .secondary, bind := some a }
            | .secondary => ({ s with bind := none } : St).resolveStartClose b) := by
      intro o ho; rw [ho]
    exact this _ h4
  refine ⟨?_, ?_, ?_⟩
  · intro hc
    rw [hdef, if_pos (h5.trans hc)]
    exact resolve_starts (s := { s with bind := none }) h1 h2 _
  · intro hc he
    rw [hdef, if_neg (by rw [h5]; exact hc), if_pos he]
    exact resolve_starts (s := { s with bind := none, core := .stopped }) h1 h2 _
  · intro hc he
    rw [hdef, if_neg (by rw [h5]; exact hc), if_neg (by rw [he]; simp)]
    refine ⟨?_, ?_, ?_⟩
    · intro hst
      rw [h3, hst]
      exact ⟨h1, h2, rfl, rfl, h5⟩
    · intro hst
      rw [h3, hst]
      exact ⟨h1, h2, rfl, rfl, h5⟩
    · intro hst
      split
      · next hx => rw [h3, hst] at hx; cases hx
      · next hx => rw [h3, hst] at hx; cases hx
      · exact resolve_starts (s := { s with bind := none }) h1 h2 _

theorem start_cases (s : St) (k c e : Ec) (hk : s.keys = true) :
    (k ≠ .ok → (s.next, k) ∈ (s.start k c e).out) ∧
    (k = .ok → c ≠ .ok → (s.next, c) ∈ (s.start k c e).out) ∧
    (k = .ok → c = .ok → Starting (s.start k c e) s.next .p2p e .running) := by
  refine ⟨?_, ?_, ?_⟩
  · intro h
    unfold St.start
    rw [if_neg (by rw [hk]; simp), if_pos h]
    simp [St.tell]
  · intro h h'
    unfold St.start
    rw [if_neg (by rw [hk]; simp), if_neg (by rw [h]; simp), if_pos h']
    simp [St.tell]
  · intro h h'
    unfold St.start
    rw [if_neg (by rw [hk]; simp), if_neg (by rw [h]; simp), if_neg (by rw [h']; simp)]
    exact ⟨rfl, rfl, rfl, rfl, rfl⟩

/-! ## Futures which are never resolved -/

theorem coreClosed_new (s : St) (e : Ec) : ∀ o ∈ (s.coreClosed e).out, o ∈ s.out ∨ s.closeFut = some o.1 := by
  intro o ho
  unfold St.coreClosed at ho
  split at ho
  · unfold St.closed at ho
    split at ho
    · next f hf =>
      rcases List.mem_append.1 ho with ho | ho
      · exact Or.inl ho
      · simp at ho; right; rw [hf, ho]
    · exact Or.inl ho
  · exact Or.inl ho

theorem started_new (s : St) (e : Ec) : ∀ o ∈ (s.started e).out, o ∈ s.out ∨ s.startFut = some o.1 := by
  intro o ho
  unfold St.started at ho
  split at ho
  · next f hf =>
    rcases List.mem_append.1 ho with ho | ho
    · exact Or.inl ho
    · simp at ho; right; rw [hf, ho]
  · exact Or.inl ho

theorem resolve_new (s : St) (e : Ec) :
    ∀ o ∈ (s.resolveStartClose e).out, o ∈ s.out ∨ s.startFut = some o.1 ∨ s.closeFut = some o.1 := by
  have k : ∀ o ∈ (if s.closeCb then ({ s with startCb := false, closeCb := false } : St).coreClosed e
      else { s with startCb := false, closeCb := false }).out, o ∈ s.out ∨ s.closeFut = some o.1 := by
    intro o ho
    split at ho
    · exact coreClosed_new { s with startCb := false, closeCb := false } e o ho
    · exact Or.inl ho
  have k2 : (if s.closeCb then ({ s with startCb := false, closeCb := false } : St).coreClosed e
      else { s with startCb := false, closeCb := false }).startFut = s.startFut := by
    split
    · exact (coreClosed_frame _ e).2.1
    · rfl
  intro o ho
  unfold St.resolveStartClose at ho
  dsimp only at ho
  split at ho
  · rcases started_new _ e o ho with ho | ho
    · rcases k o ho with h | h
      · exact Or.inl h
      · exact Or.inr (Or.inr h)
    · right; left
      rw [← k2]; exact ho
  · rcases k o ho with h | h
    · exact Or.inl h
    · exact Or.inr (Or.inr h)

/-- The futures which a step resolves. -/
theorem step_new (s : St) (op : Op) : ∀ o ∈ (step s op).out,
    o ∈ s.out ∨ s.startFut = some o.1 ∨ s.closeFut = some o.1 ∨ o.1 = s.next := by
  have weak : ∀ o, (o ∈ s.out ∨ s.startFut = some o.1 ∨ s.closeFut = some o.1) →
      (o ∈ s.out ∨ s.startFut = some o.1 ∨ s.closeFut = some o.1 ∨ o.1 = s.next) := by
    intro o h
    rcases h with h | h | h
    · exact Or.inl h
    · exact Or.inr (Or.inl h)
    · exact Or.inr (Or.inr (Or.inl h))
  have new : ∀ o e, o ∈ s.out ++ [(s.next, e)] → 
      (o ∈ s.out ∨ s.startFut = some o.1 ∨ s.closeFut = some o.1 ∨ o.1 = s.next) := by
    intro o e h
    rcases List.mem_append.1 h with h | h
    · exact Or.inl h
    · simp at h; right; right; right; rw [h]
  intro o
  cases op with
  | setKeys k => exact Or.inl
  | clientOpened => exact Or.inl
  | virtualOpened => exact Or.inl
  | start a b c =>
    dsimp only [step]
    unfold St.start
    dsimp only
    intro ho
    split at ho
    · exact new o _ ho
    · split at ho
      · exact new o _ ho
      · split at ho
        · exact new o _ ho
        · exact Or.inl ho
  | close =>
    dsimp only [step]
    unfold St.close
    dsimp only
    intro ho
    split at ho
    · exact new o _ ho
    · split at ho
      · exact new o _ ho
      · split at ho <;> exact Or.inl ho
  | stop =>
    dsimp only [step]
    unfold St.stop
    intro ho
    split at ho <;> exact Or.inl ho
  | runBind a b =>
    dsimp only [step]
    unfold St.runBind
    intro ho
    split at ho
    · exact Or.inl ho
    · dsimp only at ho
      split at ho
      · exact weak o (resolve_new { s with bind := none } _ o ho)
      · split at ho
        · exact weak o (resolve_new { s with bind := none, core := .stopped } _ o ho)
        · split at ho
          · exact Or.inl ho
          · exact Or.inl ho
          · exact weak o (resolve_new { s with bind := none } _ o ho)
  | attachClosed =>
    dsimp only [step]
    unfold St.attachClosed
    intro ho
    split at ho
    · dsimp only at ho
      split at ho
      · rcases coreClosed_new { s with attachCb := false, closeCb := false } _ o ho with h | h
        · exact Or.inl h
        · exact Or.inr (Or.inr (Or.inl h))
      · exact Or.inl ho
    · exact Or.inl ho
  | platClosed e =>
    dsimp only [step]
    intro ho
    split at ho
    · rcases opt_cases s.closeFut with hn | ⟨f, hf⟩
      · unfold St.closed at ho
        dsimp only at ho
        rw [hn] at ho
        exact Or.inl ho
      · rw [closed_some (s := { s with platClosing := false }) (f := f) hf] at ho
        rcases List.mem_append.1 ho with ho | ho
        · exact Or.inl ho
        · simp at ho
          right; right; left
          rw [hf, ho]
    · exact Or.inl ho
  | clientFreed =>
    dsimp only [step]
    intro ho
    split at ho
    · exact Or.inl ho
    · rw [(connFreed_frame _).2.2.2.1] at ho
      exact Or.inl ho
  | virtualFreed =>
    dsimp only [step]
    intro ho
    split at ho
    · exact Or.inl ho
    · rw [(connFreed_frame _).2.2.2.1] at ho
      exact Or.inl ho

/-- A future which the device has forgotten. -/
structure Lost (s : St) (i : Nat) : Prop where
  start : s.startFut ≠ some i
  close : s.closeFut ≠ some i
  lt : i < s.next
  out : ∀ o ∈ s.out, o.1 ≠ i

theorem lost_step {s : St} {i : Nat} (h : Lost s i) (op : Op) : Lost (step s op) i := by
  have hout : ∀ o ∈ (step s op).out, o.1 ≠ i := by
    intro o ho heq
    rcases step_new s op o ho with h1 | h1 | h1 | h1
    · exact h.out o h1 heq
    · rw [heq] at h1; exact h.start h1
    · rw [heq] at h1; exact h.close h1
    · have := h.lt; omega
  cases hop : takesFuture op with
  | false =>
    obtain ⟨f1, f2, f3, -⟩ := frame s op hop
    refine ⟨by rw [f2]; exact h.start, ?_, by rw [f1]; exact h.lt, hout⟩
    rcases f3 with f3 | f3
    · rw [f3]; exact h.close
    · rw [f3]; simp
  | true =>
    have hne : s.next ≠ i := by have := h.lt; omega
    cases op <;> simp [takesFuture] at hop
    · rename_i a b c
      have g := start_frame s a b c
      refine ⟨?_, ?_, ?_, hout⟩
      · show (s.start a b c).startFut ≠ some i
        rw [g.2.1]; simpa using hne
      · show (s.start a b c).closeFut ≠ some i
        rw [g.2.2.1]; exact h.close
      · show i < (s.start a b c).next
        rw [g.1]; exact Nat.lt_succ_of_lt h.lt
    · have g := close_frame s
      refine ⟨?_, ?_, ?_, hout⟩
      · show s.close.startFut ≠ some i
        rw [g.2.1]; exact h.start
      · show s.close.closeFut ≠ some i
        rcases g.2.2.1 with g1 | g1
        · rw [g1]; exact h.close
        · rw [g1]; simpa using hne
      · show i < s.close.next
        rw [g.1]; exact Nat.lt_succ_of_lt h.lt

theorem lost_run {s : St} {i : Nat} (h : Lost s i) (more : List Op) : Lost (more.foldl step s) i := by
  induction more generalizing s with
  | nil => exact h
  | cons x xs ih => exact ih (lost_step h x)

/-- A close which waits for connections only. -/
structure Stuck (s : St) (i : Nat) : Prop where
  fut : s.closeFut = some i
  plat : s.platClosing = false
  attach : s.attachCb = false
  bind : s.bind = none
  out : ∀ o ∈ s.out, o.1 ≠ i
  lt : i < s.next

theorem stuck_step {s : St} {i : Nat} (h : Stuck s i) (op : Op) (hop : isStart op = false)
    (hc : s.connsCb = false ∨ (0 < s.virtuals ∧ op ≠ .virtualFreed)) :
    Stuck (step s op) i ∧ ((step s op).connsCb = false ∨ (s.connsCb = true ∧ 0 < (step s op).virtuals)) := by
  obtain ⟨h1, h2, h3, h4, h5, h6⟩ := h
  have hs : Stuck s i := ⟨h1, h2, h3, h4, h5, h6⟩
  have keep : s.connsCb = false ∨ (s.connsCb = true ∧ 0 < s.virtuals) := by
    cases hx : s.connsCb with
    | false => exact Or.inl rfl
    | true =>
      rcases hc with hc | hc
      · rw [hx] at hc; cases hc
      · exact Or.inr ⟨rfl, hc.1⟩
  cases op with
  | start a b c => cases hop
  | setKeys k => exact ⟨⟨h1, h2, h3, h4, h5, h6⟩, keep⟩
  | close =>
    dsimp only [step]
    unfold St.close
    dsimp only
    rw [if_pos (by rw [h1]; rfl)]
    refine ⟨⟨h1, h2, h3, h4, ?_, Nat.lt_succ_of_lt h6⟩, keep⟩
    intro o ho
    rcases List.mem_append.1 ho with ho | ho
    · exact h5 o ho
    · simp at ho; rw [ho]
      show s.next ≠ i
      omega
  | stop =>
    dsimp only [step]
    unfold St.stop
    split
    · exact ⟨hs, keep⟩
    · refine ⟨⟨h1, h2, h3, h4, h5, h6⟩, ?_⟩
      show (if s.clients = 0 then s.connsCb else false) = false ∨ _
      split
      · exact keep
      · exact Or.inl rfl
  | runBind a b =>
    have hd : step s (.runBind a b) = s := by
      have : ∀ o : Option Ec, o = none → (match o with
        | none => s
        | some e =>
          if s.core = Core.stopped then ({ s with bind := none } : St).resolveStartClose Ec.stopped
          else if e ≠ Ec.ok then ({ s with bind := none, core := Core.stopped } : St).resolveStartClose e
          else match s.stage with
            | .p2p => { s with stage := .localPort, bind := some a }
            | .localPort => { s with stage := .secondary, bind := some a }
            | .secondary => ({ s with bind := none } : St).resolveStartClose b) = s := by
        intro o ho; rw [ho]
      exact this _ h4
    rw [hd]
    exact ⟨hs, keep⟩
  | attachClosed =>
    have hd : step s .attachClosed = s := by
      dsimp only [step]
      unfold St.attachClosed
      rw [if_neg (by rw [h3]; simp)]
    rw [hd]
    exact ⟨hs, keep⟩
  | platClosed e =>
    have hd : step s (.platClosed e) = s := by
      dsimp only [step]
      rw [if_neg (by rw [h2]; simp)]
    rw [hd]
    exact ⟨hs, keep⟩
  | clientOpened => exact ⟨⟨h1, h2, h3, h4, h5, h6⟩, keep⟩
  | virtualOpened =>
    refine ⟨⟨h1, h2, h3, h4, h5, h6⟩, ?_⟩
    rcases keep with k | k
    · exact Or.inl k
    · exact Or.inr ⟨k.1, Nat.succ_pos _⟩
  | clientFreed =>
    dsimp only [step]
    split
    · exact ⟨hs, keep⟩
    · unfold St.connFreed
      rw [if_neg]
      · exact ⟨⟨h1, h2, h3, h4, h5, h6⟩, keep⟩
      · simp only [Bool.and_eq_true, beq_iff_eq]
        rcases keep with k | k
        · rw [k]; simp
        · rintro ⟨⟨-, hz⟩, -⟩
          have := k.2
          omega
  | virtualFreed =>
    rcases hc with hc | hc
    · dsimp only [step]
      split
      · exact ⟨hs, Or.inl hc⟩
      · unfold St.connFreed
        rw [if_neg]
        · exact ⟨⟨h1, h2, h3, h4, h5, h6⟩, Or.inl hc⟩
        · show ¬ (s.connsClosing && s.clients + (s.virtuals - 1) == 0 && s.connsCb) = true
          rw [hc]; simp
    · exact absurd rfl hc.2

theorem stuck_run {s : St} {i : Nat} (h : Stuck s i) (hc : s.connsCb = false) (more : List Op)
    (hm : ∀ op ∈ more, isStart op = false) : Stuck (more.foldl step s) i := by
  induction more generalizing s with
  | nil => exact h
  | cons x xs ih =>
    have g := stuck_step h x (hm x (by simp)) (Or.inl hc)
    refine ih g.1 ?_ (fun op ho => hm op (List.mem_cons_of_mem _ ho))
    rcases g.2 with g2 | g2
    · exact g2
    · rw [hc] at g2; cases g2.1

theorem stuck_virtual {s : St} {i : Nat} (h : Stuck s i) (hv : s.connsCb = false ∨ 0 < s.virtuals) (more : List Op)
    (hm : ∀ op ∈ more, isStart op = false ∧ op ≠ .virtualFreed) : Stuck (more.foldl step s) i := by
  induction more generalizing s with
  | nil => exact h
  | cons x xs ih =>
    have hx := hm x (by simp)
    have g := stuck_step h x hx.1 (hv.imp id (fun k => ⟨k, hx.2⟩))
    exact ih g.1 (g.2.imp id (fun k => k.2)) (fun op ho => hm op (List.mem_cons_of_mem _ ho))

end Verif.Device.Life
