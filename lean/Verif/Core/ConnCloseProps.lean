import Verif.Core.ConnChanProps

/-!
# Closing connections (C76, C77)
-/

namespace Verif.Core.Conn

open Spec

/-! ## C77: the end of a connection is final -/

theorem free_closed {c : Ctx} {ref : Nat} {o : Out} (h : o ∈ (free c ref).2) : o = .closeDone := by
  unfold free at h
  dsimp only at h
  split at h
  · split at h
    · simpa using h
    · simp at h
  · simp at h

/-- Nothing is said about a connection after it was closed. -/
def Final (outs : List Out) : Prop :=
  ∀ a b ref, outs = a ++ .event ref .closed :: b → ∀ o ∈ b, about o ≠ some ref

theorem final_nil : Final [] := by
  intro a b ref h
  cases a <;> cases h

theorem final_append {x y : List Out} (hx : Final x) (hy : Final y)
    (hxy : ∀ ref, .event ref .closed ∈ x → ∀ o ∈ y, about o ≠ some ref) : Final (x ++ y) := by
  intro a b ref h o ho
  rcases List.append_eq_append_iff.mp h with ⟨l, h1, h2⟩ | ⟨l, h1, h2⟩
  · exact hy l b ref h2 o ho
  · cases l with
    | nil =>
      simp only [List.nil_append] at h2
      exact hy [] b ref (by simpa using h2.symm) o ho
    | cons z l =>
      simp only [List.cons_append, List.cons.injEq] at h2
      obtain ⟨rfl, rfl⟩ := h2
      rcases List.mem_append.mp ho with ho | ho
      · exact hx a l ref h1 o ho
      · exact hxy ref (by rw [h1]; simp) o ho

theorem final_quiet {os : List Out} (h : ∀ ref, .event ref .closed ∉ os) : Final os := by
  intro a b ref e
  exact absurd (by rw [e]; simp) (h ref)

theorem final_destroy (c : Ctx) (ref : Nat) : Final (destroy c ref).2 := by
  have : (destroy c ref).2 = [.event ref .closed] ++ (free c ref).2 := rfl
  rw [this]
  refine final_append ?_ (final_quiet fun r h => by cases free_closed h) ?_
  · intro a b r h o ho
    cases a with
    | nil => simp only [List.nil_append, List.cons.injEq] at h; rw [← h.2] at ho; cases ho
    | cons x a =>
      have := congrArg List.length h
      simp at this
  · intro r _ o ho
    rw [free_about ho]; nofun

theorem closed_destroy {c : Ctx} {ref r : Nat} (h : .event r .closed ∈ (destroy c ref).2) : r = ref :=
  destroy_about h rfl

theorem final_closeLoop {sync : Nat → Bool} (ks : List Conn) (c : Ctx) (hn : (ks.map (·.ref)).Nodup) :
    Final (closeLoop sync ks c).2 := by
  induction ks generalizing c with
  | nil => exact final_nil
  | cons k ks ih =>
    simp only [List.map_cons, List.nodup_cons] at hn
    simp only [closeLoop]
    split
    · dsimp only
      rw [List.cons_append]
      refine final_append (x := [.dtlsClose k.ref]) (final_quiet (by simp)) ?_ (by simp)
      split
      · refine final_append (final_destroy _ _) (ih _ hn.2) ?_
        intro r hr o ho ha
        rw [closed_destroy hr] at ha
        obtain ⟨k', h1, h2⟩ := closeLoop_about ks ho ha
        exact hn.1 (h2 ▸ List.mem_map_of_mem h1)
      · exact ih _ hn.2
    · exact ih _ hn.2

theorem closeLoop_conns {sync : Nat → Bool} (ks : List Conn) (c : Ctx) {r : Nat}
    (hn : (ks.map (·.ref)).Nodup)
    (h : .event r .closed ∈ (closeLoop sync ks c).2) : ∀ k ∈ (closeLoop sync ks c).1.conns, k.ref ≠ r := by
  induction ks generalizing c with
  | nil => simp [closeLoop] at h
  | cons k ks ih =>
    simp only [List.map_cons, List.nodup_cons] at hn
    simp only [closeLoop] at h ⊢
    split at h
    · rename_i hs
      rw [if_pos hs]
      dsimp only at h ⊢
      simp only [List.cons_append, List.mem_cons, reduceCtorEq, false_or, List.mem_append] at h
      split at h
      · rename_i hsy
        rw [if_pos hsy]
        rcases h with h | h
        · intro k' hk'
          rw [closed_destroy h]
          exact (mem_destroy (mem_closeLoop _ hk')).2
        · exact ih _ hn.2 h
      · rename_i hsy
        rw [if_neg hsy]
        exact ih _ hn.2 (by simpa using h)
    · rename_i hs
      rw [if_neg hs]
      exact ih _ hn.2 h

/-- What a step says about the end of connections. -/
theorem step_final {c c' : Ctx} {outs os : List Out} (hi : Inv c outs) (hl : c.lastRef + 1 < 2 ^ 64)
    {op : Op} (hs : step c op = some (c', os)) :
    Final os ∧ ∀ r, .event r .closed ∈ os → ∀ k ∈ c'.conns, k.ref ≠ r := by
  have none_ : ∀ {os : List Out}, (∀ r, .event r .closed ∉ os) →
      Final os ∧ ∀ r, .event r .closed ∈ os → ∀ k ∈ c'.conns, k.ref ≠ r :=
    fun h => ⟨final_quiet h, fun r hr => absurd hr (h r)⟩
  have des : ∀ {d : Ctx} {ref : Nat}, c' = (destroy d ref).1 → os = (destroy d ref).2 →
      Final os ∧ ∀ r, .event r .closed ∈ os → ∀ k ∈ c'.conns, k.ref ≠ r := by
    rintro d ref rfl rfl
    exact ⟨final_destroy _ _, fun r hr k hk => by rw [closed_destroy hr]; exact (mem_destroy hk).2⟩
  cases op with
  | packet sock ep p mem ok =>
    simp only [step, Option.some.injEq] at hs
    unfold handlePacket at hs
    split at hs
    · cases hs; exact none_ (by simp)
    · split at hs
      · cases hs; exact none_ (by simp)
      · cases hs; exact none_ (by simp)
      · split at hs
        · unfold openNew at hs
          split at hs
          · rename_i d hc
            obtain ⟨b, os', he, h1⟩ := sendInternalError_cases d sock ep p
            rw [he] at hs; cases hs
            exact none_ fun r hr => by cases h1 _ hr
          · rename_i d ref hc
            split at hs
            · simp only [Prod.mk.injEq] at hs
              rw [← hs.2]
              refine none_ fun r hr => ?_
              rcases List.mem_cons.mp hr with hr | hr
              · cases hr
              · unfold start at hr
                split at hr <;> simp at hr
            · obtain ⟨b, os', he, h1⟩ := sendInternalError_cases d sock ep p
              rw [he] at hs
              simp only [Prod.mk.injEq] at hs
              obtain ⟨hs1, hs2⟩ := hs
              rw [← hs1, ← hs2]
              refine ⟨final_append (final_quiet fun r hr => by have := h1 _ hr; cases this) (final_destroy _ _)
                (fun r hr => by have := h1 _ hr; cases this), ?_⟩
              intro r hr k hk
              rcases List.mem_append.mp hr with hr | hr
              · cases h1 _ hr
              · rw [closed_destroy hr]; exact (mem_destroy hk).2
        · cases hs; exact none_ (by simp)
  | data ref ch seq d =>
    simp only [step, handleData] at hs
    repeat' split at hs
    all_goals cases hs
    all_goals exact none_ (by simp)
  | handshakeDone ref =>
    simp only [step] at hs
    split at hs <;> cases hs <;> exact none_ (by simp)
  | dtlsClosed ref =>
    simp only [step] at hs
    split at hs
    · exact des (by rw [Option.some.inj hs]) (by rw [Option.some.inj hs])
    · cases hs; exact none_ (by simp)
  | dtlsSend ref ch d =>
    simp only [step, sendToUdp] at hs
    repeat' split at hs
    all_goals cases hs
    all_goals exact none_ (by simp)
  | udpSent ref =>
    simp only [step, sentToUdp] at hs
    repeat' split at hs
    all_goals cases hs
    all_goals exact none_ (by simp)
  | internalErrorSent => cases hs; exact none_ (by simp)
  | newVirtual mem =>
    simp only [step] at hs
    split at hs <;> cases hs <;> exact none_ (by simp)
  | freeVirtual ref =>
    simp only [step] at hs
    split at hs
    · exact des (by rw [Option.some.inj hs]) (by rw [Option.some.inj hs])
    · cases hs; exact none_ (by simp)
  | setMax n => cases hs; exact none_ (by simp)
  | close cb sync =>
    simp only [step, Option.some.injEq] at hs
    unfold asyncClose at hs
    dsimp only at hs
    have hn : (c.conns.map (·.ref)).Nodup := by have := hi.refs; rwa [view, List.map_map] at this
    have hf := final_closeLoop (sync := sync) c.conns { c with closing := true } hn
    have hc := fun r => closeLoop_conns (sync := sync) c.conns { c with closing := true } (r := r) hn
    split at hs
    · simp only [Prod.mk.injEq] at hs
      rw [← hs.1, ← hs.2]
      exact ⟨hf, hc⟩
    · simp only [Prod.mk.injEq] at hs
      rw [← hs.1, ← hs.2]
      refine ⟨final_append hf (final_quiet (by simp)) (fun r _ o ho => ?_), ?_⟩
      · simp at ho; subst ho; nofun
      · intro r hr
        refine hc r ?_
        rcases List.mem_append.mp hr with hr | hr
        · exact hr
        · simp at hr

theorem run_final {m : Bool} {ops : List Op} : ∀ {c : Ctx} {outs : List Out},
    run (init m) ops = some (c, outs) → ops.length < 2 ^ 64 - 1 →
    Final outs ∧ ∀ r, .event r .closed ∈ outs → r ≤ c.lastRef ∧ ∀ k ∈ c.conns, k.ref ≠ r := by
  induction ops using snoc_ind with
  | h0 =>
    intro c outs h _
    simp only [run, Option.some.injEq, Prod.mk.injEq] at h
    obtain ⟨rfl, rfl⟩ := h
    exact ⟨final_nil, by simp⟩
  | h1 ops op ih =>
    intro c outs h hlen
    obtain ⟨d, os, os', hr, hs, rfl⟩ := run_snoc h
    simp only [List.length_append, List.length_singleton] at hlen
    obtain ⟨hi, hl, -, -⟩ := run_inv hr (by omega)
    obtain ⟨f1, f2⟩ := ih hr (by omega)
    obtain ⟨g1, g2⟩ := step_final hi (by omega) hs
    refine ⟨final_append f1 g1 ?_, ?_⟩
    · intro r hcl o ho ha
      obtain ⟨a1, a2⟩ := f2 r hcl
      rcases step_about (by omega) hs ho ha with ⟨k, hk, he⟩ | ⟨he, -⟩
      · exact a2 k hk he
      · omega
    · intro r hcl
      rcases List.mem_append.mp hcl with hcl | hcl
      · obtain ⟨a1, a2⟩ := f2 r hcl
        refine ⟨Nat.le_trans a1 (step_lastRef (by omega) hs), ?_⟩
        intro k' hk' he
        rcases conns_step hi (by omega) hs hk' with ⟨k, hk, rfl⟩ | ⟨hn, -⟩
        · exact a2 k hk (by rw [← he, stepConn_ref])
        · omega
      · refine ⟨?_, g2 r hcl⟩
        exact run_about h (by simpa using hlen) _ (List.mem_append_right _ hcl) r rfl

/-- C77: after a connection was reported as closed nothing happens to it any more: no event, no data, no
completion, and no packet is handed to its DTLS session. In particular it is closed at most once and its
reference is not given to another connection. -/
theorem C77_closed_is_final {m : Bool} {ops : List Op} {c : Ctx} {outs before after : List Out}
    (h : run (init m) ops = some (c, outs)) (hlen : ops.length < 2 ^ 64 - 1) {ref : Nat}
    (he : outs = before ++ .event ref .closed :: after) :
    (∀ o ∈ after, about o ≠ some ref) ∧ .event ref .closed ∉ before := by
  have hf := (run_final h hlen).1
  refine ⟨hf before after ref he, ?_⟩
  intro hb
  obtain ⟨x, y, rfl⟩ := List.append_of_mem hb
  exact hf x (y ++ .event ref .closed :: after) ref (by rw [he]; simp) (.event ref .closed) (by simp) rfl

/-- C77 is not met by the events of a connection which cannot be initialised: it is reported as closed
although it was never reported as created or opened. -/
theorem C77_opened_first_violated :
    ∃ ops c outs, run (init false) ops = some (c, outs) ∧ .event 1 .closed ∈ outs ∧
      .event 1 .opened ∉ outs ∧ made outs = [] :=
  ⟨[.packet 1 10 (hello 7 0) true false], _, _, rfl, by decide, by decide, by decide⟩

/-- Non-vacuity: a connection is opened and closed, then another one with the same id is opened. -/
example : ∃ c, run (init false)
    [.packet 1 10 (hello 7 0) true true, .handshakeDone 1, .dtlsClosed 1, .dtlsClosed 1,
      .packet 1 10 (hello 7 0) true true] =
    some (c, [.created 1 (some ((hello 7 0).take 16)), .toDtls 1 0 [22, 1], .event 1 .opened] ++
      .event 1 .closed :: [.created 2 (some ((hello 7 0).take 16)), .toDtls 2 0 [22, 1]]) := ⟨_, rfl⟩

/-! ## C76: the callback of closing -/

/-- How often the callback was called. -/
def dones (outs : List Out) : Nat := (outs.filter (· = .closeDone)).length

theorem dones_append (a b : List Out) : dones (a ++ b) = dones a + dones b := by
  simp [dones]

theorem dones_zero {os : List Out} (h : .closeDone ∉ os) : dones os = 0 := by
  simp only [dones, List.length_eq_zero_iff, List.filter_eq_nil_iff, decide_eq_true_eq]
  intro o ho e
  exact h (e ▸ ho)

/-- What happens to the callback in one step: nothing, or it is called when the last connection is
gone. -/
def CbStep (c c' : Ctx) (os : List Out) : Prop :=
  c'.closing = c.closing ∧
  ((c'.closeCb = c.closeCb ∧ dones os = 0 ∧
      (c.closing = true → c.closeCb = true → 0 < c.current → 0 < c'.current)) ∨
   (c.closing = true ∧ c'.closeCb = false ∧ c'.current = 0 ∧ dones os = if c.closeCb then 1 else 0))

theorem cbStep_same {c c' : Ctx} {os : List Out} (h1 : c'.closing = c.closing)
    (h2 : c'.closeCb = c.closeCb) (h3 : .closeDone ∉ os) (h4 : c.current ≤ c'.current) :
    CbStep c c' os :=
  ⟨h1, Or.inl ⟨h2, dones_zero h3, fun _ _ _ => by omega⟩⟩

theorem destroy_cb (c : Ctx) (ref : Nat) :
    (destroy c ref).1.closing = c.closing ∧ (destroy c ref).1.current = c.current - 1 ∧
    ((¬ (c.closing = true ∧ c.current - 1 = 0) ∧ (destroy c ref).1.closeCb = c.closeCb ∧
        dones (destroy c ref).2 = 0) ∨
     (c.closing = true ∧ c.current - 1 = 0 ∧ (destroy c ref).1.closeCb = false ∧
       dones (destroy c ref).2 = if c.closeCb then 1 else 0)) := by
  unfold destroy free
  dsimp only
  split
  · rename_i hcl
    refine ⟨rfl, rfl, Or.inr ⟨hcl.1, by have := hcl.2; omega, rfl, ?_⟩⟩
    cases c.closeCb <;> rfl
  · rename_i hcl
    exact ⟨rfl, rfl, Or.inl ⟨fun h => hcl ⟨h.1, by omega⟩, rfl, rfl⟩⟩

theorem cbStep_destroy (c : Ctx) (ref : Nat) : CbStep c (destroy c ref).1 (destroy c ref).2 := by
  obtain ⟨h1, h2, h3⟩ := destroy_cb c ref
  refine ⟨h1, ?_⟩
  rcases h3 with ⟨a, b, d⟩ | ⟨a, b, d, e⟩
  · exact Or.inl ⟨b, d, fun hc _ _ => by
      have : ¬ (c.current - 1 = 0) := fun h => a ⟨hc, h⟩
      omega⟩
  · exact Or.inr ⟨a, d, by omega, e⟩

theorem step_cb {c c' : Ctx} {os : List Out} (hl : c.lastRef + 1 < 2 ^ 64)
    {op : Op} (hno : isClose op = false) (hs : step c op = some (c', os)) :
    CbStep c c' os := by
  have same : ∀ {os : List Out}, .closeDone ∉ os → CbStep c c os :=
    fun h => cbStep_same rfl rfl h (Nat.le_refl _)
  cases op with
  | packet sock ep p mem ok =>
    simp only [step, Option.some.injEq] at hs
    unfold handlePacket at hs
    split at hs
    · cases hs; exact same (by simp)
    · split at hs
      · cases hs; exact cbStep_same rfl rfl (by simp) (Nat.le_refl _)
      · cases hs; exact same (by simp)
      · split at hs
        · unfold openNew at hs
          split at hs
          · rename_i d hc
            obtain ⟨b, os', he, h1⟩ := sendInternalError_cases d sock ep p
            rw [(alloc_none hc hl).1] at he hs
            rw [he] at hs; cases hs
            exact cbStep_same rfl rfl (fun h => by cases h1 _ h) (Nat.le_refl _)
          · rename_i d ref hc
            obtain ⟨-, -, hr, hd⟩ := alloc_some hc hl
            have hd1 : d.closing = c.closing := by rw [hd]
            have hd2 : d.closeCb = c.closeCb := by rw [hd]
            have hd3 : d.current = c.current + 1 := by rw [hd]
            split at hs
            · simp only [Prod.mk.injEq] at hs
              rw [← hs.1, ← hs.2]
              refine cbStep_same hd1 hd2 ?_ (by omega)
              intro h
              rcases List.mem_cons.mp h with h | h
              · cases h
              · unfold start at h
                split at h <;> simp at h
            · obtain ⟨b, os', he, h1⟩ := sendInternalError_cases d sock ep p
              rw [he] at hs
              simp only [Prod.mk.injEq] at hs
              obtain ⟨hs1, hs2⟩ := hs
              obtain ⟨g1, g2, g3⟩ := destroy_cb { d with sendingInternalError := b } ref
              have h0 : dones os' = 0 := dones_zero fun h => by cases h1 _ h
              rw [← hs1, ← hs2]
              refine ⟨g1.trans hd1, ?_⟩
              rw [dones_append, h0, Nat.zero_add]
              rcases g3 with ⟨a, b', d'⟩ | ⟨a, b', d', e⟩
              · exact Or.inl ⟨b'.trans hd2, d', fun _ _ hp => by
                  rw [g2]; show 0 < d.current - 1; omega⟩
              · refine Or.inr ⟨hd1 ▸ a, d', by rw [g2]; exact b', ?_⟩
                rw [e]; exact congrArg (fun b : Bool => if b then 1 else 0) hd2
        · cases hs; exact same (by simp)
  | data ref ch seq d =>
    simp only [step, handleData] at hs
    repeat' split at hs
    all_goals cases hs
    all_goals exact cbStep_same rfl rfl (by simp) (Nat.le_refl _)
  | handshakeDone ref =>
    simp only [step] at hs
    split at hs <;> cases hs <;> exact same (by simp)
  | dtlsClosed ref =>
    simp only [step] at hs
    split at hs
    · have := cbStep_destroy c ref
      rwa [Option.some.inj hs] at this
    · cases hs; exact same (by simp)
  | dtlsSend ref ch d =>
    simp only [step, sendToUdp] at hs
    repeat' split at hs
    all_goals cases hs
    all_goals exact cbStep_same rfl rfl (by simp) (Nat.le_refl _)
  | udpSent ref =>
    simp only [step, sentToUdp] at hs
    repeat' split at hs
    all_goals cases hs
    all_goals exact cbStep_same rfl rfl (by simp) (Nat.le_refl _)
  | internalErrorSent => cases hs; exact cbStep_same rfl rfl (by simp) (Nat.le_refl _)
  | newVirtual mem =>
    simp only [step] at hs
    split at hs
    · rename_i hc
      rw [(alloc_none hc hl).1] at hs
      cases hs; exact same (by simp)
    · rename_i hc
      obtain ⟨-, -, hr, hd⟩ := alloc_some hc hl
      simp only [Option.some.injEq, Prod.mk.injEq] at hs
      rw [← hs.1, ← hs.2, hd]
      exact cbStep_same rfl rfl (by simp) (Nat.le_succ _)
  | freeVirtual ref =>
    simp only [step] at hs
    split at hs
    · have := cbStep_destroy c ref
      rwa [Option.some.inj hs] at this
    · cases hs; exact same (by simp)
  | setMax n => cases hs; exact cbStep_same rfl rfl (by simp) (Nat.le_refl _)
  | close cb sync => cases hno

/-- The device was not asked to close anything yet. -/
theorem run_before {m : Bool} {ops : List Op} : ∀ {c : Ctx} {outs : List Out},
    run (init m) ops = some (c, outs) → ops.length < 2 ^ 64 - 1 → (∀ op ∈ ops, isClose op = false) →
    c.closing = false ∧ c.closeCb = false ∧ dones outs = 0 := by
  induction ops using snoc_ind with
  | h0 =>
    intro c outs h _ _
    simp only [run, Option.some.injEq, Prod.mk.injEq] at h
    obtain ⟨rfl, rfl⟩ := h
    exact ⟨rfl, rfl, rfl⟩
  | h1 ops op ih =>
    intro c outs h hlen hno
    obtain ⟨d, os, os', hr, hs, rfl⟩ := run_snoc h
    simp only [List.length_append, List.length_singleton] at hlen
    obtain ⟨hi, hl, -, -⟩ := run_inv hr (by omega)
    obtain ⟨a, b, e⟩ := ih hr (by omega) (fun o ho => hno o (List.mem_append_left _ ho))
    obtain ⟨g1, g2⟩ := step_cb (by omega) (hno op (by simp)) hs
    refine ⟨g1.trans a, ?_⟩
    rcases g2 with ⟨x, y, -⟩ | ⟨x, -⟩
    · exact ⟨x.trans b, by rw [dones_append, e, y]⟩
    · rw [a] at x; cases x

theorem closeLoop_async (ks : List Conn) (c : Ctx) :
    (closeLoop (fun _ => false) ks c).1 = c ∧ dones (closeLoop (fun _ => false) ks c).2 = 0 := by
  induction ks generalizing c with
  | nil => exact ⟨rfl, rfl⟩
  | cons k ks ih =>
    simp only [closeLoop]
    split
    · simp only [Bool.false_eq_true, if_false]
      refine ⟨(ih c).1, ?_⟩
      have : dones (.dtlsClose k.ref :: [] ++ (closeLoop (fun _ => false) ks c).2) =
          dones [.dtlsClose k.ref] + dones (closeLoop (fun _ => false) ks c).2 := by
        rw [← dones_append]
      rw [this, (ih c).2]
      rfl
    · exact ih c

/-- C76: when the device is closed once while there are client connections, and no DTLS session closes
within the call, the callback is called exactly once, at the first moment when no connection is open. -/
theorem C76_once_partial {m : Bool} {pre post : List Op} {c₀ c : Ctx} {outs₀ outs : List Out}
    (h₀ : run (init m) pre = some (c₀, outs₀))
    (h : run (init m) (pre ++ .close true (fun _ => false) :: post) = some (c, outs))
    (hlen : (pre ++ .close true (fun _ => false) :: post).length < 2 ^ 64 - 1)
    (hpre : ∀ op ∈ pre, isClose op = false) (hpost : ∀ op ∈ post, isClose op = false)
    (hsome : ∃ k ∈ live outs₀, k.2 ≠ none) :
    (dones outs = 0 ∧ live outs ≠ []) ∨
    (dones outs = 1 ∧ ∃ post₁ post₂ c₁ outs₁, post = post₁ ++ post₂ ∧
      run (init m) (pre ++ .close true (fun _ => false) :: post₁) = some (c₁, outs₁) ∧
      live outs₁ = [] ∧ dones outs₁ = 1) := by
  suffices hsuff : (c.closing = true ∧ c.closeCb = true ∧ 0 < c.current ∧ dones outs = 0) ∨
      (c.closing = true ∧ c.closeCb = false ∧ dones outs = 1 ∧
        ∃ post₁ post₂ c₁ outs₁, post = post₁ ++ post₂ ∧
        run (init m) (pre ++ .close true (fun _ => false) :: post₁) = some (c₁, outs₁) ∧
        live outs₁ = [] ∧ dones outs₁ = 1) by
    rcases hsuff with ⟨-, -, h1, h2⟩ | ⟨-, -, h1, h2⟩
    · refine Or.inl ⟨h2, ?_⟩
      obtain ⟨hi, -, -, -⟩ := run_inv h hlen
      intro e
      have := hi.count
      rw [← hi.live, e] at this
      simp only [List.length_nil] at this
      omega
    · exact Or.inr ⟨h1, h2⟩
  induction post using snoc_ind generalizing c outs with
  | h0 =>
    obtain ⟨d, os, os', hr, hs, rfl⟩ := run_snoc h
    rw [h₀] at hr
    cases hr
    simp only [List.length_append, List.length_cons] at hlen
    obtain ⟨b1, b2, b3⟩ := run_before h₀ (by omega) hpre
    obtain ⟨hi, -, -, -⟩ := run_inv h₀ (by omega)
    obtain ⟨k, hk, hk2⟩ := hsome
    rw [hi.live] at hk
    have hcur : 0 < c₀.current := by
      rw [hi.count]; exact List.length_pos_of_mem hk
    obtain ⟨k', hk', rfl⟩ := List.mem_map.mp hk
    have hany : (c₀.conns.any fun k => k.client.isSome) = true := by
      refine List.any_eq_true.mpr ⟨k', hk', ?_⟩
      cases hc : k'.client with
      | none => simp [hc] at hk2
      | some => rfl
    obtain ⟨l1, l2⟩ := closeLoop_async c₀.conns { c₀ with closing := true }
    simp only [step, Option.some.injEq] at hs
    unfold asyncClose at hs
    dsimp only at hs
    rw [if_pos hany, l1] at hs
    simp only [Prod.mk.injEq] at hs
    left
    rw [← hs.1, ← hs.2]
    exact ⟨rfl, rfl, hcur, by rw [dones_append, b3, l2]⟩
  | h1 post op ih =>
    have heq : pre ++ .close true (fun _ => false) :: (post ++ [op]) =
        (pre ++ .close true (fun _ => false) :: post) ++ [op] := by simp
    rw [heq] at h hlen
    obtain ⟨d, os, os', hr, hs, rfl⟩ := run_snoc h
    rw [List.length_append, List.length_singleton] at hlen
    obtain ⟨hi, hl, -, -⟩ := run_inv hr (by omega)
    have hpost' : ∀ o ∈ post, isClose o = false := fun o ho => hpost o (List.mem_append_left _ ho)
    rcases ih hr (by omega) hpost' with ⟨a1, a2, a3, a4⟩ | ⟨a1, a2, a3, p1, p2, c₁, o₁, rfl, q1, q2, q3⟩
    · obtain ⟨g1, g2⟩ := step_cb (by omega) (hpost op (by simp)) hs
      rcases g2 with ⟨x, y, z⟩ | ⟨-, x, y, z⟩
      · left
        exact ⟨g1.trans a1, x.trans a2, z a1 a2 a3, by rw [dones_append, a4, y]⟩
      · right
        have hd : dones (os ++ os') = 1 := by rw [dones_append, a4, z, a2]; rfl
        refine ⟨g1.trans a1, x, hd, post ++ [op], [], c, os ++ os', by simp, by rw [heq]; exact h, ?_, hd⟩
        obtain ⟨hi', -, -, -⟩ := run_inv h (by rw [List.length_append, List.length_singleton]; omega)
        have := hi'.count
        rw [← hi'.live, y] at this
        exact List.eq_nil_of_length_eq_zero this.symm
    · obtain ⟨g1, g2⟩ := step_cb (by omega) (hpost op (by simp)) hs
      right
      have : c.closeCb = false ∧ dones os' = 0 := by
        rcases g2 with ⟨x, y, z⟩ | ⟨-, x, y, z⟩
        · exact ⟨x.trans a2, y⟩
        · exact ⟨x, by rw [z, a2]; rfl⟩
      exact ⟨g1.trans a1, this.1, by rw [dones_append, a3, this.2], p1, p2 ++ [op], c₁, o₁, by simp, q1, q2, q3⟩

/-- C76: closing a device without client connections is reported at once, and the callback is not
called. -/
theorem C76_nothing {m : Bool} {ops : List Op} {c : Ctx} {outs : List Out}
    (h : run (init m) ops = some (c, outs)) (hlen : ops.length < 2 ^ 64 - 1)
    (hnone : ∀ k ∈ live outs, k.2 = none) (cb : Bool) (sync : Nat → Bool) :
    ∃ c', step c (.close cb sync) = some (c', [.closeNothing]) := by
  obtain ⟨hi, -, -, -⟩ := run_inv h hlen
  have hno : ∀ k ∈ c.conns, k.client.isSome = false := by
    intro k hk
    have := hnone _ (by rw [hi.live]; exact List.mem_map.mpr ⟨k, hk, rfl⟩)
    cases hc : k.client with
    | none => rfl
    | some cl => simp [hc] at this
  have hloop : ∀ (ks : List Conn) (c : Ctx), (∀ k ∈ ks, k.client.isSome = false) →
      closeLoop sync ks c = (c, []) := by
    intro ks
    induction ks with
    | nil => intro c _; rfl
    | cons k ks ih =>
      intro c hk
      simp only [closeLoop]
      rw [if_neg (by rw [hk k (List.mem_cons_self ..)]; simp)]
      exact ih c fun k' h' => hk k' (List.mem_cons_of_mem _ h')
  have hany : (c.conns.any fun k => k.client.isSome) = false := by
    rw [List.any_eq_false]
    intro k hk
    rw [hno k hk]; simp
  refine ⟨{ c with closing := true }, ?_⟩
  simp only [step, asyncClose, hloop c.conns { c with closing := true } hno, hany]
  rfl

theorem closeLoop_done {sync : Nat → Bool} (ks : List Conn) (c : Ctx)
    (h : .closeDone ∈ (closeLoop sync ks c).2) : ∃ r, .event r .closed ∈ (closeLoop sync ks c).2 := by
  induction ks generalizing c with
  | nil => simp [closeLoop] at h
  | cons k ks ih =>
    simp only [closeLoop] at h ⊢
    split at h
    · rename_i hk
      rw [if_pos hk]
      dsimp only at h ⊢
      simp only [List.cons_append, List.mem_cons, reduceCtorEq, false_or, List.mem_append] at h ⊢
      rcases h with h | h
      · split at h
        · rename_i hsy
          exact ⟨k.ref, Or.inl (by rw [if_pos hsy]; exact List.mem_cons_self ..)⟩
        · simp at h
      · obtain ⟨r, hr⟩ := ih _ h
        exact ⟨r, Or.inr hr⟩
    · rename_i hk
      rw [if_neg hk]
      exact ih _ h

/-- The callback is only called when a connection ends. -/
theorem done_needs_closed {c c' : Ctx} {os : List Out} {op : Op} (hs : step c op = some (c', os))
    (h : .closeDone ∈ os) : ∃ r, .event r .closed ∈ os := by
  cases op with
  | packet sock ep p mem ok =>
    simp only [step, Option.some.injEq] at hs
    unfold handlePacket at hs
    split at hs
    · cases hs; simp at h
    · split at hs
      · cases hs; simp at h
      · cases hs; simp at h
      · split at hs
        · unfold openNew at hs
          split at hs
          · rename_i d hc
            obtain ⟨b, os', he, h1⟩ := sendInternalError_cases d sock ep p
            rw [he] at hs; cases hs
            cases h1 _ h
          · rename_i d ref hc
            split at hs
            · simp only [Prod.mk.injEq] at hs
              rw [← hs.2] at h
              rcases List.mem_cons.mp h with h | h
              · cases h
              · unfold start at h
                split at h <;> simp at h
            · simp only [Prod.mk.injEq] at hs
              rw [← hs.2]
              exact ⟨ref, List.mem_append_right _ (List.mem_cons_self ..)⟩
        · cases hs; simp at h
  | data ref ch seq d =>
    simp only [step, handleData] at hs
    repeat' split at hs
    all_goals cases hs
    all_goals simp at h
  | handshakeDone ref =>
    simp only [step] at hs
    split at hs <;> cases hs <;> simp at h
  | dtlsClosed ref =>
    simp only [step] at hs
    split at hs
    · have : os = (destroy c ref).2 := by rw [Option.some.inj hs]
      rw [this]
      exact ⟨ref, List.mem_cons_self ..⟩
    · cases hs; simp at h
  | dtlsSend ref ch d =>
    simp only [step, sendToUdp] at hs
    repeat' split at hs
    all_goals cases hs
    all_goals simp at h
  | udpSent ref =>
    simp only [step, sentToUdp] at hs
    repeat' split at hs
    all_goals cases hs
    all_goals simp at h
  | internalErrorSent => cases hs; simp at h
  | newVirtual mem =>
    simp only [step] at hs
    split at hs <;> cases hs <;> simp at h
  | freeVirtual ref =>
    simp only [step] at hs
    split at hs
    · have : os = (destroy c ref).2 := by rw [Option.some.inj hs]
      rw [this]
      exact ⟨ref, List.mem_cons_self ..⟩
    · cases hs; simp at h
  | setMax n => cases hs; simp at h
  | close cb sync =>
    simp only [step, Option.some.injEq] at hs
    unfold asyncClose at hs
    dsimp only at hs
    split at hs
    all_goals
      simp only [Prod.mk.injEq] at hs
      rw [← hs.2] at h ⊢
    · exact closeLoop_done _ _ h
    · simp only [List.mem_append, List.mem_singleton, reduceCtorEq, or_false] at h ⊢
      exact closeLoop_done _ _ h

theorem run_done {later : List Op} : ∀ {c c' : Ctx} {outs : List Out},
    run c later = some (c', outs) → (∀ r, .event r .closed ∉ outs) → .closeDone ∉ outs := by
  induction later with
  | nil =>
    intro c c' outs hr _
    simp only [run, Option.some.injEq, Prod.mk.injEq] at hr
    rw [← hr.2]; simp
  | cons op later ih =>
    intro c c' outs hr hcl
    simp only [run] at hr
    split at hr
    · cases hr
    · rename_i c1 os1 hs
      split at hr
      · cases hr
      · rename_i c2 os2 hr2
        simp only [Option.some.injEq, Prod.mk.injEq] at hr
        obtain ⟨rfl, rfl⟩ := hr
        intro hm
        rcases List.mem_append.mp hm with hm | hm
        · obtain ⟨r, hr⟩ := done_needs_closed hs hm
          exact hcl r (List.mem_append_left _ hr)
        · exact ih hr2 (fun r hr => hcl r (List.mem_append_right _ hr)) hm

/-- C76 is violated when a DTLS session closes within the call, as one does whose handshake is not
complete: all connections are gone, the callback was not called, and it is not called later unless
another connection is opened and ends. -/
theorem C76_sync_violated (m : Bool) :
    ∃ c outs, run (init m) [.packet 1 10 (hello 7 0) true true, .close true (fun _ => true)] =
        some (c, outs) ∧ .dtlsClose 1 ∈ outs ∧ live outs = [] ∧ dones outs = 0 ∧
      ∀ later c' outs', run c later = some (c', outs') → (∀ r, .event r .closed ∉ outs') →
        dones outs' = 0 := by
  cases m
  · exact ⟨_, _, rfl, by decide, by decide, by decide,
      fun later c' outs' hr hcl => dones_zero (run_done hr hcl)⟩
  · exact ⟨_, _, rfl, by decide, by decide, by decide,
      fun later c' outs' hr hcl => dones_zero (run_done hr hcl)⟩

/-- C76 is violated when the device is stopped while it closes: the callback is replaced by none and
never called. -/
theorem C76_stop_violated (m : Bool) :
    ∃ c outs, run (init m) [.packet 1 10 (hello 7 0) true true, .close true (fun _ => false),
        .close false (fun _ => false), .dtlsClosed 1] = some (c, outs) ∧
      live outs = [] ∧ dones outs = 0 := by
  cases m
  · exact ⟨_, _, rfl, by decide, by decide⟩
  · exact ⟨_, _, rfl, by decide, by decide⟩

/-- Non-vacuity: two connections, one of them virtual, and a third one which opens while the device
closes; the callback is called when all three are gone. -/
example : ∃ c outs₁ outs, run (init false) [.packet 1 10 (hello 7 0) true true, .newVirtual true,
      .close true (fun _ => false), .packet 1 10 (hello 8 0) true true, .dtlsClosed 1,
      .freeVirtual 2, .dtlsClosed 3] = some (c, outs) ∧
    run (init false) [.packet 1 10 (hello 7 0) true true, .newVirtual true] =
      some (outs₁) ∧ (∃ k ∈ live outs₁.2, k.2 ≠ none) ∧ dones outs = 1 ∧ live outs = [] :=
  ⟨_, _, _, rfl, rfl, by decide, by decide, by decide⟩

end Verif.Core.Conn
