import Verif.Iam.LoginSpec
import Verif.Core.Spake2Props

/-!
# Logging in with a password — lemmas
-/

namespace Verif.Iam.Login

open Verif.Core.Spake2 (St Ev Conn Pending isAuthenticated getUsername setConn lookup_setConn)
open Spec

/-- What happens in the core. -/
def trace : Sys → List Op → List Ev
  | _, [] => []
  | s, o :: ops => (event s o).toList ++ trace (step s o).1 ops

theorem core_step (s : Sys) (o : Op) : (step s o).1.core = (Verif.Core.Spake2.run s.core (event s o).toList).1 := by
  unfold step
  cases event s o <;> rfl

theorem core_run (ops : List Op) : ∀ s : Sys, (run s ops).core = (Verif.Core.Spake2.run s.core (trace s ops)).1 := by
  induction ops with
  | nil => intro s; rfl
  | cons o ops ih =>
    intro s
    show (run (step s o).1 ops).core = _
    rw [ih, core_step]
    show _ = (Verif.Core.Spake2.run s.core ((event s o).toList ++ trace (step s o).1 ops)).1
    rw [Verif.Core.Spake2.run_append]

theorem trace_split (ops : List Op) : ∀ (s : Sys) (a : List Ev) (e : Ev) (b : List Ev), trace s ops = a ++ e :: b →
    ∃ pre o post, ops = pre ++ o :: post ∧ trace s pre = a ∧ event (run s pre) o = some e := by
  induction ops with
  | nil => intro s a e b h; cases a <;> cases h
  | cons o ops ih =>
    intro s a e b h
    unfold trace at h
    cases he : event s o with
    | none =>
      rw [he] at h
      obtain ⟨pre, o', post, h1, h2, h3⟩ := ih _ a e b h
      refine ⟨o :: pre, o', post, by rw [h1]; rfl, ?_, h3⟩
      unfold trace
      rw [he, h2]
      rfl
    | some e' =>
      rw [he] at h
      cases a with
      | nil =>
        injection h with h1 h2
        subst h1
        exact ⟨[], o, ops, rfl, rfl, he⟩
      | cons x a =>
        injection h with h1 h2
        subst h1
        obtain ⟨pre, o', post, g1, g2, g3⟩ := ih _ a e b h2
        refine ⟨o :: pre, o', post, by rw [g1]; rfl, ?_, g3⟩
        unfold trace
        rw [he, g2]
        rfl

/-! ## Numbers of requests -/

structure Ids (s : St) : Prop where
  lt : ∀ p ∈ s.pending, p.id < s.nextId
  one : ∀ p ∈ s.pending, ∀ q ∈ s.pending, p.id = q.id → p = q

theorem ids_same {s t : St} (h : Ids s) (h1 : ∀ p ∈ t.pending, p ∈ s.pending) (h2 : t.nextId = s.nextId) : Ids t :=
  ⟨fun p hp => h2 ▸ h.lt p (h1 p hp), fun p hp q hq => h.one p (h1 p hp) q (h1 q hq)⟩

theorem ids_step {s : St} (h : Ids s) (e : Ev) : Ids (Verif.Core.Spake2.step s e).1 := by
  cases e with
  | open_ => exact ids_same h (fun _ x => x) rfl
  | close c => exact ids_same h (fun _ x => x) rfl
  | setHandler => exact ids_same h (fun _ x => x) rfl
  | clearHandler => exact ids_same h (fun _ x => x) rfl
  | step1 c f p w n =>
    simp only [Verif.Core.Spake2.step]
    split
    · exact h
    · unfold Verif.Core.Spake2.handle1
      repeat' split
      any_goals exact h
      refine ⟨?_, ?_⟩
      · intro q hq
        rcases List.mem_append.1 hq with hq | hq
        · exact Nat.lt_succ_of_lt (h.lt q hq)
        · cases List.mem_singleton.1 hq
          exact Nat.lt_succ_self _
      · intro q hq r hr he
        rcases List.mem_append.1 hq with hq | hq <;> rcases List.mem_append.1 hr with hr | hr
        · exact h.one q hq r hr he
        · cases List.mem_singleton.1 hr
          have := h.lt q hq
          dsimp only at he
          omega
        · cases List.mem_singleton.1 hq
          have := h.lt r hr
          dsimp only at he
          omega
        · rw [List.mem_singleton.1 hq, List.mem_singleton.1 hr]
  | answer id w a b =>
    simp only [Verif.Core.Spake2.step]
    split
    · exact h
    · unfold Verif.Core.Spake2.passwordReady
      dsimp only
      repeat' split
      all_goals exact ids_same h (fun p hp => (List.mem_filter.1 hp).1) rfl
  | step2 c l g f =>
    simp only [Verif.Core.Spake2.step]
    split
    · exact h
    · unfold Verif.Core.Spake2.handle2 Verif.Core.Spake2.spendToken
      dsimp only
      repeat' split
      all_goals exact ids_same h (fun _ x => x) rfl
  | tick ms => exact ids_same h (fun _ x => x) rfl
  | fire =>
    simp only [Verif.Core.Spake2.step]
    split
    · split
      · unfold Verif.Core.Spake2.newToken
        dsimp only
        split <;> exact ids_same h (fun _ x => x) rfl
      · exact h
    · exact h

theorem ids_run (es : List Ev) : ∀ {s : St}, Ids s → Ids (Verif.Core.Spake2.run s es).1 := by
  induction es with
  | nil => intro s h; exact h
  | cons e es ih => intro s h; exact ih (ids_step h e)

theorem ids_after (i : Iam) (ops : List Op) : Ids (after i ops).core := by
  unfold after
  rw [core_run]
  exact ids_run _ ⟨(fun p hp => by cases hp), (fun p hp => by cases hp)⟩

theorem find_of_mem {s : St} (h : Ids s) {p : Pending} (hp : p ∈ s.pending) {q : Pending} (hq : s.pending.find? (fun x => x.id == p.id) = some q) :
    q = p := by
  have h1 := List.mem_of_find?_eq_some hq
  have h2 := List.find?_some hq
  exact h.one q h1 p hp (by simpa using h2)

/-! ## Which events operations are -/

theorem event_step2 {s : Sys} {o : Op} {c : Nat} {l : Bool} {w : String} {f : Bool} (h : event s o = some (.step2 c l w f)) :
    o = .net (.step2 c l w f) := by
  cases o with
  | net e =>
    cases e <;> first | (cases h; rfl) | cases h
  | reply id k a =>
    change (match s.core.pending.find? (fun x => x.id == id) with
      | none => none
      | some p => some (Ev.answer id (pakePassword s.iam.state p.username) k a)) = _ at h
    split at h <;> cases h
  | iam i => cases h

theorem event_step1 {s : Sys} {o : Op} {c : Nat} {f p w : Bool} {n : String} (h : event s o = some (.step1 c f p w n)) :
    o = .net (.step1 c f p w n) := by
  cases o with
  | net e =>
    cases e <;> first | (cases h; rfl) | cases h
  | reply id k a =>
    change (match s.core.pending.find? (fun x => x.id == id) with
      | none => none
      | some p => some (Ev.answer id (pakePassword s.iam.state p.username) k a)) = _ at h
    split at h <;> cases h
  | iam i => cases h

theorem event_answer {s : Sys} {o : Op} {id : Nat} {w : Option String} {k a : Bool} (h : event s o = some (.answer id w k a)) :
    o = .reply id k a ∧ ∃ p, s.core.pending.find? (fun x => x.id == id) = some p ∧ w = pakePassword s.iam.state p.username := by
  cases o with
  | net e =>
    cases e <;> cases h
  | reply id' k' a' =>
    change (match s.core.pending.find? (fun x => x.id == id') with
      | none => none
      | some p => some (Ev.answer id' (pakePassword s.iam.state p.username) k' a')) = _ at h
    split at h
    · cases h
    · rename_i p hp
      cases h
      exact ⟨rfl, p, hp, rfl⟩
  | iam i => cases h

theorem pakePassword_iff {st : IamState} {n w : String} : pakePassword st n = some w ↔ Password st n w := by
  unfold pakePassword Password
  by_cases hn : n = ""
  · subst hn
    simp
  · rw [if_neg hn]
    simp only [hn, false_and, false_or]
    show (match st.users.find? (fun u => u.username == n) with | some u => u.password | none => none) = some w ↔ _
    cases st.users.find? (fun u => u.username == n) <;> simp [hn]

theorem core_after (i : Iam) (ops : List Op) :
    (after i ops).core = Verif.Core.Spake2.Spec.after (trace { iam := i } ops) := core_run ops _

theorem iam_run (ops : List Op) : ∀ s : Sys, (run s ops).iam = iamAt s.iam ops := by
  induction ops with
  | nil => intro s; rfl
  | cons o ops ih =>
    intro s
    show (run (step s o).1 ops).iam = _
    rw [ih]
    cases o <;> rfl

theorem iam_after (i : Iam) (ops : List Op) : (after i ops).iam = iamAt i ops := iam_run ops _

theorem memory_trace {i : Iam} {ops : List Op} (h : MemoryOk ops) : Verif.Core.Spake2.Spec.MemoryOk (trace { iam := i } ops) := by
  intro id w k hm
  obtain ⟨a, b, e⟩ := List.append_of_mem hm
  obtain ⟨pre, o, post, h1, _, h3⟩ := trace_split ops _ a _ b e
  have := (event_answer h3).1
  subst this
  exact h id k (by rw [h1]; exact List.mem_append_right _ List.mem_cons_self)

theorem asked_trace {i : Iam} {ops : List Op} {c : Nat} {n : String}
    (h : Verif.Core.Spake2.Spec.Asked (trace { iam := i } ops) c n) : Asked ops c n := by
  obtain ⟨f, p, w, hm⟩ := h
  obtain ⟨a, b, e⟩ := List.append_of_mem hm
  obtain ⟨pre, o, post, h1, _, h3⟩ := trace_split ops _ a _ b e
  have := event_step1 h3
  subst this
  exact ⟨f, p, w, by rw [h1]; exact List.mem_append_right _ List.mem_cons_self⟩

theorem stated_trace {i : Iam} {ops : List Op} {c : Nat} {n w : String}
    (h : Verif.Core.Spake2.Spec.Stated (trace { iam := i } ops) c n w) : Told i ops c n w := by
  obtain ⟨a, id, b, e, hp⟩ := h
  obtain ⟨pre, o, post, h1, h2, h3⟩ := trace_split ops _ a _ b e
  obtain ⟨ho, p, hf, hw⟩ := event_answer h3
  subst ho
  have hc : (after i pre).core = Verif.Core.Spake2.Spec.after a := by rw [core_after, h2]
  have hp' : (⟨id, c, n⟩ : Pending) ∈ (after i pre).core.pending := by rw [hc]; exact hp
  have := find_of_mem (ids_after i pre) hp' hf
  subst this
  exact ⟨pre, id, post, h1, hp', iam_after i pre ▸ pakePassword_iff.1 hw.symm⟩

theorem proved_trace {i : Iam} {ops : List Op} {c : Nat} {n : String}
    (h : Verif.Core.Spake2.Spec.Proved (trace { iam := i } ops) c n) : Proved i ops c n := by
  obtain ⟨a, l, w, b, e, hr, hs⟩ := h
  obtain ⟨pre, o, post, h1, h2, h3⟩ := trace_split ops _ a _ b e
  have := event_step2 h3
  subst this
  refine ⟨pre, l, w, post, h1, ?_, ?_⟩
  · have hc : (after i pre).core = Verif.Core.Spake2.Spec.after a := by rw [core_after, h2]
    show (Verif.Core.Spake2.step (after i pre).core (.step2 c l w true)).2 = some 201
    rw [hc]
    exact hr
  · rw [← h2] at hs
    exact stated_trace hs

/-! ## The attack -/

/-- The key which is calculated from an answer. -/
def keyOf : Option String → Verif.Core.Spake2.Key
  | some w => .of w
  | none => .junk

/-- A request, and its answer. -/
theorem ask_reply {s : Sys} {c : Nat} {k : Conn} (h : Idle s c k) (n : String) :
    ∃ s', run s [.net (.step1 c true true true n), .reply s.core.nextId true true] = s' ∧ s'.iam = s.iam ∧
      s'.core.nextId = s.core.nextId + 1 ∧
      Idle s' c { k with hasKey := true, username := some n,
                         key := keyOf (pakePassword s.iam.state n) } := by
  refine ⟨_, rfl, ?_⟩
  obtain ⟨hh, ht, hp, hc⟩ := h
  have e1 : (step s (.net (.step1 c true true true n))).1 =
      { s with core := { s.core with pending := [⟨s.core.nextId, c, n⟩], nextId := s.core.nextId + 1 } } := by
    show (⟨(Verif.Core.Spake2.step s.core (.step1 c true true true n)).1, s.iam⟩ : Sys) = _
    simp only [Verif.Core.Spake2.step, hc, Verif.Core.Spake2.handle1, if_neg ht, hh, hp]
    rfl
  have e2 : run s [.net (.step1 c true true true n), .reply s.core.nextId true true] =
      (step (step s (.net (.step1 c true true true n))).1 (.reply s.core.nextId true true)).1 := rfl
  rw [e2, e1]
  have e3 : (step { s with core := { s.core with pending := [⟨s.core.nextId, c, n⟩], nextId := s.core.nextId + 1 } }
      (.reply s.core.nextId true true)).1 =
      { s with core := (setConn { s.core with pending := [], nextId := s.core.nextId + 1 } c
          { k with hasKey := true, username := some n, key := keyOf (pakePassword s.iam.state n) }) } := by
    unfold step event
    simp only [List.find?_cons, beq_self_eq_true]
    simp only [Verif.Core.Spake2.step, List.find?_cons, beq_self_eq_true, Verif.Core.Spake2.passwordReady, hc,
      List.filter_cons, List.filter_nil, bne_self_eq_false, Bool.false_eq_true, if_false, if_true]
    rfl
  rw [e3]
  refine ⟨rfl, rfl, hh, ht, rfl, ?_⟩
  exact lookup_setConn (s := { s.core with pending := [], nextId := s.core.nextId + 1 }) hc

/-- The proof of a password. -/
theorem prove {s : Sys} {c : Nat} {k : Conn} {w : String} (h : Idle s c k) (hk : k.hasKey = true) (hw : k.key = .of w) :
    ∃ s', (step s (.net (.step2 c true w true))).1 = s' ∧ s'.iam = s.iam ∧ s'.core.nextId = s.core.nextId ∧
      Idle s' c { k with authenticated := true } := by
  obtain ⟨hh, ht, hp, hc⟩ := h
  refine ⟨_, rfl, ?_⟩
  have e1 : (step s (.net (.step2 c true w true))).1 = { s with core := setConn s.core c { k with authenticated := true } } := by
    show (⟨(Verif.Core.Spake2.step s.core (.step2 c true w true)).1, s.iam⟩ : Sys) = _
    simp only [Verif.Core.Spake2.step, hc, Verif.Core.Spake2.handle2, if_neg ht, hh, hk, hw]
    simp
  rw [e1]
  exact ⟨rfl, rfl, hh, ht, hp, lookup_setConn hc⟩

end Verif.Iam.Login
