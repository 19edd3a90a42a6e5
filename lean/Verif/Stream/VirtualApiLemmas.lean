import Verif.Stream.VirtualApiSpec
import Verif.Stream.VirtualLemmas

/-!
# Virtual streams in the API (lemmas, C143)
-/

namespace Verif.Stream.VirtualApi

open Verif.Stream (Ec)
open Spec

variable {F : Type}

@[simp] theorem run_nil (s : St F) : run s [] = (s, []) := rfl

theorem run_cons (s : St F) (op : Op F) (ops : List (Op F)) :
    run s (op :: ops) = ((run (step s op).1 ops).1, (step s op).2 ++ (run (step s op).1 ops).2) := rfl

theorem run_append (s : St F) (a b : List (Op F)) :
    run s (a ++ b) = ((run (run s a).1 b).1, (run s a).2 ++ (run (run s a).1 b).2) := by
  induction a generalizing s with
  | nil => simp
  | cons op a ih => simp [run_cons, ih]

theorem run_snoc (s : St F) (a : List (Op F)) (op : Op F) :
    run s (a ++ [op]) = ((step (run s a).1 op).1, (run s a).2 ++ (step (run s a).1 op).2) := by
  simp [run_append, run_cons]

/-- Induction over histories from the end. -/
theorem snoc_ind {P : List (Op F) → Prop} (h0 : P []) (h1 : ∀ ops op, P ops → P (ops ++ [op])) :
    ∀ ops, P ops := by
  intro ops
  rw [← List.reverse_reverse ops]
  induction ops.reverse with
  | nil => simpa using h0
  | cons a l ih => simpa using h1 _ a ih

theorem started_append (a b : List (Op F)) : started (a ++ b) = started a ++ started b := by
  simp [started]

theorem resolved_append (a b : List (Out F)) : resolved (a ++ b) = resolved a ++ resolved b := by
  simp [resolved]

theorem codes_append (k : Kind) (a b : List (Out F)) : codes k (a ++ b) = codes k a ++ codes k b := by
  simp [codes]

theorem coreCodes_append (k : Kind) (a b : List (Out F)) :
    coreCodes k (a ++ b) = coreCodes k a ++ coreCodes k b := by
  simp [coreCodes]

/-- How often an event of a kind is in the queue. -/
def inQ (s : St F) (k : Kind) : Nat := (s.q.map (·.1)).count k

/-- How many operations of a kind wait in the core. -/
def pnd (s : St F) (k : Kind) : Nat :=
  match s.cores with
  | [] => 0
  | c :: _ => Virtual.pend .client c k

/-- How many operations of a kind are on their way. -/
def busy (s : St F) (k : Kind) : Nat := pnd s k + inQ s k

/-- The error code which is on its way. -/
def qcode (s : St F) (k : Kind) : List Ec := if inQ s k = 0 then [] else [s.ec k]

/-- How many operations of a kind the core completes. -/
def ccount (k : Kind) (os : List (Virtual.Out Kind)) : Nat := (Virtual.Spec.completed os).count (.client, k)

/-- With which codes. -/
def doneCodes (k : Kind) (os : List (Virtual.Out Kind)) : List Ec :=
  os.filterMap fun
    | .done .client k' ec _ => if k' = k then some ec else none
    | _ => none

theorem coreCodes_map (k : Kind) (os : List (Virtual.Out Kind)) :
    coreCodes (F := F) k (os.map .core) = doneCodes k os := by
  induction os with
  | nil => rfl
  | cons o os ih =>
    obtain ⟨sd, k', ec, g⟩ := o
    cases sd
    · simpa [coreCodes, doneCodes] using ih
    · simp only [coreCodes, doneCodes, List.map_cons, List.filterMap_cons] at ih ⊢
      by_cases h : k' = k <;> simp [h, ih]

theorem codes_map (k : Kind) (os : List (Virtual.Out Kind)) : codes (F := F) k (os.map .core) = [] := by
  induction os with
  | nil => rfl
  | cons o os ih => simpa [codes] using ih

theorem resolved_map (os : List (Virtual.Out Kind)) : resolved (F := F) (os.map .core) = [] := by
  induction os with
  | nil => rfl
  | cons o os ih => simpa [resolved, resolves] using ih

/-- What posting does. -/
structure Posted (s : St F) (os : List (Virtual.Out Kind)) (s' : St F) : Prop where
  cores : s'.cores = s.cores
  cur : s'.cur = s.cur
  fut : s'.fut = s.fut
  ev : s'.ev = s.ev
  made : s'.made = s.made
  gone : s'.gone = s.gone
  hung : s'.hung = s.hung
  freed : s'.freed = s.freed
  ub : s'.ub = s.ub
  inQ : ∀ k, inQ s' k = inQ s k + ccount k os
  own : ∀ p ∈ s'.q, p ∈ s.q ∨ s.ev p.1 = some p.2
  code : ∀ k, qcode s' k = qcode s k ++ doneCodes k os

theorem not_mem_q {s : St F} {k : Kind} (h : inQ s k = 0) (i : Nat) : (k, i) ∉ s.q := by
  intro hm
  have : k ∈ s.q.map (·.1) := List.mem_map.2 ⟨(k, i), hm, rfl⟩
  have := List.count_pos_iff.2 this
  unfold inQ at h
  omega

theorem postAll_posted (os : List (Virtual.Out Kind)) : ∀ (s : St F),
    (∀ k, inQ s k + ccount k os ≤ 1) → (∀ k, 0 < ccount k os → (s.ev k).isSome) →
    (∀ k, 0 < ccount k os → s.freed = false) → Posted s os (postAll s os) := by
  induction os with
  | nil =>
    intro s _ _ _
    refine ⟨rfl, rfl, rfl, rfl, rfl, rfl, rfl, rfl, rfl, fun k => by simp [postAll, ccount], fun p hp => .inl hp,
      fun k => by simp [postAll, doneCodes]⟩
  | cons o os ih =>
    intro s h he hf
    obtain ⟨sd, k, ec, g⟩ := o
    cases sd with
    | server =>
      have hc : ∀ k', ccount k' (.done .server k ec g :: os) = ccount k' os := by
        intro k'; simp [ccount, List.count_cons]
      have := ih s (fun k' => hc k' ▸ h k') (fun k' => hc k' ▸ he k') (fun k' => hc k' ▸ hf k')
      refine ⟨this.cores, this.cur, this.fut, this.ev, this.made, this.gone, this.hung, this.freed, this.ub,
        fun k' => ?_, this.own, fun k' => ?_⟩
      · rw [hc]; exact this.inQ k'
      · rw [show postAll s (.done .server k ec g :: os) = postAll s os from rfl, this.code k']
        simp [doneCodes]
    | client =>
      have hc : ∀ k', ccount k' (.done .client k ec g :: os) = ccount k' os + if k = k' then 1 else 0 := by
        intro k'; by_cases hk : k = k' <;> simp [ccount, List.count_cons, hk]
      have hk1 : 0 < ccount k (.done .client k ec g :: os) := by rw [hc]; simp
      obtain ⟨i, hi⟩ := Option.isSome_iff_exists.1 (he k hk1)
      have hfr := hf k hk1
      have hk0 : inQ s k = 0 ∧ ccount k os = 0 := by
        have := h k; rw [hc] at this; simp only [if_true] at this; omega
      have hpost : post s k ec = { s with ec := upd s.ec k ec, q := s.q ++ [(k, i)] } := by
        simp [post, hfr, hi, not_mem_q hk0.1]
      have hq : ∀ k', inQ (post s k ec) k' = inQ s k' + if k = k' then 1 else 0 := by
        intro k'
        rw [hpost]
        by_cases hk : k = k' <;> simp [inQ, List.count_append, List.count_cons, hk]
      have := ih (post s k ec)
        (fun k' => by have := h k'; rw [hc] at this; rw [hq]; omega)
        (fun k' hk' => by rw [hpost]; exact he k' (by rw [hc]; omega))
        (fun k' hk' => by rw [hpost]; exact hfr)
      refine ⟨?_, ?_, ?_, ?_, ?_, ?_, ?_, ?_, ?_, fun k' => ?_, fun p hp => ?_, fun k' => ?_⟩
      · exact this.cores.trans (by rw [hpost])
      · exact this.cur.trans (by rw [hpost])
      · exact this.fut.trans (by rw [hpost])
      · exact this.ev.trans (by rw [hpost])
      · exact this.made.trans (by rw [hpost])
      · exact this.gone.trans (by rw [hpost])
      · exact this.hung.trans (by rw [hpost])
      · exact this.freed.trans (by rw [hpost])
      · exact this.ub.trans (by rw [hpost])
      · have := this.inQ k'
        rw [hq] at this
        rw [hc]
        simp only [postAll]
        omega
      · rcases this.own p hp with h1 | h1
        · rw [hpost] at h1
          simp only [List.mem_append, List.mem_singleton] at h1
          rcases h1 with h1 | rfl
          · exact .inl h1
          · exact .inr hi
        · rw [hpost] at h1; exact .inr h1
      · have h1 := this.code k'
        simp only [postAll]
        rw [h1]
        by_cases hk : k = k'
        · subst hk
          simp only [qcode, hq, hk0.1, if_true]
          simp [hpost, upd, doneCodes]
        · have hk' : ¬ k' = k := fun e => hk e.symm
          simp only [qcode, hq, hk, if_false, Nat.add_zero]
          simp [hpost, upd, doneCodes, hk, hk']

/-- One for an event object which exists. -/
def evs (s : St F) : Nat :=
  (s.ev .opn).isSome.toNat + (s.ev .read).isSome.toNat + (s.ev .write).isSome.toNat + (s.ev .close).isSome.toNat

/-- What holds between two steps; with `x` also in the middle of one, when an operation has been registered but
not been given to the core. -/
structure Good (x : Kind → Nat) (s : St F) : Prop where
  ub : s.ub = false
  hung : s.hung = false
  le : ∀ k, busy s k + x k ≤ 1
  fut : ∀ k, (s.fut k).isSome ↔ busy s k + x k = 1
  ev : ∀ k, (s.ev k).isSome ↔ busy s k + x k = 1
  own : ∀ p ∈ s.q, s.ev p.1 = some p.2
  cl : ∀ c ∈ s.cores, ∀ k, c.cCl = some k → k = .close
  bal : s.made = s.gone + evs s
  idle : s.freed = true → ∀ k, s.fut k = none

theorem init_good : Good (fun _ => 0) (St.init : St F) := by
  refine ⟨rfl, rfl, ?_, ?_, ?_, ?_, ?_, rfl, fun _ _ => rfl⟩ <;>
    simp [St.init, busy, pnd, inQ]

theorem step_cCl (c : Virtual.St Kind) (op : Virtual.Op Kind) :
    (Virtual.step c op).1.cCl = c.cCl ∨ (Virtual.step c op).1.cCl = none ∨
      ∃ k, op = .cClose k ∧ (Virtual.step c op).1.cCl = some k := by
  have hw : ∀ c : Virtual.St Kind, (Virtual.cDoWrite c).1.cCl = c.cCl ∨ (Virtual.cDoWrite c).1.cCl = none := by
    have hv : ∀ c : Virtual.St Kind, (Virtual.cResolveWrite c .ok).1.cCl = c.cCl ∨
        (Virtual.cResolveWrite c .ok).1.cCl = none := by
      intro c
      unfold Virtual.cResolveWrite
      cases h1 : c.sRd <;> cases h2 : c.cClosed
      all_goals try (rename_i r; cases h3 : r.all)
      all_goals simp_all [Virtual.resolveRead]
    intro c
    unfold Virtual.cDoWrite
    split
    · dsimp only
      split
      · exact .inl rfl
      · split
        · exact hv _
        · exact hv _
    · exact .inl rfl
  have hr : ∀ c : Virtual.St Kind, (Virtual.cDoRead c).1.cCl = c.cCl ∨ (Virtual.cDoRead c).1.cCl = none := by
    intro c
    unfold Virtual.cDoRead Virtual.cResolveRead
    repeat' (first | split | dsimp only) <;> simp_all
  cases op with
  | cClose k =>
    simp only [Virtual.step, Virtual.cClose]
    split
    · exact .inr (.inr ⟨k, rfl, rfl⟩)
    · exact .inl rfl
  | accept k => simp only [Virtual.step, Virtual.accept]; split <;> simp
  | readAll k n =>
    simp only [Virtual.step, Virtual.readAll]
    repeat' split
    all_goals first | exact .inl rfl | exact (hw _).imp id .inl
  | readSome k n =>
    simp only [Virtual.step, Virtual.readSome]
    repeat' split
    all_goals first | exact .inl rfl | exact (hw _).imp id .inl
  | write k d =>
    simp only [Virtual.step, Virtual.write]
    repeat' split
    all_goals first | exact .inl rfl | exact (hr _).imp id .inl
  | close k =>
    simp only [Virtual.step, Virtual.close]
    repeat' split
    all_goals exact .inl rfl
  | stop => simp only [Virtual.step, Virtual.stop]; split <;> simp
  | cReadAll k n =>
    simp only [Virtual.step, Virtual.cReadAll]
    repeat' split
    all_goals first | exact .inl rfl | exact (hr _).imp id .inl
  | cReadSome k n =>
    simp only [Virtual.step, Virtual.cReadSome]
    repeat' split
    all_goals first | exact .inl rfl | exact (hr _).imp id .inl
  | cWrite k d =>
    simp only [Virtual.step, Virtual.cWrite]
    repeat' split
    all_goals first | exact .inl rfl | exact (hw _).imp id .inl
  | cStop => simp only [Virtual.step, Virtual.cStop]; split <;> simp

/-- What a step of the core does to the rest. -/
structure Cored (s : St F) (c : Virtual.St Kind) (op : Virtual.Op Kind) (r : St F × List (Out F)) : Prop where
  good : Good (fun _ => 0) r.1
  cores : r.1.cores = [(Virtual.step c op).1]
  cur : r.1.cur = s.cur
  fut : r.1.fut = s.fut
  freed : r.1.freed = s.freed
  res : resolved r.2 = []
  codes : ∀ k, codes k r.2 = []
  code : ∀ k, qcode r.1 k = qcode s k ++ coreCodes k r.2

theorem core_good {x : Kind → Nat} {s : St F} {c : Virtual.St Kind} {op : Virtual.Op Kind} (h : Good x s)
    (hc : s.cores = [c]) (hx : ∀ k, x k = Virtual.starts op .client k)
    (hcl : ∀ k, op = .cClose k → k = .close)
    (hl : ∀ k, op = .cClose k → Virtual.pend .client c k = 0)
    (hfr : s.freed = true → ∀ k, x k = 0) :
    Cored s c op (inCore s 0 op) := by
  have hlost : ∀ k, Virtual.lost c op k = 0 := by
    intro k
    cases op with
    | cClose k' =>
      have hk' := hcl k' rfl
      have h0 := hl k' rfl
      subst hk'
      simp only [Virtual.lost]
      split
      · by_cases hk : k = .close
        · subst hk
          simp only [Virtual.pend] at h0
          omega
        · have := h.cl c (by simp [hc]) k
          simp only [Virtual.tk]
          split
          · exact absurd (this ‹_›) hk
          · rfl
      · rfl
    | _ => rfl
  have hacct : ∀ k, ccount k (Virtual.step c op).2 + Virtual.pend .client (Virtual.step c op).1 k =
      Virtual.pend .client c k + x k := by
    intro k
    have := Virtual.step_acct c op .client k
    simp only [if_true, hlost, Nat.add_zero] at this
    rw [hx]
    exact this
  have hb : ∀ k, busy s k = Virtual.pend .client c k + inQ s k := by
    intro k; simp [busy, pnd, hc]
  have hle : ∀ k, inQ s k + ccount k (Virtual.step c op).2 ≤ 1 := by
    intro k
    have := hacct k
    have := h.le k
    rw [hb] at this
    omega
  have hfut : ∀ k, 0 < ccount k (Virtual.step c op).2 → busy s k + x k = 1 := by
    intro k hk
    have := hacct k
    have := h.le k
    rw [hb] at this ⊢
    omega
  have hP : Posted { s with cores := s.cores.set 0 (Virtual.step c op).1 } (Virtual.step c op).2
      (inCore s 0 op).1 := by
    have : (inCore s 0 op).1 =
        postAll { s with cores := s.cores.set 0 (Virtual.step c op).1 } (Virtual.step c op).2 := by
      simp [inCore, hc]
    rw [this]
    refine postAll_posted _ _ hle (fun k hk => (h.ev k).2 (hfut k hk)) (fun k hk => ?_)
    cases hf : s.freed with
    | false => simp [hf]
    | true =>
      have h1 := h.idle hf k
      have h2 := (h.fut k).2 (hfut k hk)
      rw [h1] at h2
      simp at h2
  have ho : (inCore s 0 op).2 = (Virtual.step c op).2.map .core := by simp [inCore, hc]
  have hcores : (inCore s 0 op).1.cores = [(Virtual.step c op).1] := by rw [hP.cores]; simp [hc]
  have hbusy : ∀ k, busy (inCore s 0 op).1 k = busy s k + x k := by
    intro k
    have h1 := hP.inQ k
    have h2 := hacct k
    rw [hb]
    simp only [busy, pnd, hcores]
    simp only [inQ] at h1 ⊢
    omega
  refine ⟨⟨hP.ub.trans h.ub, hP.hung.trans h.hung, fun k => ?_, fun k => ?_, fun k => ?_, fun p hp => ?_, ?_, ?_,
    ?_⟩, hcores, hP.cur, hP.fut, hP.freed, ?_, fun k => ?_, fun k => ?_⟩
  · rw [hbusy]; have := h.le k; omega
  · rw [hP.fut, hbusy]; exact h.fut k
  · rw [hP.ev, hbusy]; exact h.ev k
  · rw [hP.ev]
    rcases hP.own p hp with h1 | h1
    · exact h.own p h1
    · exact h1
  · intro c' hc' k hk
    rw [hcores, List.mem_singleton] at hc'
    subst hc'
    rcases step_cCl c op with h1 | h1 | ⟨k', h1, h2⟩
    · exact h.cl c (by simp [hc]) k (h1 ▸ hk)
    · rw [h1] at hk; cases hk
    · rw [h2] at hk; cases hk; exact hcl _ h1
  · have : evs (inCore s 0 op).1 = evs s := by simp [evs, hP.ev]
    rw [this]
    exact hP.made.trans (h.bal.trans (by rw [hP.gone]))
  · intro hf k
    rw [hP.fut]
    exact h.idle (hP.freed ▸ hf) k
  · rw [ho]; exact resolved_map _
  · rw [ho]; exact codes_map _ _
  · rw [ho, coreCodes_map]; exact hP.code k

/-- An operation is registered. -/
theorem begin_good {s : St F} (h : Good (fun _ => 0) s) (k : Kind) (f : F) (hk : s.fut k = none)
    (hf : s.freed = false) :
    Good (fun k' => if k' = k then 1 else 0) (initEv { s with fut := upd s.fut k (some f) } k false) := by
  have hb : busy s k = 0 := by
    have h1 := h.fut k
    rw [hk] at h1
    have := h.le k
    simp at h1
    omega
  have he : s.ev k = none := by
    have h1 := h.ev k
    rw [hb] at h1
    simpa using h1
  refine ⟨h.ub, h.hung, fun k' => ?_, fun k' => ?_, fun k' => ?_, fun p hp => ?_, h.cl, ?_, ?_⟩
  · have := h.le k'
    change busy s k' + _ ≤ 1
    by_cases e : k' = k
    · subst e; simp [hb]
    · simpa [e] using this
  · change ((upd s.fut k (some f)) k').isSome = true ↔ busy s k' + _ = 1
    have := h.fut k'
    by_cases e : k' = k
    · subst e; simp [hb, upd]
    · simpa [e, upd] using this
  · change ((upd s.ev k (some s.made)) k').isSome = true ↔ busy s k' + _ = 1
    have := h.ev k'
    by_cases e : k' = k
    · subst e; simp [hb, upd]
    · simpa [e, upd] using this
  · have h1 := h.own p hp
    have : p.1 ≠ k := by
      intro e
      rw [e, he] at h1
      cases h1
    change upd s.ev k _ p.1 = _
    simpa [upd, this] using h1
  · have := h.bal
    cases k <;> simp [initEv, evs, upd, he] at this ⊢ <;> omega
  · intro hf'
    change s.freed = true at hf'
    rw [hf] at hf'
    cases hf'

/-- What the queue does. -/
theorem deliver_good {s : St F} (h : Good (fun _ => 0) s) :
    (deliver s = (s, []) ∧ s.q = []) ∨ ∃ k f q', s.fut k = some f ∧ s.q.length = q'.length + 1 ∧
      (deliver s).1.q = q' ∧
      Good (fun _ => 0) (deliver s).1 ∧ (deliver s).2 = [.resolved k f (s.ec k)] ∧
      (deliver s).1.fut = upd s.fut k none ∧ (deliver s).1.cores = s.cores ∧ (deliver s).1.cur = s.cur ∧
      (deliver s).1.freed = s.freed ∧ qcode s k = [s.ec k] ∧ qcode (deliver s).1 k = [] ∧
      ∀ k', k' ≠ k → qcode (deliver s).1 k' = qcode s k' := by
  cases hq : s.q with
  | nil => left; exact ⟨by simp [deliver, hq], rfl⟩
  | cons p q' =>
    right
    obtain ⟨k, i⟩ := p
    have hev : s.ev k = some i := h.own (k, i) (by simp [hq])
    have hin : ∀ k', inQ s k' = (q'.map (·.1)).count k' + if k = k' then 1 else 0 := by
      intro k'; simp [inQ, hq, List.count_cons]
    have hb : busy s k = 1 := by
      have := (h.ev k).1 (by simp [hev])
      simpa using this
    have hk0 : (q'.map (·.1)).count k = 0 ∧ pnd s k = 0 := by
      have := hin k
      simp only [if_true] at this
      unfold busy at hb
      omega
    obtain ⟨f, hf⟩ := Option.isSome_iff_exists.1 ((h.fut k).2 (by simpa using hb))
    have hfr : s.freed = false := by
      cases hh : s.freed with
      | false => rfl
      | true => have := h.idle hh k; rw [hf] at this; cases this
    have hfilt : q'.filter (· ≠ (k, i)) = q' := by
      rw [List.filter_eq_self]
      intro p hp
      simp only [ne_eq, decide_not, Bool.not_eq_true', decide_eq_false_iff_not]
      rintro rfl
      have : k ∈ q'.map (·.1) := List.mem_map.2 ⟨(k, i), hp, rfl⟩
      have := List.count_pos_iff.2 this
      omega
    have hd : deliver s = ({ s with q := q', ev := upd s.ev k none, gone := s.gone + 1,
                                    fut := upd s.fut k none }, [.resolved k f (s.ec k)]) := by
      simp only [deliver, hq, hfr, Bool.false_eq_true, if_false, callback, deinitEv, hev, hf, hfilt]
    have hbusy : ∀ k', busy (deliver s).1 k' = if k' = k then 0 else busy s k' := by
      intro k'
      rw [hd]
      by_cases e : k' = k
      · subst e
        have := hk0.1
        have := hk0.2
        simp only [if_true, busy, inQ, pnd] at *
        omega
      · have := hin k'
        have e' : ¬ k = k' := fun h => e h.symm
        simp only [e, e', if_false, busy, inQ, pnd] at *
        omega
    refine ⟨k, f, q', hf, by simp, by rw [hd], ⟨?_, ?_, fun k' => ?_, fun k' => ?_, fun k' => ?_, fun p hp => ?_, ?_,
      ?_, ?_⟩, by rw [hd], by rw [hd], by rw [hd], by rw [hd], by rw [hd], ?_, ?_, fun k' hk' => ?_⟩
    · rw [hd]; exact h.ub
    · rw [hd]; exact h.hung
    · rw [hbusy]; have := h.le k'; split <;> simp_all
    · rw [hbusy, hd]
      have := h.fut k'
      by_cases e : k' = k <;> simp [upd, e] <;> simpa using this
    · rw [hbusy, hd]
      have := h.ev k'
      by_cases e : k' = k <;> simp [upd, e] <;> simpa using this
    · rw [hd] at hp ⊢
      have h1 := h.own p (by rw [hq]; exact List.mem_cons_of_mem _ hp)
      have : p.1 ≠ k := by
        intro e
        have : k ∈ q'.map (·.1) := List.mem_map.2 ⟨p, hp, e⟩
        have := List.count_pos_iff.2 this
        omega
      simpa [upd, this] using h1
    · rw [hd]; exact h.cl
    · rw [hd]
      have := h.bal
      cases k <;> simp [evs, upd, hev] at this ⊢ <;> omega
    · rw [hd]
      intro h1
      rw [show ({ s with q := q', ev := upd s.ev k none, gone := s.gone + 1, fut := upd s.fut k none } : St F).freed
        = s.freed from rfl, hfr] at h1
      cases h1
    · have := hin k
      simp only [if_true] at this
      simp [qcode, this]
    · rw [hd]
      simp only [qcode, inQ, hk0.1, if_true]
    · have h1 := hin k'
      have e' : ¬ k = k' := fun h => hk' h.symm
      rw [hd]
      simp only [e', if_false, Nat.add_zero] at h1
      simp only [qcode, h1]
      rfl

end Verif.Stream.VirtualApi
