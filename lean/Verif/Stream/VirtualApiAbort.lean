import Verif.Stream.VirtualApiStep

/-!
# Virtual streams in the API (lemmas about aborting and about misuse, C143)
-/

namespace Verif.Stream.VirtualApi

open Verif.Stream (Ec)
open Spec

variable {F : Type}

/-- The stream was aborted, and only a read waits, if anything. -/
structure Quiet (c : Virtual.St Kind) (r : Option (Virtual.Rdr Kind)) : Prop where
  vstopped : c.vstopped = true
  opened : c.opened = none
  cRd : c.cRd = r
  cWr : c.cWr = none
  cCl : c.cCl = none

theorem quiet_step {c : Virtual.St Kind} {r : Option (Virtual.Rdr Kind)} (h : Quiet c r) (op : Virtual.Op Kind)
    (h1 : ∀ k n, op ≠ .cReadAll k n) (h2 : ∀ k n, op ≠ .cReadSome k n) : Quiet (Virtual.step c op).1 r := by
  obtain ⟨hv, ho, hr, hw, hc⟩ := h
  cases op with
  | cReadAll k n => exact absurd rfl (h1 k n)
  | cReadSome k n => exact absurd rfl (h2 k n)
  | accept k => simpa [Virtual.step, Virtual.accept, hv] using (⟨hv, ho, hr, hw, hc⟩ : Quiet c r)
  | readAll k n => simpa [Virtual.step, Virtual.readAll, hv] using (⟨hv, ho, hr, hw, hc⟩ : Quiet c r)
  | readSome k n => simpa [Virtual.step, Virtual.readSome, hv] using (⟨hv, ho, hr, hw, hc⟩ : Quiet c r)
  | write k d => simpa [Virtual.step, Virtual.write, hv] using (⟨hv, ho, hr, hw, hc⟩ : Quiet c r)
  | close k => simpa [Virtual.step, Virtual.close, hv] using (⟨hv, ho, hr, hw, hc⟩ : Quiet c r)
  | stop =>
    simp only [Virtual.step, Virtual.stop]
    split
    · exact ⟨hv, ho, hr, hw, hc⟩
    · exact ⟨hv, ho, hr, hw, hc⟩
  | cWrite k d => simpa [Virtual.step, Virtual.cWrite, hv] using (⟨hv, ho, hr, hw, hc⟩ : Quiet c r)
  | cClose k =>
    simp only [Virtual.step, Virtual.cClose, hw, Option.isSome_none, Bool.false_eq_true, if_false]
    exact ⟨hv, ho, hr, rfl, hc⟩
  | cStop => simpa [Virtual.step, Virtual.cStop, hv] using (⟨hv, ho, hr, hw, hc⟩ : Quiet c r)

/-- A stream in the core is only left aborted when nothing waits. -/
def Calm (c : Virtual.St Kind) : Prop := c.vstopped = true → Quiet c none

theorem vstopped_step (c : Virtual.St Kind) (op : Virtual.Op Kind) (h : op ≠ .cStop) :
    (Virtual.step c op).1.vstopped = c.vstopped := by
  have hv : ∀ c : Virtual.St Kind, (Virtual.cResolveWrite c .ok).1.vstopped = c.vstopped := by
    intro c
    unfold Virtual.cResolveWrite
    cases h1 : c.sRd <;> cases h2 : c.cClosed
    all_goals try (rename_i r; cases h3 : r.all)
    all_goals simp_all [Virtual.resolveRead]
  have hw : ∀ c : Virtual.St Kind, (Virtual.cDoWrite c).1.vstopped = c.vstopped := by
    intro c
    unfold Virtual.cDoWrite
    split
    · dsimp only
      split
      · rfl
      · split
        · exact hv _
        · exact hv _
    · rfl
  have hr : ∀ c : Virtual.St Kind, (Virtual.cDoRead c).1.vstopped = c.vstopped := by
    intro c
    unfold Virtual.cDoRead Virtual.cResolveRead
    repeat' (first | split | dsimp only) <;> simp_all
  cases op with
  | cStop => exact absurd rfl h
  | accept k => simp only [Virtual.step, Virtual.accept]; split <;> rfl
  | readAll k n =>
    simp only [Virtual.step, Virtual.readAll]
    repeat' split
    all_goals first | rfl | exact hw _
  | readSome k n =>
    simp only [Virtual.step, Virtual.readSome]
    repeat' split
    all_goals first | rfl | exact hw _
  | write k d =>
    simp only [Virtual.step, Virtual.write]
    repeat' split
    all_goals first | rfl | exact hr _
  | close k =>
    simp only [Virtual.step, Virtual.close]
    repeat' split
    all_goals rfl
  | stop => simp only [Virtual.step, Virtual.stop]; split <;> rfl
  | cReadAll k n =>
    simp only [Virtual.step, Virtual.cReadAll]
    repeat' split
    all_goals first | rfl | exact hr _
  | cReadSome k n =>
    simp only [Virtual.step, Virtual.cReadSome]
    repeat' split
    all_goals first | rfl | exact hr _
  | cWrite k d =>
    simp only [Virtual.step, Virtual.cWrite]
    repeat' split
    all_goals first | rfl | exact hw _
  | cClose k =>
    simp only [Virtual.step, Virtual.cClose]
    split <;> rfl

theorem cStop_quiet {c : Virtual.St Kind} (h : Calm c) : Quiet (Virtual.step c .cStop).1 none := by
  simp only [Virtual.step, Virtual.cStop]
  split
  · exact h ‹_›
  · exact ⟨rfl, rfl, rfl, rfl, rfl⟩

theorem postAll_cores (os : List (Virtual.Out Kind)) : ∀ s : St F, (postAll s os).cores = s.cores := by
  induction os with
  | nil => intro s; rfl
  | cons o os ih =>
    intro s
    obtain ⟨sd, k, ec, g⟩ := o
    cases sd with
    | server => exact ih s
    | client =>
      refine (ih _).trans ?_
      unfold post
      split
      · rfl
      · split <;> rfl

theorem postAll_fut (os : List (Virtual.Out Kind)) : ∀ s : St F, (postAll s os).fut = s.fut := by
  induction os with
  | nil => intro s; rfl
  | cons o os ih =>
    intro s
    obtain ⟨sd, k, ec, g⟩ := o
    cases sd with
    | server => exact ih s
    | client =>
      refine (ih _).trans ?_
      unfold post
      split
      · rfl
      · split <;> rfl

theorem inCore_fut (s : St F) (i : Nat) (op : Virtual.Op Kind) : (inCore s i op).1.fut = s.fut := by
  unfold inCore
  split
  · rfl
  · exact postAll_fut _ _

theorem inCore_res (s : St F) (i : Nat) (op : Virtual.Op Kind) : resolved (inCore s i op).2 = [] := by
  unfold inCore
  split
  · rfl
  · exact resolved_map _

theorem inCur_fut (s : St F) (op : Virtual.Op Kind) : (inCur s op).1.fut = s.fut := by
  unfold inCur
  split
  · rfl
  · exact inCore_fut _ _ _

theorem inCur_res (s : St F) (op : Virtual.Op Kind) : resolved (inCur s op).2 = [] := by
  unfold inCur
  split
  · rfl
  · exact inCore_res _ _ _

/-- A future comes from the application. -/
theorem step_from (s : St F) (op : Op F) (f : F)
    (h : (∃ k, (step s op).1.fut k = some f) ∨ f ∈ resolved (step s op).2) :
    (∃ k, s.fut k = some f) ∨ f ∈ started [op] := by
  have hu : ∀ (k : Kind) (g : F), (∃ k', upd s.fut k (some g) k' = some f) → (∃ k', s.fut k' = some f) ∨ f = g := by
    rintro k g ⟨k', hk⟩
    unfold upd at hk
    split at hk
    · right; simpa using hk.symm
    · exact .inl ⟨k', hk⟩
  have hstart : ∀ (k : Kind) (g : F) (oom : Bool) (cop : Virtual.Op Kind),
      (∃ k', (start s k g oom cop).1.fut k' = some f) ∨ f ∈ resolved (start s k g oom cop).2 →
      (∃ k', s.fut k' = some f) ∨ f = g := by
    intro k g oom cop h
    unfold start at h
    split at h
    · rcases h with h | h
      · exact .inl h
      · right; simpa [resolved, resolves] using h
    · rw [inCur_fut, inCur_res] at h
      rcases h with h | h
      · refine hu k g ?_
        unfold initEv at h
        split at h <;> exact h
      · cases h
  unfold step at h
  split at h
  · exact h.elim .inl (fun h => by simp [resolved] at h)
  have hlive : ∀ r : St F × List (Out F), ((∃ k, (live s r).1.fut k = some f) ∨ f ∈ resolved (live s r).2) →
      (∃ k, s.fut k = some f) ∨ (∃ k, r.1.fut k = some f) ∨ f ∈ resolved r.2 := by
    intro r h
    unfold live at h
    split at h
    · exact .inl (h.elim id (fun h => by simp [resolved] at h))
    · exact .inr h
  cases op with
  | opn g oom mem =>
    rcases hlive _ h with h | h
    · exact .inl h
    have : (∃ k', s.fut k' = some f) ∨ f = g := by
      unfold opn at h
      dsimp only at h
      rcases h with h | h
      · refine hu .opn g ?_
        cases mem <;> cases oom <;> simpa [initEv] using h
      · cases mem
        · right; simpa [resolved, resolves] using h
        · simp [resolved] at h
    simpa [started, begins, eq_comm] using this
  | readAll g n oom =>
    rcases hlive _ h with h | h
    · exact .inl h
    have : (∃ k', s.fut k' = some f) ∨ f = g := by
      unfold readAll at h
      split at h
      · rcases h with h | h
        · exact .inl h
        · right; simpa [resolved, resolves] using h
      · exact hstart _ _ _ _ h
    simpa [started, begins, eq_comm] using this
  | readSome g n oom =>
    rcases hlive _ h with h | h
    · exact .inl h
    simpa [started, begins, eq_comm] using hstart _ _ _ _ h
  | write g d oom =>
    rcases hlive _ h with h | h
    · exact .inl h
    simpa [started, begins, eq_comm] using hstart _ _ _ _ h
  | close g oom =>
    rcases hlive _ h with h | h
    · exact .inl h
    simpa [started, begins, eq_comm] using hstart _ _ _ _ h
  | abort =>
    rcases hlive _ h with h | h
    · exact .inl h
    rw [inCur_fut, inCur_res] at h
    exact .inl (h.elim id (fun h => by cases h))
  | free =>
    rcases hlive _ h with h | h
    · exact .inl h
    refine .inl (h.elim (fun h => ?_) (fun h => by simp [resolved] at h))
    unfold free at h
    split at h <;> exact h
  | server i sop =>
    simp only [step'] at h
    rw [inCore_fut, inCore_res] at h
    exact .inl (h.elim id (fun h => by cases h))
  | deliver =>
    simp only [step', deliver] at h
    left
    split at h
    · exact h.elim id (fun h => by simp [resolved] at h)
    · rename_i k i q hq
      split at h
      · exact h.elim id (fun h => by simp [resolved] at h)
      · have hd : ∀ s : St F, (deinitEv s k).fut = s.fut := by
          intro s; unfold deinitEv; split <;> rfl
        unfold callback at h
        dsimp only at h
        rw [hd] at h
        split at h
        · rcases h with h | h
          · simpa [hd] using h
          · simp [resolved] at h
        · rename_i g hg
          rcases h with ⟨k', h⟩ | h
          · dsimp only at h
            unfold upd at h
            split at h
            · cases h
            · exact ⟨k', h⟩
          · have : f = g := by simpa [resolved, resolves] using h
            subst this
            exact ⟨k, hg⟩

theorem run_from (s : St F) (ops : List (Op F)) (f : F) (h0 : ∀ k, s.fut k ≠ some f) (hn : f ∉ started ops) :
    f ∉ resolved (run s ops).2 := by
  induction ops generalizing s with
  | nil => simp [resolved]
  | cons op ops ih =>
    have hs : started (op :: ops) = started [op] ++ started ops := started_append [op] ops
    rw [hs, List.mem_append, not_or] at hn
    rw [run_cons, resolved_append, List.mem_append, not_or]
    have key := step_from s op f
    refine ⟨fun h => ?_, ih _ (fun k h => ?_) hn.2⟩
    · rcases key (.inr h) with ⟨k, h⟩ | h
      · exact h0 k h
      · exact hn.1 h
    · rcases key (.inl ⟨k, h⟩) with ⟨k, h⟩ | h
      · exact h0 k h
      · exact hn.1 h

theorem run_hung (s : St F) (h : s.hung = true) (ops : List (Op F)) : run s ops = (s, []) := by
  induction ops with
  | nil => rfl
  | cons op ops ih =>
    have : step s op = (s, []) := by simp [step, h]
    rw [run_cons, this, ih]
    rfl

/-! ### the queue -/

theorem split_snoc {α : Type} {ops pre post : List α} {op x : α} (h : ops ++ [x] = pre ++ op :: post) :
    (post = [] ∧ op = x ∧ pre = ops) ∨ ∃ post', post = post' ++ [x] ∧ ops = pre ++ op :: post' := by
  rcases List.eq_nil_or_concat post with rfl | ⟨post', y, rfl⟩
  · left
    have := List.append_inj' h rfl
    simp only [List.cons.injEq, and_true] at this
    exact ⟨rfl, this.2.symm, this.1.symm⟩
  · right
    rw [List.concat_eq_append, show pre ++ op :: (post' ++ [y]) = (pre ++ op :: post') ++ [y] by simp] at h
    have := List.append_inj' h rfl
    simp only [List.cons.injEq, and_true] at this
    exact ⟨post', by rw [List.concat_eq_append, this.2], this.1⟩

theorem careful_deliver {ops : List (Op F)} (h : Careful ops) : Careful (ops ++ [.deliver]) where
  memory op ho := by
    rcases List.mem_append.1 ho with h1 | h1
    · exact h.memory op h1
    · rw [List.mem_singleton] at h1; subst h1; trivial
  opened pre op post e hu := by
    rcases split_snoc e with ⟨_, rfl, _⟩ | ⟨post', _, e'⟩
    · exact hu.elim
    · exact h.opened pre op post' e' hu
  once pre op post e hu := by
    rcases split_snoc e with ⟨_, rfl, _⟩ | ⟨post', _, e'⟩
    · exact hu.elim
    · exact h.once pre op post' e' hu
  readAll pre f n oom post e := by
    rcases split_snoc e with ⟨_, h1, _⟩ | ⟨post', _, e'⟩
    · cases h1
    · exact h.readAll pre f n oom post' e'
  freed pre op post e hu := by
    rcases split_snoc e with ⟨_, rfl, _⟩ | ⟨post', _, e'⟩
    · exact hu.elim
    · exact h.freed pre op post' e' hu
  free pre post e := by
    rcases split_snoc e with ⟨_, h1, _⟩ | ⟨post', _, e'⟩
    · cases h1
    · exact h.free pre post' e'

theorem replicate_snoc {α : Type} (n : Nat) (a : α) : List.replicate (n + 1) a = List.replicate n a ++ [a] := by
  rw [List.replicate_succ']

theorem started_delivers (ops : List (Op F)) (n : Nat) :
    started (ops ++ List.replicate n .deliver) = started ops := by
  induction n with
  | zero => simp
  | succ n ih => rw [replicate_snoc, ← List.append_assoc, started_append, ih]; simp [started, begins]

theorem careful_delivers {ops : List (Op F)} (h : Careful ops) (n : Nat) :
    Careful (ops ++ List.replicate n .deliver) := by
  induction n with
  | zero => simpa using h
  | succ n ih => rw [replicate_snoc, ← List.append_assoc]; exact careful_deliver ih

theorem delivers_q [DecidableEq F] {ops : List (Op F)} (hn : (started ops).Nodup) (h : Careful ops) (n : Nat) :
    (run St.init (ops ++ List.replicate n .deliver)).1.q.length ≤ (run St.init ops).1.q.length - n := by
  induction n with
  | zero => simp
  | succ n ih =>
    have hJ := run_J (ops ++ List.replicate n .deliver) (by rw [started_delivers]; exact hn) (careful_delivers h n)
    rw [replicate_snoc, ← List.append_assoc, run_snoc]
    have hs : step (run St.init (ops ++ List.replicate n .deliver)).1 .deliver =
        deliver (run St.init (ops ++ List.replicate n .deliver)).1 := by
      simp [step, hJ.good.hung, step']
    rw [hs]
    rcases deliver_good hJ.good with ⟨h1, h2⟩ | ⟨k, f, q', _, h1, h2, _⟩
    · rw [h1]; simp only [h2]; simp
    · rw [h2]; omega

/-! ### aborting -/

theorem start_cores [DecidableEq F] {s : St F} {k : Kind} {f : F} {cop : Virtual.Op Kind} {c : Virtual.St Kind}
    (hc : s.cores = [c]) (hcur : s.cur = some 0) :
    (start s k f false cop).1.cores = [c] ∨ (start s k f false cop).1.cores = [(Virtual.step c cop).1] := by
  unfold start
  split
  · exact .inl hc
  · right
    simp [inCur, initEv, hcur, inCore, hc, postAll_cores]

/-- Where the stream of a handle is after a step. -/
theorem step_cores [DecidableEq F] {ops : List (Op F)} {op : Op F} (hn : (started (ops ++ [op])).Nodup)
    (hc : Careful (ops ++ [op])) {c : Virtual.St Kind} (h : (run St.init ops).1.cores = [c]) :
    (run St.init (ops ++ [op])).1.cores = [c] ∨ ∃ cop, (run St.init (ops ++ [op])).1.cores = [(Virtual.step c cop).1] ∧
      ((∀ k n, cop ≠ .cReadAll k n) ∧ (∀ k n, cop ≠ .cReadSome k n) ∨
        Reads op ∧ (run St.init ops).1.fut .read = none) ∧ (cop = .cStop ↔ op = .abort) := by
  have hn' : (started ops).Nodup := by
    rw [started_append] at hn
    exact (List.nodup_append.1 hn).1
  have hJ := run_J ops hn' hc.init
  have hop : (∃ o ∈ ops, Opens o) ∧ Open (run St.init ops).1 := by
    rcases hJ.cores with h1 | h1
    · rw [h1.2.1] at h; cases h
    · exact h1
  obtain ⟨⟨oo, hoo, hoo'⟩, c', hc', hcur⟩ := hop
  rw [run_snoc]
  have hmem := hc.memory op (by simp)
  generalize hs : (run St.init ops).1 = s at *
  have hstep : step s op = step' s op := by simp [step, hJ.good.hung]
  simp only [hstep]
  have hlive : Uses op → s.freed = false := by
    intro hu
    cases hf : s.freed with
    | false => rfl
    | true => exact absurd (hJ.freed.1 hf) (hc.freed ops op [] (by simp) hu)
  cases op with
  | opn f oom mem => exact absurd hoo' (hc.once ops _ [] rfl trivial oo hoo)
  | readAll f n oom =>
    have hm : oom = false := hmem
    subst hm
    simp only [step', live, hlive trivial, Bool.false_eq_true, if_false, readAll]
    split
    · exact .inl h
    · rename_i hnone
      rcases start_cores (k := .read) (f := f) (cop := .cReadAll .read n) h hcur with h1 | h1
      · exact .inl h1
      · exact .inr ⟨_, h1, .inr ⟨trivial, by simpa using hnone⟩, by simp⟩
  | readSome f n oom =>
    have hm : oom = false := hmem
    subst hm
    simp only [step', live, hlive trivial, Bool.false_eq_true, if_false]
    by_cases hnone : s.fut .read = none
    · rcases start_cores (k := .read) (f := f) (cop := .cReadSome .read n) h hcur with h1 | h1
      · exact .inl h1
      · exact .inr ⟨_, h1, .inr ⟨trivial, hnone⟩, by simp⟩
    · left
      have : (s.fut .read).isSome = true := by
        cases hh : s.fut .read with
        | none => exact absurd hh hnone
        | some g => rfl
      simp [start, this, h]
  | write f d oom =>
    have hm : oom = false := hmem
    subst hm
    simp only [step', live, hlive trivial, Bool.false_eq_true, if_false]
    rcases start_cores (k := .write) (f := f) (cop := .cWrite .write d) h hcur with h1 | h1
    · exact .inl h1
    · exact .inr ⟨_, h1, .inl ⟨by simp, by simp⟩, by simp⟩
  | close f oom =>
    have hm : oom = false := hmem
    subst hm
    simp only [step', live, hlive trivial, Bool.false_eq_true, if_false]
    rcases start_cores (k := .close) (f := f) (cop := .cClose .close) h hcur with h1 | h1
    · exact .inl h1
    · exact .inr ⟨_, h1, .inl ⟨by simp, by simp⟩, by simp⟩
  | abort =>
    right
    refine ⟨.cStop, ?_, .inl ⟨by simp, by simp⟩, by simp⟩
    simp [step', live, hlive trivial, inCur, hcur, inCore, h, postAll_cores]
  | free =>
    left
    simp [step', live, hlive trivial, free, hcur, h]
  | server i sop =>
    cases i with
    | zero =>
      right
      refine ⟨sop.toCore, ?_, .inl ⟨?_, ?_⟩, ?_⟩
      · simp [step', inCore, h, postAll_cores]
      · cases sop <;> simp [SOp.toCore]
      · cases sop <;> simp [SOp.toCore]
      · cases sop <;> simp [SOp.toCore]
    | succ i =>
      left
      simp [step', inCore, h]
  | deliver =>
    left
    simp only [step']
    exact (deliver_next hJ.good).2.1.trans h

theorem abort_quiet [DecidableEq F] (ops : List (Op F)) : (started ops).Nodup → Careful ops → NoReadAfterAbort ops →
    ∀ c, (run St.init ops).1.cores = [c] →
      (.abort ∉ ops → c.vstopped = false) ∧ (.abort ∈ ops → Quiet c none) := by
  induction ops using snoc_ind with
  | h0 => intro _ _ _ c hc; simp [St.init] at hc
  | h1 ops op ih =>
    intro hn hc hr c hcs
    have hn' : (started ops).Nodup := by
      rw [started_append] at hn
      exact (List.nodup_append.1 hn).1
    have hr' : NoReadAfterAbort ops := fun pre o post e => hr pre o (post ++ [op]) (by simp [e])
    have hJ := run_J ops hn' hc.init
    rcases hJ.cores with h1 | ⟨_, c0, h2, h3⟩
    · -- the stream is opened with this step
      have hno : .abort ∉ ops := by
        intro hm
        obtain ⟨pre, post, e⟩ := List.append_of_mem hm
        obtain ⟨o', ho', hop⟩ := hc.init.opened pre .abort post e trivial (fun h => h)
        exact h1.1 o' (by rw [e]; simp [ho']) hop
      have hJ2 := run_J (ops ++ [op]) hn hc
      have hop : Opens op := by
        rcases hJ2.cores with h4 | ⟨⟨o', ho', hop⟩, _⟩
        · rw [h4.2.1] at hcs; cases hcs
        · rcases List.mem_append.1 ho' with h5 | h5
          · exact absurd hop (h1.1 o' h5)
          · rw [List.mem_singleton] at h5; subst h5; exact hop
      cases op with
      | opn f oom mem =>
        have hm := hc.memory (.opn f oom mem) (by simp)
        obtain ⟨rfl, rfl⟩ := hm
        have : (run St.init (ops ++ [.opn f false true])).1.cores = [Virtual.St.init .opn] := by
          rw [run_snoc]
          simp [step, hJ.good.hung, step', live, h1.2.2.2.1, opn, initEv, h1.2.1]
        rw [this] at hcs
        have hcs := (List.cons.inj hcs).1
        subst hcs
        refine ⟨fun _ => rfl, fun hm => ?_⟩
        simp [hno] at hm
      | _ => exact hop.elim
    · obtain ⟨hno, hq⟩ := ih hn' hc.init hr' c0 h2
      have hcalm : Calm c0 := by
        intro hv
        by_cases hm : .abort ∈ ops
        · exact hq hm
        · rw [hno hm] at hv; cases hv
      by_cases hab : op = .abort
      · subst hab
        have hs : (run St.init (ops ++ [.abort])).1.cores = [(Virtual.step c0 .cStop).1] := by
          rw [run_snoc]
          have hl : (run St.init ops).1.freed = false := by
            cases hf : (run St.init ops).1.freed with
            | false => rfl
            | true => exact absurd (hJ.freed.1 hf) (hc.freed ops .abort [] (by simp) trivial)
          simp [step, hJ.good.hung, step', live, hl, inCur, h3, inCore, h2, postAll_cores]
        rw [hs] at hcs
        have hcs := (List.cons.inj hcs).1
        subst hcs
        exact ⟨fun h => absurd (by simp) h, fun _ => cStop_quiet hcalm⟩
      · have hab' : .abort ∈ ops ++ [op] ↔ .abort ∈ ops := by
          have : ¬ .abort = op := fun e => hab e.symm
          simp [this]
        rw [hab']
        rcases step_cores hn hc h2 with h4 | ⟨cop, h4, h5, h6⟩
        · rw [h4] at hcs
          have hcs := (List.cons.inj hcs).1
          subst hcs
          exact ⟨hno, hq⟩
        · rw [h4] at hcs
          have hcs := (List.cons.inj hcs).1
          subst hcs
          have hst : cop ≠ .cStop := fun e => hab (h6.1 e)
          refine ⟨fun h => (vstopped_step c0 cop hst).trans (hno h), fun hm => ?_⟩
          rcases h5 with ⟨h5, h5'⟩ | ⟨h5, _⟩
          · exact quiet_step (hq hm) cop h5 h5'
          · exact absurd hm (hr ops op [] rfl h5)

/-! ### futures which wait -/

theorem of_wt_pos [DecidableEq F] {s : St F} {f : F} (h : 0 < wt s f) : ∃ k, s.fut k = some f := by
  unfold wt at h
  by_cases h1 : s.fut .opn = some f
  · exact ⟨_, h1⟩
  by_cases h2 : s.fut .read = some f
  · exact ⟨_, h2⟩
  by_cases h3 : s.fut .write = some f
  · exact ⟨_, h3⟩
  by_cases h4 : s.fut .close = some f
  · exact ⟨_, h4⟩
  simp [h1, h2, h3, h4] at h

theorem startedOf_iff {k : Kind} {f : F} {ops : List (Op F)} :
    f ∈ startedOf k ops ↔ ∃ op ∈ ops, begins op = some (k, f) := by
  unfold startedOf
  rw [List.mem_filterMap]
  constructor
  · rintro ⟨op, ho, h⟩
    refine ⟨op, ho, ?_⟩
    cases hb : begins op with
    | none => simp [hb] at h
    | some p =>
      obtain ⟨k', g⟩ := p
      by_cases e : k' = k <;> simp [hb, e] at h
      rw [e, h]
  · rintro ⟨op, ho, h⟩
    exact ⟨op, ho, by simp [h]⟩

theorem mem_started {k : Kind} {f : F} {ops : List (Op F)} (h : f ∈ startedOf k ops) : f ∈ started ops := by
  obtain ⟨op, ho, hb⟩ := startedOf_iff.1 h
  exact List.mem_filterMap.2 ⟨op, ho, by simp [hb]⟩

theorem kind_unique {ops : List (Op F)} (hn : (started ops).Nodup) {f : F} {k k' : Kind} (h : f ∈ startedOf k ops)
    (h' : f ∈ startedOf k' ops) : k = k' := by
  induction ops with
  | nil => simp [startedOf] at h
  | cons op ops ih =>
    have hs : started (op :: ops) = started [op] ++ started ops := started_append [op] ops
    rw [hs, List.nodup_append] at hn
    obtain ⟨_, hn2, hd⟩ := hn
    have hsp : ∀ k, f ∈ startedOf k (op :: ops) → begins op = some (k, f) ∨ f ∈ startedOf k ops := by
      intro k hk
      obtain ⟨o, ho, hb⟩ := startedOf_iff.1 hk
      rcases List.mem_cons.1 ho with rfl | ho
      · exact .inl hb
      · exact .inr (startedOf_iff.2 ⟨o, ho, hb⟩)
    have hx : ∀ k k', begins op = some (k, f) → f ∈ startedOf k' ops → False := by
      intro k k' hb hm
      exact hd f (by simp [started, hb]) f (mem_started hm) rfl
    rcases hsp k h with h1 | h1 <;> rcases hsp k' h' with h2 | h2
    · rw [h1] at h2; simpa using h2
    · exact (hx _ _ h1 h2).elim
    · exact (hx _ _ h2 h1).elim
    · exact ih hn2 h1 h2

/-! ### a read which waits for ever -/

theorem initEv_fut (s : St F) (k : Kind) (oom : Bool) : (initEv s k oom).fut = s.fut := by
  unfold initEv
  split <;> rfl

theorem fut_keep {s : St F} (h : Good (fun _ => 0) s) {f : F} (hf : s.fut .read = some f) (hq : inQ s .read = 0)
    (op : Op F) : (step s op).1.fut .read = some f := by
  have hlive : ∀ r : St F × List (Out F), r.1.fut .read = some f → (live s r).1.fut .read = some f := by
    intro r hr
    unfold live
    split
    · exact hf
    · exact hr
  have hstart : ∀ (k : Kind) (g : F) (oom : Bool) (cop : Virtual.Op Kind),
      (start s k g oom cop).1.fut .read = some f := by
    intro k g oom cop
    unfold start
    split
    · exact hf
    · rename_i hn
      rw [inCur_fut, initEv_fut]
      have : Kind.read ≠ k := by
        rintro rfl
        simp [hf] at hn
      simpa [upd, this] using hf
  unfold step
  split
  · exact hf
  cases op with
  | opn g oom mem =>
    refine hlive _ ?_
    unfold opn
    dsimp only
    split <;> simpa [initEv_fut, upd] using hf
  | readAll g n oom =>
    refine hlive _ ?_
    unfold readAll
    split
    · exact hf
    · exact hstart _ _ _ _
  | readSome g n oom => exact hlive _ (hstart _ _ _ _)
  | write g d oom => exact hlive _ (hstart _ _ _ _)
  | close g oom => exact hlive _ (hstart _ _ _ _)
  | abort => refine hlive _ ?_; rw [inCur_fut]; exact hf
  | free =>
    refine hlive _ ?_
    unfold free
    split <;> exact hf
  | server i sop => simp only [step']; rw [inCore_fut]; exact hf
  | deliver =>
    simp only [step']
    rcases deliver_good h with ⟨h1, _⟩ | ⟨k, g, q', _, _, _, _, _, hfut, _, _, _, hqc, _⟩
    · rw [h1]; exact hf
    · rw [hfut]
      have : Kind.read ≠ k := by
        rintro rfl
        simp [qcode, hq] at hqc
      simpa [upd, this] using hf

theorem read_waits [DecidableEq F] (ops : List (Op F)) (f : F) (c : Virtual.St Kind) (r : Virtual.Rdr Kind)
    (hc : (run St.init ops).1.cores = [c]) (hq : Quiet c (some r)) (hr : r.ev = .read)
    (hf : (run St.init ops).1.fut .read = some f) (post : List (Op F)) :
    (started (ops ++ post)).Nodup → Careful (ops ++ post) →
      ∃ c, (run St.init (ops ++ post)).1.cores = [c] ∧ Quiet c (some r) ∧
        (run St.init (ops ++ post)).1.fut .read = some f := by
  induction post using snoc_ind with
  | h0 => intro _ _; rw [List.append_nil]; exact ⟨c, hc, hq, hf⟩
  | h1 post op ih =>
    intro hn hca
    rw [← List.append_assoc] at hn hca ⊢
    have hn' : (started (ops ++ post)).Nodup := by
      rw [started_append] at hn
      exact (List.nodup_append.1 hn).1
    obtain ⟨c1, h1, h2, h3⟩ := ih hn' hca.init
    have hJ := run_J (ops ++ post) hn' hca.init
    have hin : inQ (run St.init (ops ++ post)).1 .read = 0 := by
      have h4 := hJ.good.le .read
      have h5 : 0 < pnd (run St.init (ops ++ post)).1 .read := by
        simp only [pnd, h1, Virtual.pend, h2.cRd, Option.map_some, hr, Virtual.tk]
        simp
        omega
      unfold busy at h4
      omega
    have hfk : (run St.init (ops ++ post ++ [op])).1.fut .read = some f := by
      rw [run_snoc]
      exact fut_keep hJ.good h3 hin op
    rcases step_cores hn hca h1 with h4 | ⟨cop, h4, h5, _⟩
    · exact ⟨c1, h4, h2, hfk⟩
    · rcases h5 with ⟨h5, h5'⟩ | ⟨_, h5⟩
      · exact ⟨_, h4, quiet_step h2 cop h5 h5', hfk⟩
      · rw [h3] at h5; cases h5

/-! ### concrete histories -/

instance : DecidablePred (Memory : Op F → Prop) := fun op => by cases op <;> unfold Memory <;> infer_instance
instance : DecidablePred (Opens : Op F → Prop) := fun op => by cases op <;> unfold Opens <;> infer_instance
instance : DecidablePred (Uses : Op F → Prop) := fun op => by cases op <;> unfold Uses <;> infer_instance

/-- A read of exactly `n` bytes. -/
def isReadAll : Op F → Bool
  | .readAll _ _ _ => true
  | _ => false

theorem prefixes_of_append {α : Type} {ops pre post : List α} {op : α} (h : ops = pre ++ op :: post) :
    ∃ n, n < ops.length ∧ pre = ops.take n ∧ ops[n]? = some op := by
  refine ⟨pre.length, by simp [h], by simp [h], by simp [h]⟩

/-- `Careful` for a concrete history, decided prefix by prefix. -/
theorem careful_of_check [DecidableEq F] (ops : List (Op F))
    (h : ∀ n ∈ List.range ops.length, ∀ op ∈ ops[n]?,
      Memory op ∧ (Uses op → ¬ Opens op → ∃ o ∈ ops.take n, Opens o) ∧ (Opens op → ∀ o ∈ ops.take n, ¬ Opens o) ∧
      (isReadAll op = true → ∀ g ∈ startedOf .read (ops.take n), g ∈ resolved (run St.init (ops.take n)).2) ∧
      (Uses op → .free ∉ ops.take n) ∧
      (op = .free → ∀ f ∈ started (ops.take n), f ∈ resolved (run St.init (ops.take n)).2)) : Careful ops := by
  refine ⟨fun op ho => ?_, fun pre op post e hu hno => ?_, fun pre op post e => ?_, fun pre f n oom post e => ?_,
    fun pre op post e => ?_, fun pre post e => ?_⟩
  · obtain ⟨pre, post, e⟩ := List.append_of_mem ho
    obtain ⟨n, hn, rfl, hop⟩ := prefixes_of_append e
    exact (h n (List.mem_range.2 hn) op hop).1
  · obtain ⟨n, hn, rfl, hop⟩ := prefixes_of_append e
    exact (h n (List.mem_range.2 hn) op hop).2.1 hu hno
  · obtain ⟨n, hn, rfl, hop⟩ := prefixes_of_append e
    exact (h n (List.mem_range.2 hn) op hop).2.2.1
  · obtain ⟨n', hn, rfl, hop⟩ := prefixes_of_append e
    exact (h n' (List.mem_range.2 hn) _ hop).2.2.2.1 rfl
  · obtain ⟨n, hn, rfl, hop⟩ := prefixes_of_append e
    exact (h n (List.mem_range.2 hn) op hop).2.2.2.2.1
  · obtain ⟨n, hn, rfl, hop⟩ := prefixes_of_append e
    exact (h n (List.mem_range.2 hn) _ hop).2.2.2.2.2 rfl

end Verif.Stream.VirtualApi
