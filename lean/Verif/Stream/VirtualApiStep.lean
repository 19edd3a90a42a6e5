import Verif.Stream.VirtualApiLemmas

/-!
# Virtual streams in the API (the steps, C143)
-/

namespace Verif.Stream.VirtualApi

open Verif.Stream (Ec)
open Spec

variable {F : Type} [DecidableEq F]

/-- How often a future waits. -/
def wt (s : St F) (f : F) : Nat :=
  (if s.fut .opn = some f then 1 else 0) + (if s.fut .read = some f then 1 else 0) +
    (if s.fut .write = some f then 1 else 0) + if s.fut .close = some f then 1 else 0

/-- One if the step starts an operation with the future. -/
def gives (op : Op F) (f : F) : Nat := if (begins op).map (·.2) = some f then 1 else 0

/-- What a step does. -/
structure Next (s : St F) (op : Op F) (r : St F × List (Out F)) : Prop where
  good : Good (fun _ => 0) r.1
  wt : ∀ f, wt s f + gives op f = (resolved r.2).count f + wt r.1 f
  known : ∀ k f, r.1.fut k = some f → s.fut k = some f ∨ begins op = some (k, f)
  code : ∀ k, qcode s k ++ coreCodes k r.2 = codes k r.2 ++ qcode r.1 k

/-- The stream has been opened. -/
def Open (s : St F) : Prop := ∃ c, s.cores = [c] ∧ s.cur = some 0

theorem refused_next {s : St F} {op : Op F} {k : Kind} {f : F} (h : Good (fun _ => 0) s)
    (hb : begins op = some (k, f)) : Next s op (s, [.refused k f]) := by
  refine ⟨h, fun g => ?_, fun k g hg => .inl hg, fun k' => by simp [coreCodes, codes]⟩
  by_cases e : f = g <;> simp [gives, hb, e, resolved, resolves, List.count_cons] <;> omega

theorem wt_upd {s s' : St F} {k : Kind} {f : F} (hk : s.fut k = none) (h : s'.fut = upd s.fut k (some f)) (g : F) :
    wt s' g = wt s g + if f = g then 1 else 0 := by
  unfold wt
  rw [h]
  cases k <;> by_cases e : f = g <;> simp [upd, hk, e] <;> omega

theorem start_next {s : St F} {k : Kind} {f : F} {op : Op F} {cop : Virtual.Op Kind}
    (h : Good (fun _ => 0) s) (ho : Open s) (hf : s.freed = false) (hb : begins op = some (k, f))
    (hw : Virtual.Spec.who cop = some (.client, k)) (hcl : ∀ k', cop = .cClose k' → k' = .close) :
    Next s op (start s k f false cop) ∧ Open (start s k f false cop).1 ∧
      (start s k f false cop).1.freed = false := by
  obtain ⟨c, hc, hcur⟩ := ho
  unfold start
  cases hk : s.fut k with
  | some g => exact ⟨refused_next h hb, ⟨c, hc, hcur⟩, hf⟩
  | none =>
    simp only [Option.isSome_none, Bool.false_eq_true, if_false]
    have hg := begin_good h k f hk hf
    have hb0 : busy s k = 0 := by
      have h1 := h.fut k
      rw [hk] at h1
      have := h.le k
      simp at h1
      omega
    have hp : Virtual.pend .client c k = 0 := by
      simp only [busy, pnd, hc] at hb0
      omega
    have hx : ∀ k', (if k' = k then 1 else 0) = Virtual.starts cop .client k' := by
      intro k'
      unfold Virtual.starts
      rw [hw]
      by_cases e : k' = k
      · subst e; simp
      · have : ¬ k = k' := fun h => e h.symm
        simp [e, this]
    have hcore := core_good (c := c) hg hc hx hcl (fun k' e => by
        rw [e] at hw
        simp only [Virtual.Spec.who, Option.some.injEq, Prod.mk.injEq, true_and] at hw
        rw [hw]; exact hp)
      (fun hfr => by
        change s.freed = true at hfr
        rw [hf] at hfr; cases hfr)
    have hi : inCur (initEv { s with fut := upd s.fut k (some f) } k false) cop =
        inCore (initEv { s with fut := upd s.fut k (some f) } k false) 0 cop := by
      simp [inCur, initEv, hcur]
    rw [hi]
    refine ⟨⟨hcore.good, fun g => ?_, fun k2 g hg => ?_, fun k' => ?_⟩, ⟨_, hcore.cores, hcore.cur.trans hcur⟩,
      hcore.freed.trans hf⟩
    · rw [hcore.res, wt_upd hk (hcore.fut.trans rfl) g]
      simp [gives, hb]
    · rw [hcore.fut] at hg
      change upd s.fut k (some f) k2 = some g at hg
      by_cases e : k2 = k
      · subst e
        simp only [upd, if_true, Option.some.injEq] at hg
        subst hg
        exact .inr hb
      · simp only [upd, e, if_false] at hg
        exact .inl hg
    · rw [hcore.codes, List.nil_append, hcore.code]
      rfl

theorem core_next {s : St F} {c : Virtual.St Kind} {op : Op F} {cop : Virtual.Op Kind} (h : Good (fun _ => 0) s)
    (hc : s.cores = [c]) (hb : begins op = none) (hw : ∀ k, Virtual.Spec.who cop ≠ some (.client, k)) :
    Next s op (inCore s 0 cop) ∧ (inCore s 0 cop).1.cores = [(Virtual.step c cop).1] ∧
      (inCore s 0 cop).1.cur = s.cur ∧ (inCore s 0 cop).1.freed = s.freed := by
  have hx : ∀ k, (0 : Nat) = Virtual.starts cop .client k := by
    intro k; simp [Virtual.starts, hw]
  have hcore := core_good (c := c) h hc hx (fun k e => absurd (by rw [e]; rfl) (hw k))
    (fun k e => absurd (by rw [e]; rfl) (hw k)) (fun _ _ => rfl)
  refine ⟨⟨hcore.good, fun g => ?_, fun k g hg => .inl (hcore.fut ▸ hg), fun k => ?_⟩, hcore.cores, hcore.cur,
    hcore.freed⟩
  · rw [hcore.res]
    simp [gives, hb, wt, hcore.fut]
  · rw [hcore.codes, List.nil_append, hcore.code]

theorem opn_next {s : St F} {f : F} (h : Good (fun _ => 0) s) (hc : s.cores = []) (hf : s.freed = false)
    (hk : s.fut .opn = none) :
    Next s (.opn f false true) (opn s f false true) ∧ Open (opn s f false true).1 ∧
      (opn s f false true).1.freed = false ∧
      (opn s f false true).1.cores = [Virtual.St.init .opn] := by
  have hg := begin_good h .opn f hk hf
  have hcores : (opn s f false true).1.cores = [Virtual.St.init .opn] := by simp [opn, initEv, hc]
  have hcur : (opn s f false true).1.cur = some 0 := by simp [opn, initEv, hc]
  have hfut : (opn s f false true).1.fut = upd s.fut .opn (some f) := by simp [opn, initEv]
  have hbusy : ∀ k, busy (opn s f false true).1 k = busy s k + if k = .opn then 1 else 0 := by
    intro k
    have : inQ (opn s f false true).1 k = inQ s k := by simp [opn, initEv, inQ]
    unfold busy
    rw [this]
    simp only [pnd, hcores, hc]
    cases k <;> simp [Virtual.pend, Virtual.St.init, Virtual.tk] <;> omega
  have hb : ∀ k, busy (initEv { s with fut := upd s.fut .opn (some f) } .opn false) k = busy s k := fun _ => rfl
  refine ⟨⟨⟨?_, ?_, fun k => ?_, fun k => ?_, fun k => ?_, ?_, ?_, ?_, ?_⟩, fun g => ?_, fun k2 g hg => ?_, fun k => ?_⟩,
    ⟨_, hcores, hcur⟩, ?_, hcores⟩
  · simpa [opn, initEv] using h.ub
  · simpa [opn, initEv] using h.hung
  · rw [hbusy]; have := hg.le k; rw [hb] at this; simpa using this
  · rw [hbusy, hfut]; have := hg.fut k; rw [hb] at this; simpa [initEv] using this
  · rw [hbusy]; have := hg.ev k; rw [hb] at this; simpa [opn, initEv] using this
  · have := hg.own; simpa [opn, initEv] using this
  · intro c hm k hk
    rw [hcores, List.mem_singleton] at hm
    subst hm
    cases hk
  · have := hg.bal; simpa [opn, initEv, evs] using this
  · intro h1
    have : s.freed = true := by simpa [opn, initEv] using h1
    rw [hf] at this; cases this
  · rw [wt_upd hk hfut g]
    have : (opn s f false true).2 = [] := by simp [opn]
    rw [this]
    simp [gives, begins, resolved]
  · rw [hfut] at hg
    by_cases e : k2 = .opn
    · subst e
      right
      simpa [upd, begins] using hg
    · exact .inl (by simpa [upd, e] using hg)
  · have h1 : (opn s f false true).2 = [] := by simp [opn]
    have h2 : qcode (opn s f false true).1 k = qcode s k := rfl
    rw [h1, h2]
    simp [coreCodes, codes]
  · simpa [opn, initEv] using hf

theorem deliver_next {s : St F} (h : Good (fun _ => 0) s) :
    Next s (.deliver : Op F) (deliver s) ∧ (deliver s).1.cores = s.cores ∧ (deliver s).1.cur = s.cur ∧
      (deliver s).1.freed = s.freed ∧ ∀ k, s.fut k = none → (deliver s).1.fut k = none := by
  rcases deliver_good h with ⟨h1, _⟩ | ⟨k, f, q', hf, _, _, hg, ho, hfut, hc, hcur, hfr, hq, hq0, hq'⟩
  · rw [h1]
    exact ⟨⟨h, fun g => by simp [gives, begins, resolved], fun k g hg => .inl hg,
      fun k => by simp [coreCodes, codes]⟩, rfl, rfl, rfl, fun _ h => h⟩
  · refine ⟨⟨hg, fun g => ?_, fun k2 g hg => ?_, fun k' => ?_⟩, hc, hcur, hfr, fun k' hk' => ?_⟩
    · rw [ho]
      unfold wt
      rw [hfut]
      cases k <;> by_cases e : f = g <;> simp [upd, hf, e, gives, begins, resolved, resolves, List.count_cons] <;>
        omega
    · rw [hfut] at hg
      by_cases e : k2 = k
      · simp [upd, e] at hg
      · exact .inl (by simpa [upd, e] using hg)
    · rw [ho]
      by_cases e : k = k'
      · subst e
        rw [hq, hq0]
        simp [coreCodes, codes]
      · rw [hq' k' (fun h => e h.symm)]
        simp [coreCodes, codes, e]
    · rw [hfut]
      by_cases e : k' = k
      · simp [upd, e]
      · simpa [upd, e] using hk'

/-- What holds after a history. -/
structure J (ops : List (Op F)) (s : St F) (o : List (Out F)) : Prop where
  good : Good (fun _ => 0) s
  cons : ∀ f, (started ops).count f = (resolved o).count f + wt s f
  known : ∀ k f, s.fut k = some f → f ∈ startedOf k ops
  code : ∀ k, coreCodes k o = codes k o ++ qcode s k
  cores : (∀ op ∈ ops, ¬ Opens op) ∧ s.cores = [] ∧ s.cur = none ∧ s.freed = false ∧ (∀ k, s.fut k = none) ∨
    (∃ op ∈ ops, Opens op) ∧ Open s
  freed : s.freed = true ↔ .free ∈ ops

theorem J.next {ops : List (Op F)} {s : St F} {o : List (Out F)} (h : J ops s o) {op : Op F}
    {r : St F × List (Out F)} (hn : Next s op r)
    (hc : (∀ o ∈ ops ++ [op], ¬ Opens o) ∧ r.1.cores = [] ∧ r.1.cur = none ∧ r.1.freed = false ∧
        (∀ k, r.1.fut k = none) ∨
      (∃ o ∈ ops ++ [op], Opens o) ∧ Open r.1)
    (hf : r.1.freed = true ↔ .free ∈ ops ++ [op]) : J (ops ++ [op]) r.1 (o ++ r.2) := by
  refine ⟨hn.good, fun f => ?_, fun k f hr => ?_, fun k => ?_, hc, hf⟩
  · have h1 := h.cons f
    have h2 := hn.wt f
    rw [started_append, resolved_append, List.count_append, List.count_append]
    have : (started [op]).count f = gives op f := by
      unfold started gives
      cases hb : begins op with
      | none => simp [hb]
      | some p => by_cases e : p.2 = f <;> simp [hb, e]
    omega
  · unfold startedOf
    rw [List.filterMap_append, List.mem_append]
    rcases hn.known k f hr with h1 | h1
    · exact .inl (h.known k f h1)
    · right; simp [h1]
  · rw [coreCodes_append, codes_append, h.code, List.append_assoc, hn.code, List.append_assoc]

theorem Spec.Careful.init {ops : List (Op F)} {op : Op F} (h : Careful (ops ++ [op])) : Careful ops where
  memory o ho := h.memory o (by simp [ho])
  opened pre o post e := h.opened pre o (post ++ [op]) (by simp [e])
  once pre o post e := h.once pre o (post ++ [op]) (by simp [e])
  readAll pre f n oom post e := h.readAll pre f n oom (post ++ [op]) (by simp [e])
  freed pre o post e := h.freed pre o (post ++ [op]) (by simp [e])
  free pre post e := h.free pre (post ++ [op]) (by simp [e])

theorem wt_pos {s : St F} {k : Kind} {f : F} (h : s.fut k = some f) : 0 < wt s f := by
  unfold wt
  cases k <;> simp [h] <;> omega

theorem begins_opens {op : Op F} (h : begins op = none) : ¬ Opens op := by
  cases op <;> simp_all [begins, Opens]

theorem run_J (ops : List (Op F)) : (started ops).Nodup → Careful ops →
    J ops (run St.init ops).1 (run St.init ops).2 := by
  induction ops using snoc_ind with
  | h0 =>
    intro _ _
    refine ⟨init_good, fun f => ?_, fun k f h => ?_, fun k => ?_, .inl ⟨?_, rfl, rfl, rfl, fun _ => rfl⟩, ?_⟩
    · simp [started, resolved, wt, St.init]
    · simp [St.init] at h
    · simp [coreCodes, codes, qcode, inQ, St.init]
    · simp
    · simp [St.init]
  | h1 ops op ih =>
    intro hn hc
    have hn' : (started ops).Nodup := by
      rw [started_append] at hn
      exact (List.nodup_append.1 hn).1
    have h := ih hn' hc.init
    rw [run_snoc]
    generalize hs : (run St.init ops).1 = s at h
    generalize ho : (run St.init ops).2 = o at h
    have hfut : ∀ k f, s.fut k = some f → f ∈ resolved o → False := by
      intro k f hk hr
      have h1 := wt_pos hk
      have h2 := h.cons f
      have h3 := List.count_pos_iff.2 hr
      have h4 := List.nodup_iff_count.1 hn' f
      omega
    have hstep : step s op = step' s op := by simp [step, h.good.hung]
    rw [hstep]
    have hmem := hc.memory op (by simp)
    -- a call on the handle
    have hlive : Uses op → s.freed = false := by
      intro hu
      cases hf : s.freed with
      | false => rfl
      | true => exact absurd (h.freed.1 hf) (hc.freed ops op [] (by simp) hu)
    have hopen : Uses op → ¬ Opens op → (∃ o ∈ ops, Opens o) ∧ Open s := by
      intro hu hno
      obtain ⟨o', ho', hop⟩ := hc.opened ops op [] (by simp) hu hno
      rcases h.cores with h1 | h1
      · exact absurd hop (h1.1 o' ho')
      · exact h1
    have grow : (∃ o ∈ ops, Opens o) → ∃ o ∈ ops ++ [op], Opens o := by
      rintro ⟨o', h1, h2⟩; exact ⟨o', by simp [h1], h2⟩
    have hstart : ∀ {k : Kind} {f : F} {cop : Virtual.Op Kind}, begins op = some (k, f) → Uses op → ¬ Opens op →
        op ≠ .free →
        Virtual.Spec.who cop = some (.client, k) → (∀ k', cop = .cClose k' → k' = .close) →
        J (ops ++ [op]) (start s k f false cop).1 (o ++ (start s k f false cop).2) := by
      intro k f cop hb hu hno hnf hw hcl
      have hl := hlive hu
      obtain ⟨h1, h2⟩ := hopen hu hno
      obtain ⟨hnx, hop, hfr⟩ := start_next h.good h2 hl hb hw hcl
      refine h.next hnx (.inr ⟨grow h1, hop⟩) ?_
      rw [hfr]
      have : .free ∉ ops := fun hm => by have := h.freed.2 hm; rw [hl] at this; cases this
      simp [this, hnf.symm]
    cases op with
    | opn f oom mem =>
      obtain ⟨rfl, rfl⟩ := hmem
      have hl := hlive trivial
      have hno := hc.once ops (.opn f false true) [] (by simp) trivial
      rcases h.cores with h1 | h1
      · obtain ⟨hnx, hop, hfr, _⟩ := opn_next (f := f) h.good h1.2.1 hl (h1.2.2.2.2 .opn)
        simp only [step', live, hl, Bool.false_eq_true, if_false]
        refine h.next hnx (.inr ⟨⟨.opn f false true, by simp, trivial⟩, hop⟩) ?_
        rw [hfr]
        have : Op.free ∉ ops := fun hm => by have := h.freed.2 hm; rw [hl] at this; cases this
        simp [this]
      · obtain ⟨o', h2, h3⟩ := h1.1
        exact absurd h3 (hno o' h2)
    | readAll f n oom =>
      have hm : oom = false := hmem
      subst hm
      have hl := hlive trivial
      have hnone : s.fut .read = none := by
        cases hk : s.fut .read with
        | none => rfl
        | some g =>
          have := hc.readAll ops f n false [] (by simp) g (h.known _ g hk)
          rw [ho] at this
          exact (hfut _ _ hk this).elim
      have hr : step' s (.readAll f n false) = start s .read f false (.cReadAll .read n) := by
        simp [step', live, hl, readAll, hnone]
      rw [hr]
      exact hstart rfl trivial (fun h => h) (by simp) rfl (fun _ h => by cases h)
    | readSome f n oom =>
      have hm : oom = false := hmem
      subst hm
      have hr : step' s (.readSome f n false) = start s .read f false (.cReadSome .read n) := by
        simp [step', live, hlive trivial]
      rw [hr]
      exact hstart rfl trivial (fun h => h) (by simp) rfl (fun _ h => by cases h)
    | write f d oom =>
      have hm : oom = false := hmem
      subst hm
      have hr : step' s (.write f d false) = start s .write f false (.cWrite .write d) := by
        simp [step', live, hlive trivial]
      rw [hr]
      exact hstart rfl trivial (fun h => h) (by simp) rfl (fun _ h => by cases h)
    | close f oom =>
      have hm : oom = false := hmem
      subst hm
      have hr : step' s (.close f false) = start s .close f false (.cClose .close) := by
        simp [step', live, hlive trivial]
      rw [hr]
      exact hstart rfl trivial (fun h => h) (by simp) rfl (fun _ h => by cases h; rfl)
    | abort =>
      have hl := hlive trivial
      obtain ⟨h1, c, h2, h3⟩ := hopen trivial (fun h => h)
      have hr : step' s (.abort : Op F) = inCore s 0 .cStop := by
        simp [step', live, hl, inCur, h3]
      rw [hr]
      obtain ⟨hnx, hcs, hcur, hfr⟩ := core_next (op := (.abort : Op F)) (cop := .cStop) h.good h2 rfl
        (fun k h => by cases h)
      refine h.next hnx (.inr ⟨grow h1, _, hcs, hcur.trans h3⟩) ?_
      rw [hfr, h.freed]
      simp
    | free =>
      have hl := hlive trivial
      obtain ⟨h1, c, h2, h3⟩ := hopen trivial (fun h => h)
      have hr : step' s (.free : Op F) = ({ s with freed := true }, []) := by
        simp [step', live, hl, free, h3]
      rw [hr]
      have hidle : ∀ k, s.fut k = none := by
        intro k
        cases hk : s.fut k with
        | none => rfl
        | some g =>
          have h4 : g ∈ started ops := by
            have h5 := wt_pos hk
            have h6 := h.cons g
            exact List.count_pos_iff.1 (by omega)
          have := hc.free ops [] (by simp) g h4
          rw [ho] at this
          exact (hfut _ _ hk this).elim
      refine h.next (r := ({ s with freed := true }, [])) ⟨⟨h.good.ub, h.good.hung, h.good.le, h.good.fut, h.good.ev, h.good.own, h.good.cl, h.good.bal,
        fun _ => hidle⟩, fun g => ?_, fun k g hg => .inl hg, fun k => ?_⟩ (.inr ⟨grow h1, c, h2, h3⟩) (by simp)
      · simp [gives, begins, resolved, wt]
      · simp only [coreCodes, codes, List.filterMap_nil, List.append_nil, List.nil_append]; rfl
    | server i sop =>
      simp only [step']
      rcases h.cores with h1 | ⟨h1, c, h2, h3⟩
      · have hr : inCore s i sop.toCore = (s, []) := by simp [inCore, h1.2.1]
        rw [hr]
        refine h.next ⟨h.good, fun g => by simp [gives, begins, resolved], fun k g hg => .inl hg,
          fun k => by simp [coreCodes, codes]⟩ (.inl ⟨?_, h1.2⟩) (by rw [h.freed]; simp)
        intro o' ho'
        rcases List.mem_append.1 ho' with h4 | h4
        · exact h1.1 o' h4
        · rw [List.mem_singleton] at h4; subst h4; exact fun h => h
      · cases i with
        | zero =>
          obtain ⟨hnx, hcs, hcur, hfr⟩ := core_next (op := (.server 0 sop : Op F)) (cop := sop.toCore) h.good h2 rfl
            (fun k h => by cases sop <;> simp [SOp.toCore, Virtual.Spec.who] at h)
          exact h.next hnx (.inr ⟨grow h1, _, hcs, hcur.trans h3⟩) (by rw [hfr, h.freed]; simp)
        | succ i =>
          have hr : inCore s (i + 1) sop.toCore = (s, []) := by simp [inCore, h2]
          rw [hr]
          exact h.next ⟨h.good, fun g => by simp [gives, begins, resolved], fun k g hg => .inl hg,
            fun k => by simp [coreCodes, codes]⟩ (.inr ⟨grow h1, c, h2, h3⟩) (by rw [h.freed]; simp)
    | deliver =>
      simp only [step']
      obtain ⟨hnx, hcs, hcur, hfr, hf0⟩ := deliver_next h.good
      refine h.next hnx ?_ (by rw [hfr, h.freed]; simp)
      rcases h.cores with h1 | ⟨h1, c, h2, h3⟩
      · refine .inl ⟨?_, hcs.trans h1.2.1, hcur.trans h1.2.2.1, hfr.trans h1.2.2.2.1,
          fun k => hf0 k (h1.2.2.2.2 k)⟩
        intro o' ho'
        rcases List.mem_append.1 ho' with h4 | h4
        · exact h1.1 o' h4
        · rw [List.mem_singleton] at h4; subst h4; exact fun h => h
      · exact .inr ⟨grow h1, c, hcs.trans h2, hcur.trans h3⟩

end Verif.Stream.VirtualApi
