import Verif.Stream.ApiSpec
import Verif.Stream.OpsWait

/-!
# Streams in the API (lemmas)
-/

namespace Verif.Stream.Api

open Verif.Stream.Spec (Kind completed)
open Spec

variable {F : Type}

/-- How often an event of a kind is in the queue. -/
def inQ (s : St F) (k : Kind) : Nat := (s.q.map (·.1)).count k

/-- How many operations of a kind are on their way. -/
def busy (s : St F) (k : Kind) : Nat := cnt s.core k + inQ s k

/-- The event of a kind is the one which the stream has. -/
def Own (s : St F) (k : Kind) : Prop := ∃ i, s.ev k = some i ∧ ∀ p ∈ s.q, p.1 = k → p.2 = i

/-- The error code which is on its way. -/
def qcode (s : St F) (k : Kind) : List Ec := if inQ s k = 0 then [] else [s.ec k]

/-- The error codes of the completed operations of a kind. -/
def doneCodes (k : Kind) (os : List (Stream.Out Kind)) : List Ec :=
  os.filterMap fun
    | .done k' ec _ => if k' = k then some ec else none
    | _ => none

theorem coreCodes_map (k : Kind) (os : List (Stream.Out Kind)) :
    coreCodes (F := F) k (os.map .core) = doneCodes k os := by
  induction os with
  | nil => rfl
  | cons o os ih =>
    cases o with
    | done k' ec g =>
      simp only [coreCodes, doneCodes, List.map_cons, List.filterMap_cons] at ih ⊢
      by_cases h : k' = k <;> simp [h, ih]
    | _ => simpa [coreCodes, doneCodes] using ih

theorem codes_map (k : Kind) (os : List (Stream.Out Kind)) :
    codes (F := F) k (os.map .core) = [] := by
  induction os with
  | nil => rfl
  | cons o os ih => simpa [codes] using ih

theorem resolved_map (os : List (Stream.Out Kind)) : resolved (F := F) (os.map .core) = [] := by
  induction os with
  | nil => rfl
  | cons o os ih => simpa [resolved, resolves] using ih

/-- What posting does. -/
structure Posted (s : St F) (os : List (Stream.Out Kind)) (s' : St F) : Prop where
  core : s'.core = s.core
  fut : s'.fut = s.fut
  ev : s'.ev = s.ev
  freed : s'.freed = s.freed
  ub : s'.ub = false
  inQ : ∀ k, inQ s' k = inQ s k + (completed os).count k
  own : ∀ k, Own s k → Own s' k
  code : ∀ k, qcode s' k = qcode s k ++ doneCodes k os

theorem post_posted (s : St F) (k : Kind) (ec : Ec) (hu : s.ub = false) (hq : inQ s k = 0)
    (ho : Own s k) (g : List UInt8) : Posted s [.done k ec g] (post s k ec) := by
  obtain ⟨i, hi, hq'⟩ := ho
  have hm : ∀ j, (k, j) ∉ s.q := by
    intro j hj
    have : k ∈ s.q.map (·.1) := List.mem_map.2 ⟨_, hj, rfl⟩
    have := List.count_pos_iff.2 this
    unfold inQ at hq; omega
  have hQ : ∀ k', inQ (post s k ec) k' = inQ s k' + (completed [Stream.Out.done k ec g]).count k' := by
    intro k'
    simp [post, hi, hm, inQ, List.map_append, List.count_append]
  refine ⟨?_, ?_, ?_, ?_, ?_, hQ, ?_, ?_⟩
  · simp [post, hi]
  · simp [post, hi]
  · simp [post, hi]
  · simp [post, hi]
  · simp [post, hi, hu]
  · rintro k' ⟨j, hj, hp⟩
    refine ⟨j, by simpa [post, hi] using hj, ?_⟩
    intro p hp' hk
    simp only [post, hi, hm, if_false, List.mem_append, List.mem_singleton] at hp'
    rcases hp' with hp' | rfl
    · exact hp p hp' hk
    · simp only at hk; subst hk; rw [hi] at hj; exact Option.some.inj hj
  · intro k'
    unfold qcode
    rw [hQ k']
    by_cases hk : k' = k
    · subst hk
      simp [hq, doneCodes, post, hi, upd]
    · have hk2 : ¬ k = k' := fun h => hk h.symm
      simp [doneCodes, post, hi, upd, hk, hk2]

theorem Posted.trans {s1 s2 s3 : St F} {o1 o2 : List (Stream.Out Kind)} (h1 : Posted s1 o1 s2)
    (h2 : Posted s2 o2 s3) : Posted s1 (o1 ++ o2) s3 := by
  refine ⟨h2.core.trans h1.core, h2.fut.trans h1.fut, h2.ev.trans h1.ev, h2.freed.trans h1.freed, h2.ub,
    fun k => ?_, fun k h => h2.own k (h1.own k h), fun k => ?_⟩
  · rw [h2.inQ, h1.inQ, completed_append, List.count_append]; omega
  · rw [h2.code, h1.code]; simp [doneCodes, List.filterMap_append]

theorem postAll_posted (os : List (Stream.Out Kind)) (s : St F) (hu : s.ub = false)
    (hq : ∀ k, inQ s k + (completed os).count k ≤ 1) (ho : ∀ k, k ∈ completed os → Own s k) :
    Posted s os (postAll s os) := by
  induction os generalizing s with
  | nil => exact ⟨rfl, rfl, rfl, rfl, hu, fun k => by simp [postAll, completed], fun k h => h,
      fun k => by simp [postAll, doneCodes]⟩
  | cons o os ih =>
    cases o with
    | done k ec g =>
      have hk : inQ s k = 0 := by
        have := hq k
        simp only [completed, List.filterMap_cons, Stream.Spec.completes, List.count_cons_self] at this
        omega
      have h1 := post_posted s k ec hu hk (ho k (by simp [completed, Stream.Spec.completes])) g
      have h2 := ih (post s k ec) h1.ub
        (fun k' => by
          rw [h1.inQ]
          have := hq k'
          rw [show Stream.Out.done k ec g :: os = [.done k ec g] ++ os from rfl, completed_append,
            List.count_append] at this
          omega)
        (fun k' h => h1.own k' (ho k' (by
          rw [show Stream.Out.done k ec g :: os = [.done k ec g] ++ os from rfl, completed_append]
          exact List.mem_append_right _ h)))
      exact h1.trans h2
    | _ =>
      have h := ih s hu (fun k => by simpa using hq k)
        (fun k h => ho k (by simpa using h))
      exact ⟨h.core, h.fut, h.ev, h.freed, h.ub,
        fun k => h.inQ k, h.own,
        fun k => h.code k⟩

/-- What a step of the core does. -/
structure Stepped (s : St F) (op : Stream.Op Kind) (r : St F × List (Out F)) : Prop where
  inv : Inv r.1.core
  fut : r.1.fut = s.fut
  freed : r.1.freed = s.freed
  ub : r.1.ub = false
  busy : ∀ k, busy r.1 k = busy s k + (Stream.Spec.started [op]).count k
  own : ∀ k, Own s k → Own r.1 k
  code : ∀ k, qcode r.1 k = qcode s k ++ coreCodes k r.2
  none : ∀ k, codes k r.2 = []
  res : resolved r.2 = []
  ev : r.1.ev = s.ev

theorem inCore_stepped (s : St F) (op : Stream.Op Kind) (hi : Inv s.core) (hu : s.ub = false)
    (hb : ∀ k, busy s k + (Stream.Spec.started [op]).count k ≤ 1)
    (ho : ∀ k, busy s k + (Stream.Spec.started [op]).count k = 1 → Own s k) :
    Stepped s op (inCore s op) := by
  have he := step_eff s.core hi op
  have hc := he.count
  have hinv := he.inv
  unfold inCore
  revert hc hinv
  generalize Stream.step s.core op = res
  obtain ⟨c, o⟩ := res
  intro hc hinv
  dsimp only at hc hinv ⊢
  have key := postAll_posted o { s with core := c } hu
    (fun k => by
      have := hc k; have := hb k
      change inQ s k + _ ≤ 1
      unfold busy at this; omega)
    (fun k h => by
      have h1 := List.count_pos_iff.2 h
      have := hc k; have h3 := hb k
      have : busy s k + (Stream.Spec.started [op]).count k = 1 := by unfold busy at *; omega
      exact ho k this)
  refine ⟨?_, key.fut, key.freed, key.ub, fun k => ?_, fun k h => key.own k h, fun k => ?_,
    fun k => codes_map k _, resolved_map _, key.ev⟩
  · dsimp only
    rw [key.core]; exact hinv
  · unfold busy
    dsimp only
    rw [key.core, key.inQ]
    have := hc k
    change cnt c k + (inQ s k + _) = _
    omega
  · dsimp only
    rw [key.code, coreCodes_map]
    rfl

/-- The core makes its step. -/
theorem inCore_core (s : St F) (op : Stream.Op Kind) : (inCore s op).1.core = (Stream.step s.core op).1 := by
  have h : ∀ (os : List (Stream.Out Kind)) (s : St F), (postAll s os).core = s.core := by
    intro os
    induction os with
    | nil => intro s; rfl
    | cons o os ih =>
      intro s
      cases o with
      | done k ec g =>
        simp only [postAll, ih]
        unfold post; split <;> rfl
      | _ => simpa [postAll] using ih s
  unfold inCore
  exact h _ _

/-! ## The invariant -/

section
variable [DecidableEq F]

/-- The future waits for an operation of a kind. -/
def wk (s : St F) (k : Kind) (f : F) : Nat := if busy s k ≠ 0 ∧ s.fut k = some f then 1 else 0

/-- How often a future waits. -/
def wait (s : St F) (f : F) : Nat := wk s .accept f + wk s .read f + wk s .write f + wk s .close f

/-- The state agrees with the history. -/
structure J (ops : List (Op F)) (s : St F) (os : List (Out F)) : Prop where
  inv : Inv s.core
  ub : s.ub = false
  le : ∀ k, busy s k ≤ 1
  own : ∀ k, busy s k = 1 → Own s k ∧ ∃ f, s.fut k = some f
  idle : ∀ k, k = .read ∨ k = .write → s.fut k ≠ none → busy s k = 1
  cons : ∀ f, (resolved os).count f + wait s f = (started ops).count f
  code : ∀ k, codes k os ++ qcode s k = coreCodes k os
  known : ∀ k f, s.fut k = some f → f ∈ startedOf k ops
  quiet : s.freed = true → ∀ k, busy s k = 0
  freed : s.freed = true ↔ ∃ b, .free b ∈ ops

theorem started_append (a b : List (Op F)) : started (a ++ b) = started a ++ started b := by
  simp [started]

theorem startedOf_append (k : Kind) (a b : List (Op F)) :
    startedOf k (a ++ b) = startedOf k a ++ startedOf k b := by
  simp [startedOf]

theorem resolved_append (a b : List (Out F)) : resolved (a ++ b) = resolved a ++ resolved b := by
  simp [resolved]

theorem codes_append (k : Kind) (a b : List (Out F)) : codes k (a ++ b) = codes k a ++ codes k b := by
  simp [codes]

theorem coreCodes_append (k : Kind) (a b : List (Out F)) :
    coreCodes k (a ++ b) = coreCodes k a ++ coreCodes k b := by
  simp [coreCodes]

theorem J.init : J ([] : List (Op F)) St.init [] := by
  have hb : ∀ k, busy (St.init : St F) k = 0 := by intro k; cases k <;> rfl
  refine ⟨inv_init, rfl, fun k => by rw [hb]; omega, fun k h => by rw [hb] at h; omega,
    fun k _ h => absurd rfl h, fun f => by simp [resolved, started, wait, wk, hb],
    fun k => by simp [codes, coreCodes, qcode, inQ, St.init], (fun k f h => by cases h),
    (fun h => by cases h), ?_⟩
  simp [St.init]

/-- A step of the core which does not start an operation. -/
theorem J.event {ops : List (Op F)} {s : St F} {os : List (Out F)} (h : J ops s os) (cop : Stream.Op Kind)
    (hc : Stream.Spec.started [cop] = []) (op : Op F) (hop : Spec.start op = none)
    (hf : ∀ b, op ≠ .free b) :
    J (ops ++ [op]) (inCore s cop).1 (os ++ (inCore s cop).2) := by
  have hst := inCore_stepped s cop h.inv h.ub (fun k => by rw [hc]; simpa using h.le k)
    (fun k hk => by rw [hc] at hk; exact (h.own k (by simpa using hk)).1)
  generalize inCore s cop = r at hst
  have hb : ∀ k, busy r.1 k = busy s k := fun k => by rw [hst.busy, hc]; simp
  have hs : started (ops ++ [op]) = started ops := by simp [started, hop]
  have hso : ∀ k, startedOf k (ops ++ [op]) = startedOf k ops := by intro k; simp [startedOf, hop]
  refine ⟨hst.inv, hst.ub, fun k => by rw [hb]; exact h.le k, fun k hk => ?_, fun k hk hn => ?_,
    fun f => ?_, fun k => ?_, fun k f hk => ?_, fun hk k => ?_, ?_⟩
  · rw [hb] at hk
    refine ⟨hst.own k (h.own k hk).1, ?_⟩
    rw [hst.fut]; exact (h.own k hk).2
  · rw [hb]; rw [hst.fut] at hn; exact h.idle k hk hn
  · rw [resolved_append, hst.res, List.append_nil, hs, ← h.cons f]
    simp only [wait, wk, hb, hst.fut]
  · rw [codes_append, hst.none, List.append_nil, hst.code, coreCodes_append, ← h.code k,
      List.append_assoc]
  · rw [hst.fut] at hk; rw [hso]; exact h.known k f hk
  · rw [hb]; rw [hst.freed] at hk; exact h.quiet hk k
  · rw [hst.freed, h.freed]
    constructor
    · rintro ⟨b, hb⟩; exact ⟨b, List.mem_append_left _ hb⟩
    · rintro ⟨b, hb⟩
      rcases List.mem_append.1 hb with hb | hb
      · exact ⟨b, hb⟩
      · exact absurd (List.mem_singleton.1 hb).symm (hf b)

omit [DecidableEq F] in
theorem busy_initEv (s : St F) (k : Kind) (f : F) (k' : Kind) :
    busy (initEv { s with fut := upd s.fut k (some f) } k false) k' = busy s k' := rfl

/-- An application starts an operation. -/
theorem J.begin {ops : List (Op F)} {s : St F} {os : List (Out F)} (h : J ops s os) (k : Kind) (f : F)
    (cop : Stream.Op Kind) (hc : Stream.Spec.started [cop] = [k]) (op : Op F)
    (hop : Spec.start op = some (k, f)) (hfr : s.freed = false) (hcl : k = .close → busy s k = 0) :
    J (ops ++ [op]) (live s (begin s k f false cop)).1 (os ++ (live s (begin s k f false cop)).2) := by
  have hs : started (ops ++ [op]) = started ops ++ [f] := by simp [started, hop]
  have hso : ∀ k', startedOf k' (ops ++ [op]) = startedOf k' ops ++ if k = k' then [f] else [] := by
    intro k'; by_cases hk : k = k' <;> simp [startedOf, hop, hk]
  have hfree : (∃ b, .free b ∈ ops ++ [op]) ↔ ∃ b, .free b ∈ ops := by
    constructor
    · rintro ⟨b, hb⟩
      rcases List.mem_append.1 hb with hb | hb
      · exact ⟨b, hb⟩
      · rw [← List.mem_singleton.1 hb] at hop; cases hop
    · rintro ⟨b, hb⟩; exact ⟨b, List.mem_append_left _ hb⟩
  have hlive : live s (Api.begin s k f false cop) = Api.begin s k f false cop := by simp [live, hfr]
  rw [hlive]
  unfold Api.begin
  split
  · refine ⟨h.inv, h.ub, h.le, h.own, h.idle, fun f' => ?_, fun k' => ?_, fun k' f' hk => ?_, h.quiet, ?_⟩
    · rw [resolved_append, hs, List.count_append, List.count_append, ← h.cons f']
      simp [resolved, resolves]; omega
    · rw [codes_append, coreCodes_append]
      simpa [codes, coreCodes] using h.code k'
    · rw [hso]; exact List.mem_append_left _ (h.known k' f' hk)
    · rw [h.freed, hfree]
  · rename_i hn
    have hb0 : busy s k = 0 := by
      by_cases hk : k = .close
      · exact hcl hk
      · have hnone : s.fut k = none := by simpa [hk] using hn
        have := h.le k
        rcases Nat.eq_zero_or_pos (busy s k) with h0 | h0
        · exact h0
        · obtain ⟨-, g, hg⟩ := h.own k (by omega)
          rw [hnone] at hg; cases hg
    have hq0 : inQ s k = 0 := by unfold busy at hb0; omega
    have hown : Own (initEv { s with fut := upd s.fut k (some f) } k false) k := by
      refine ⟨s.next, by simp [initEv, upd], fun p hp hk => ?_⟩
      exfalso
      have hp : p ∈ s.q := hp
      have : k ∈ s.q.map (·.1) := List.mem_map.2 ⟨p, hp, hk⟩
      have := List.count_pos_iff.2 this
      unfold inQ at hq0; omega
    have hown' : ∀ k', k' ≠ k → Own s k' →
        Own (initEv { s with fut := upd s.fut k (some f) } k false) k' := by
      rintro k' hk ⟨i, hi, hp⟩
      exact ⟨i, by simpa [initEv, upd, hk] using hi, hp⟩
    have hst := inCore_stepped (initEv { s with fut := upd s.fut k (some f) } k false) cop h.inv h.ub
      (fun k' => by
        rw [busy_initEv, hc]
        by_cases hk : k' = k
        · subst hk; simp [hb0]
        · have := h.le k'
          simpa [List.count_singleton, Ne.symm hk] using this)
      (fun k' hk' => by
        by_cases hk : k' = k
        · subst hk; exact hown
        · rw [busy_initEv, hc] at hk'
          have : busy s k' = 1 := by
            simpa [List.count_singleton, Ne.symm hk] using hk'
          exact hown' k' hk (h.own k' this).1)
    have hqc : ∀ k', qcode (initEv { s with fut := upd s.fut k (some f) } k false) k' = qcode s k' :=
      fun _ => rfl
    have hfrr : (initEv { s with fut := upd s.fut k (some f) } k false).freed = s.freed := rfl
    have hfut : ∀ k', (initEv { s with fut := upd s.fut k (some f) } k false).fut k' =
        if k' = k then some f else s.fut k' := fun _ => rfl
    have hbz := fun k' => busy_initEv s k f k'
    generalize initEv { s with fut := upd s.fut k (some f) } k false = s1 at hst hown hown' hqc hfrr hfut hbz
    generalize inCore s1 cop = r at hst
    have hb : ∀ k', busy r.1 k' = if k' = k then 1 else busy s k' := by
      intro k'
      rw [hst.busy, hbz, hc]
      by_cases hk : k' = k
      · subst hk; simp [hb0]
      · simp [hk, List.count_singleton, Ne.symm hk]
    refine ⟨hst.inv, hst.ub, fun k' => ?_, fun k' hk' => ?_, fun k' hk' hn' => ?_,
      fun f' => ?_, fun k' => ?_, fun k' f' hk' => ?_, fun hk' k' => ?_, ?_⟩
    · rw [hb]; have := h.le k'; split <;> omega
    · rw [hst.fut, hfut]
      by_cases hk : k' = k
      · subst hk; exact ⟨hst.own _ hown, f, by simp⟩
      · rw [hb, if_neg hk] at hk'
        exact ⟨hst.own _ (hown' k' hk (h.own k' hk').1), by rw [if_neg hk]; exact (h.own k' hk').2⟩
    · rw [hb]
      by_cases hk : k' = k
      · rw [if_pos hk]
      · rw [if_neg hk]
        rw [hst.fut, hfut, if_neg hk] at hn'
        exact h.idle k' hk' hn'
    · rw [resolved_append, hst.res, List.append_nil, hs, List.count_append, ← h.cons f', Nat.add_assoc]
      congr 1
      have hw : ∀ k', wk r.1 k' f' = wk s k' f' + if k' = k then [f].count f' else 0 := by
        intro k'
        unfold wk
        rw [hb, hst.fut, hfut]
        by_cases hk : k' = k
        · subst hk; simp [hb0, List.count_singleton]
        · simp [hk]
      simp only [wait, hw]
      cases k <;> simp <;> omega
    · rw [codes_append, hst.none, List.append_nil, hst.code, hqc, coreCodes_append, ← h.code k',
        List.append_assoc]
    · rw [hst.fut, hfut] at hk'
      rw [hso]
      by_cases hk : k' = k
      · subst hk
        rw [if_pos rfl] at hk'
        cases hk'
        simp
      · rw [if_neg hk] at hk'
        exact List.mem_append_left _ (h.known k' f' hk')
    · rw [hst.freed, hfrr, hfr] at hk'; cases hk'
    · rw [hst.freed, hfrr, h.freed, hfree]

theorem J.deliver {ops : List (Op F)} {s : St F} {os : List (Out F)} (h : J ops s os) :
    J (ops ++ [.deliver]) (deliver s).1 (os ++ (deliver s).2) := by
  have hs : started (ops ++ [Op.deliver]) = started ops := by simp [started, Spec.start]
  have hso : ∀ k, startedOf k (ops ++ [Op.deliver]) = startedOf k ops := by
    intro k; simp [startedOf, Spec.start]
  have hfree : (∃ b, .free b ∈ ops ++ [(Op.deliver : Op F)]) ↔ ∃ b, .free b ∈ ops := by simp
  cases hq : s.q with
  | nil =>
    have hd : Api.deliver s = (s, []) := by simp [Api.deliver, hq]
    rw [hd]
    refine ⟨h.inv, h.ub, h.le, h.own, h.idle, fun f' => ?_, fun k' => ?_, fun k' f' hk => ?_, h.quiet, ?_⟩
    · rw [hs]; simpa using h.cons f'
    · simpa using h.code k'
    · rw [hso]; exact h.known k' f' hk
    · rw [h.freed, hfree]
  | cons p q =>
    obtain ⟨k, i⟩ := p
    have hin : ∀ k', inQ s k' = (if k = k' then 1 else 0) + (q.map (·.1)).count k' := by
      intro k'
      simp only [inQ, hq, List.map_cons, List.count_cons]
      by_cases hk : k = k' <;> simp [hk]; omega
    have hb1 : busy s k = 1 := by
      have := h.le k
      have := hin k
      unfold busy at *
      simp at this; omega
    have hq0 : (q.map (·.1)).count k = 0 := by
      have := hin k
      unfold busy at hb1
      simp at this; omega
    have hc0 : cnt s.core k = 0 := by
      have := hin k
      unfold busy at hb1
      simp at this; omega
    have hfr : s.freed = false := by
      cases hf : s.freed with
      | false => rfl
      | true => have := h.quiet hf k; omega
    obtain ⟨⟨j, hj, hjq⟩, f, hf⟩ := h.own k hb1
    have hji : i = j := hjq (k, i) (by simp [hq]) rfl
    subst hji
    have hflt : q.filter (· ≠ (k, i)) = q := by
      rw [List.filter_eq_self]
      intro p hp
      have : p.1 ≠ k := by
        rintro rfl
        have : p.1 ∈ q.map (·.1) := List.mem_map.2 ⟨p, hp, rfl⟩
        have := List.count_pos_iff.2 this
        omega
      simp only [decide_eq_true_eq]
      rintro rfl; exact this rfl
    obtain ⟨s', heq, e1, e2, e3, e4, e5, e6, e7⟩ : ∃ s' : St F,
        Api.deliver s = (s', [.resolved k f (s.ec k)]) ∧ s'.core = s.core ∧ s'.q = q ∧ s'.ec = s.ec ∧
        s'.freed = s.freed ∧ s'.ub = s.ub ∧ (∀ k', k' ≠ k → s'.fut k' = s.fut k' ∧ s'.ev k' = s.ev k') ∧
        s'.fut k = if k = .read ∨ k = .write then none else s.fut k := by
      refine ⟨{ s with
        fut := if k = .read ∨ k = .write then upd s.fut k none else s.fut, ev := upd s.ev k none, q := q },
        by simp only [Api.deliver, hq, hfr, Bool.false_eq_true, if_false, callback, hf, deinitEv, hj, hflt],
        rfl, rfl, rfl, rfl, rfl, fun k' hk => ?_, ?_⟩
      · refine ⟨?_, by simp [upd, hk]⟩
        dsimp only; split <;> simp [upd, hk]
      · dsimp only; split <;> simp [upd]
    have hgoal : J (ops ++ [.deliver]) s' (os ++ [.resolved k f (s.ec k)]) := by
      have hbb : ∀ k', busy s' k' = if k' = k then 0 else busy s k' := by
        intro k'
        have h1 : busy s' k' = cnt s.core k' + (q.map (·.1)).count k' := by
          unfold busy inQ; rw [e1, e2]
        rw [h1]
        by_cases hk : k' = k
        · subst hk; simp [hc0, hq0]
        · have := hin k'
          rw [if_neg (Ne.symm hk)] at this
          rw [if_neg hk]; unfold busy; omega
      refine ⟨e1 ▸ h.inv, e5 ▸ h.ub, fun k' => ?_, fun k' hk' => ?_, fun k' hk' hn' => ?_,
        fun f' => ?_, fun k' => ?_, fun k' f' hk' => ?_, fun hk' k' => ?_, ?_⟩
      · rw [hbb]; have := h.le k'; split <;> omega
      · rw [hbb] at hk'
        by_cases hk : k' = k
        · rw [if_pos hk] at hk'; omega
        · rw [if_neg hk] at hk'
          obtain ⟨⟨j, hj', hjq'⟩, g, hg⟩ := h.own k' hk'
          refine ⟨⟨j, by rw [(e6 k' hk).2]; exact hj', fun p hp hpk => hjq' p ?_ hpk⟩, g, ?_⟩
          · rw [hq]; rw [e2] at hp; exact List.mem_cons_of_mem _ hp
          · rw [(e6 k' hk).1]; exact hg
      · rw [hbb]
        by_cases hk : k' = k
        · subst hk
          rw [e7, if_pos hk'] at hn'; exact absurd rfl hn'
        · rw [if_neg hk]
          rw [(e6 k' hk).1] at hn'
          exact h.idle k' hk' hn'
      · rw [resolved_append, hs, ← h.cons f', List.count_append, Nat.add_assoc]
        congr 1
        have hw : ∀ k', wk s k' f' = (if k' = k then [f].count f' else 0) + wk s' k' f' := by
          intro k'
          unfold wk
          rw [hbb]
          by_cases hk : k' = k
          · subst hk; simp [hb1, hf, List.count_singleton]
          · rw [(e6 k' hk).1]; simp [hk]
        simp only [wait, hw]
        have : (resolved [Out.resolved k f (s.ec k)]).count f' = [f].count f' := rfl
        rw [this]
        generalize wk s' .accept f' = w1
        generalize wk s' .read f' = w2
        generalize wk s' .write f' = w3
        generalize wk s' .close f' = w4
        cases k <;> simp <;> omega
      · rw [codes_append, coreCodes_append, ← h.code k']
        have h1 : coreCodes k' [Out.resolved k f (s.ec k)] = [] := rfl
        rw [h1, List.append_nil, List.append_assoc]
        congr 1
        unfold qcode
        rw [hin]
        unfold inQ
        rw [e2, e3]
        by_cases hk : k = k'
        · subst hk
          simp [codes, hq0]
        · simp [codes, hk]
      · rw [hso]
        refine h.known k' f' ?_
        by_cases hk : k' = k
        · subst hk; rw [e7] at hk'
          split at hk'
          · cases hk'
          · exact hk'
        · rw [(e6 k' hk).1] at hk'; exact hk'
      · rw [e4, hfr] at hk'; cases hk'
      · rw [e4, h.freed, hfree]
    rw [heq]
    exact hgoal

/-- A future which waits belongs to an operation which is on its way. -/
theorem wait_pos {s : St F} {f : F} (h : 0 < wait s f) : ∃ k, busy s k ≠ 0 ∧ s.fut k = some f := by
  unfold wait wk at h
  by_cases h1 : busy s .accept ≠ 0 ∧ s.fut .accept = some f
  · exact ⟨_, h1⟩
  by_cases h2 : busy s .read ≠ 0 ∧ s.fut .read = some f
  · exact ⟨_, h2⟩
  by_cases h3 : busy s .write ≠ 0 ∧ s.fut .write = some f
  · exact ⟨_, h3⟩
  by_cases h4 : busy s .close ≠ 0 ∧ s.fut .close = some f
  · exact ⟨_, h4⟩
  rw [if_neg h1, if_neg h2, if_neg h3, if_neg h4] at h
  omega

theorem wait_of_busy {s : St F} {f : F} {k : Kind} (h : busy s k ≠ 0) (hf : s.fut k = some f) :
    0 < wait s f := by
  have : wk s k f = 1 := by simp [wk, h, hf]
  unfold wait
  cases k <;> omega

theorem mem_started {k : Kind} {f : F} {ops : List (Op F)} (h : f ∈ startedOf k ops) : f ∈ started ops := by
  obtain ⟨op, hm, ho⟩ := List.mem_filterMap.1 h
  refine List.mem_filterMap.2 ⟨op, hm, ?_⟩
  cases hs : Spec.start op with
  | none => simp [hs] at ho
  | some p =>
    simp only [hs, Option.bind_some] at ho
    split at ho
    · simpa using ho
    · cases ho

/-- When all futures of a kind are resolved, no operation of this kind is on its way. -/
theorem J.busy_zero {ops : List (Op F)} {s : St F} {os : List (Out F)} (h : J ops s os)
    (hn : (started ops).Nodup) (k : Kind) (hr : ∀ f ∈ startedOf k ops, f ∈ resolved os) : busy s k = 0 := by
  rcases Nat.eq_zero_or_pos (busy s k) with h0 | h0
  · exact h0
  · have := h.le k
    obtain ⟨-, f, hf⟩ := h.own k (by omega)
    have h1 := wait_of_busy (by omega) hf
    have h2 := List.count_pos_iff.2 (hr f (h.known k f hf))
    have h3 := h.cons f
    have h4 := List.nodup_iff_count.1 hn f
    omega

theorem J.free {ops : List (Op F)} {s : St F} {os : List (Out F)} (h : J ops s os) (b : Bool)
    (hz : ∀ k, busy s k = 0) (hfr : s.freed = false) :
    J (ops ++ [.free b]) (step s (.free b)).1 (os ++ (step s (.free b)).2) := by
  have he := h.event (.stop b) rfl (.abort b) rfl (fun _ hh => by cases hh)
  have hst := inCore_stepped s (.stop b) h.inv h.ub (fun k => by rw [hz]; simp [Stream.Spec.started, Stream.Spec.start])
    (fun k hk => by rw [hz] at hk; simp [Stream.Spec.started, Stream.Spec.start] at hk)
  have hb : ∀ k, busy (inCore s (.stop b)).1 k = 0 := by
    intro k; rw [hst.busy, hz]; simp [Stream.Spec.started, Stream.Spec.start]
  have hs : started (ops ++ [Op.free b]) = started (ops ++ [Op.abort b]) := by
    simp [started, Spec.start]
  have hso : ∀ k, startedOf k (ops ++ [Op.free b]) = startedOf k (ops ++ [Op.abort b]) := by
    intro k; simp [startedOf, Spec.start]
  simp only [step, live, hfr, Bool.false_eq_true, if_false]
  generalize inCore s (.stop b) = r at he hb
  obtain ⟨s', o⟩ := r
  refine ⟨he.inv, he.ub, he.le, he.own, he.idle, fun f => ?_, he.code, fun k f hk => ?_, fun _ k => hb k, ?_⟩
  · rw [hs]; exact he.cons f
  · rw [hso]; exact he.known k f hk
  · exact ⟨fun _ => ⟨b, by simp⟩, fun _ => rfl⟩

theorem run_append (s : St F) (as bs : List (Op F)) :
    run s (as ++ bs) = ((run (run s as).1 bs).1, (run s as).2 ++ (run (run s as).1 bs).2) := by
  induction as generalizing s with
  | nil => simp [run]
  | cons a as ih => simp [run, ih, List.append_assoc]

/-- Every careful history keeps the invariant. -/
theorem run_J (ops : List (Op F)) (hn : (started ops).Nodup) (hc : Careful ops) :
    J ops (run St.init ops).1 (run St.init ops).2 := by
  suffices h : ∀ post pre : List (Op F), ops = pre ++ post → J pre (run St.init pre).1 (run St.init pre).2 →
      J ops (run St.init ops).1 (run St.init ops).2 from h ops [] rfl J.init
  intro post
  induction post with
  | nil => intro pre he h; rw [List.append_nil] at he; subst he; exact h
  | cons op post ih =>
    intro pre he h
    refine ih (pre ++ [op]) (by simp [he]) ?_
    have hnp : (started pre).Nodup := by
      rw [he, started_append] at hn; exact (List.nodup_append.1 hn).1
    have hmem : Memory op := hc.memory op (by simp [he])
    have hlive : Uses op → (run St.init pre).1.freed = false := by
      intro hu
      cases hf : (run St.init pre).1.freed with
      | false => rfl
      | true =>
        obtain ⟨b, hb⟩ := h.freed.1 hf
        exact absurd hb (hc.freed pre op post he hu b)
    have hfree : ∀ b, op = .free b → ∀ k, busy (run St.init pre).1 k = 0 := by
      rintro b rfl k
      exact h.busy_zero hnp k fun f hf => hc.free pre b post he f (mem_started hf)
    have hclose : ∀ f st m, op = .close f st m → busy (run St.init pre).1 .close = 0 := by
      rintro f st m rfl
      exact h.busy_zero hnp .close (hc.close pre f st m post he)
    rw [run_append]
    generalize (run St.init pre).1 = s at h hlive hfree hclose
    generalize (run St.init pre).2 = os at h
    have hr : run s [op] = step s op := by simp [run]
    rw [hr]
    dsimp only
    cases op with
    | accept f m =>
      cases hmem
      exact h.begin .accept f _ rfl _ rfl (hlive rfl) (fun hh => by cases hh)
    | readAll f n r m =>
      cases hmem
      exact h.begin .read f _ rfl _ rfl (hlive rfl) (fun hh => by cases hh)
    | readSome f n r m =>
      cases hmem
      exact h.begin .read f _ rfl _ rfl (hlive rfl) (fun hh => by cases hh)
    | write f d w m =>
      cases hmem
      exact h.begin .write f _ rfl _ rfl (hlive rfl) (fun hh => by cases hh)
    | close f st m =>
      cases hmem
      exact h.begin .close f _ rfl _ rfl (hlive rfl) (fun _ => hclose _ _ _ rfl)
    | abort b =>
      have := h.event (.stop b) rfl (.abort b) rfl (fun _ hh => by cases hh)
      simpa [step, live, hlive trivial] using this
    | free b => exact h.free b (hfree b rfl) (hlive trivial)
    | deliver => exact h.deliver
    | _ => exact h.event _ rfl _ rfl (fun _ hh => by cases hh)

/-- A step which ends the stream stops it in the core, and it stays so. -/
theorem step_core_stopped (s : St F) (op : Op F) (h : s.core.stopped = true ∨ Ends op)
    (hl : Uses op → s.freed = false) : (step s op).1.core.stopped = true := by
  have hin : ∀ (s : St F) cop, s.core.stopped = true → (inCore s cop).1.core.stopped = true := by
    intro s cop hs; rw [inCore_core]; exact step_stopped _ _ hs
  have hend : ∀ (s : St F) cop, Stream.Spec.Ends cop → (inCore s cop).1.core.stopped = true := by
    intro s cop hs; rw [inCore_core]; exact step_ends _ _ hs
  have hbeg : ∀ k f m cop, s.core.stopped = true → (live s (Api.begin s k f m cop)).1.core.stopped = true := by
    intro k f m cop hs
    unfold live Api.begin
    split
    · exact hs
    · split
      · exact hs
      · exact hin _ _ hs
  cases op with
  | accept f m => exact hbeg _ _ _ _ (h.resolve_right id)
  | readAll f n r m => exact hbeg _ _ _ _ (h.resolve_right id)
  | readSome f n r m => exact hbeg _ _ _ _ (h.resolve_right id)
  | write f d w m => exact hbeg _ _ _ _ (h.resolve_right id)
  | close f st m => exact hbeg _ _ _ _ (h.resolve_right id)
  | connClosed => exact hend s _ trivial
  | abort b =>
    simp only [step, live, hl trivial]
    exact hend s (.stop b) trivial
  | free b =>
    simp only [step, live, hl trivial]
    exact hend s (.stop b) trivial
  | deliver =>
    have hs := h.resolve_right id
    simp only [step, Api.deliver]
    split
    · exact hs
    · split
      · exact hs
      · simp only [callback, deinitEv]
        split
        · exact hs
        · split <;> exact hs
  | _ => exact hin _ _ (h.resolve_right id)

theorem run_core_stopped (ops : List (Op F)) (hc : Careful ops) (he : ∃ op ∈ ops, Ends op) :
    (run St.init ops).1.core.stopped = true := by
  suffices h : ∀ post pre : List (Op F), ops = pre ++ post →
      ((run St.init pre).1.freed = true → ∃ b, .free b ∈ pre) →
      ((∃ op ∈ pre, Ends op) → (run St.init pre).1.core.stopped = true) →
      (run St.init ops).1.core.stopped = true from
    h ops [] rfl (fun hh => by cases hh) (fun ⟨_, hm, _⟩ => by cases hm)
  intro post
  induction post with
  | nil => intro pre he' _ h; rw [List.append_nil] at he'; subst he'; exact h he
  | cons op post ih =>
    intro pre he' hf h
    have hl : Uses op → (run St.init pre).1.freed = false := by
      intro hu
      cases hf' : (run St.init pre).1.freed with
      | false => rfl
      | true =>
        obtain ⟨b, hb⟩ := hf hf'
        exact absurd hb (hc.freed pre op post he' hu b)
    refine ih (pre ++ [op]) (by simp [he']) ?_ ?_
    · rw [run_append]
      intro hh
      have hh : (step (run St.init pre).1 op).1.freed = true := by simpa [run] using hh
      by_cases hop : ∃ b, op = .free b
      · obtain ⟨b, rfl⟩ := hop; exact ⟨b, by simp⟩
      · have hsame : (step (run St.init pre).1 op).1.freed = (run St.init pre).1.freed := by
          generalize (run St.init pre).1 = s
          have hp : ∀ (os : List (Stream.Out Kind)) (s : St F), (postAll s os).freed = s.freed := by
            intro os
            induction os with
            | nil => intro s; rfl
            | cons o os ih =>
              intro s
              cases o with
              | done k ec g =>
                simp only [postAll, ih]
                unfold Api.post; split <;> rfl
              | _ => simpa [postAll] using ih s
          have hin : ∀ (s : St F) cop, (inCore s cop).1.freed = s.freed := fun s cop => hp _ _
          have hbeg : ∀ k f m cop, (live s (Api.begin s k f m cop)).1.freed = s.freed := by
            intro k f m cop
            unfold live Api.begin
            split
            · rfl
            · split
              · rfl
              · exact hin _ _
          cases op with
          | accept f m => exact hbeg _ _ _ _
          | readAll f n r m => exact hbeg _ _ _ _
          | readSome f n r m => exact hbeg _ _ _ _
          | write f d w m => exact hbeg _ _ _ _
          | close f st m => exact hbeg _ _ _ _
          | free b => exact absurd ⟨b, rfl⟩ hop
          | abort b =>
            simp only [step, live]
            split
            · rfl
            · exact hin _ _
          | deliver =>
            simp only [step, Api.deliver]
            split
            · rfl
            · split
              · rfl
              · simp only [callback, deinitEv]
                split
                · rfl
                · split <;> rfl
          | _ => exact hin _ _
        rw [hsame] at hh
        obtain ⟨b, hb⟩ := hf hh
        exact ⟨b, List.mem_append_left _ hb⟩
    · rintro ⟨op', hm, ho⟩
      rw [run_append]
      have hr : run (run St.init pre).1 [op] = step (run St.init pre).1 op := by simp [run]
      rw [hr]
      refine step_core_stopped _ op ?_ hl
      rcases List.mem_append.1 hm with hm | hm
      · exact .inl (h ⟨op', hm, ho⟩)
      · rw [List.mem_singleton.1 hm] at ho; exact .inr ho

omit [DecidableEq F] in
theorem deliver_q (s : St F) : (Api.deliver s).1.q.length ≤ s.q.length - 1 := by
  unfold Api.deliver
  split
  · simp [*]
  · rename_i k i q hq
    rw [hq]
    split
    · simp
    · simp only [callback, deinitEv]
      split
      · simp
      · split
        · simp
        · simpa using List.length_filter_le _ _

omit [DecidableEq F] in
theorem delivers_q (n : Nat) (s : St F) (h : s.q.length ≤ n) :
    (run s (List.replicate n .deliver)).1.q = [] := by
  induction n generalizing s with
  | zero => simpa [run] using h
  | succ n ih =>
    rw [List.replicate_succ]
    simp only [run]
    refine ih _ ?_
    have := deliver_q s
    change (Api.deliver s).1.q.length ≤ n
    omega

theorem careful_delivers {ops : List (Op F)} (h : Careful ops) (n : Nat) :
    Careful (ops ++ List.replicate n .deliver) := by
  have key : ∀ (pre post : List (Op F)) op, ops ++ List.replicate n .deliver = pre ++ op :: post →
      op ≠ .deliver → ∃ post', ops = pre ++ op :: post' := by
    intro pre post op he hne
    rcases List.append_eq_append_iff.1 he with ⟨as, h1, h2⟩ | ⟨bs, h1, h2⟩
    · cases as with
      | nil =>
        exfalso
        simp only [List.nil_append] at h2
        have : op ∈ List.replicate n (Op.deliver : Op F) := by rw [h2]; simp
        exact hne (List.eq_of_mem_replicate this)
      | cons a as =>
        exfalso
        have : op ∈ List.replicate n (Op.deliver : Op F) := by rw [h2]; simp
        exact hne (List.eq_of_mem_replicate this)
    · cases bs with
      | nil =>
        exfalso
        simp only [List.nil_append] at h2
        have : op ∈ List.replicate n (Op.deliver : Op F) := by rw [← h2]; simp
        exact hne (List.eq_of_mem_replicate this)
      | cons b bs =>
        simp only [List.cons_append, List.cons.injEq] at h2
        exact ⟨bs, by rw [h1, h2.1]⟩
  refine ⟨fun op hop => ?_, fun pre op post he hu b => ?_, fun pre b post he => ?_,
    fun pre f st m post he => ?_⟩
  · rcases List.mem_append.1 hop with hop | hop
    · exact h.memory op hop
    · rw [List.eq_of_mem_replicate hop]; trivial
  · obtain ⟨post', hp⟩ := key pre post op he (by rintro rfl; cases hu)
    exact h.freed pre op post' hp hu b
  · obtain ⟨post', hp⟩ := key pre post _ he (by simp)
    exact h.free pre b post' hp
  · obtain ⟨post', hp⟩ := key pre post _ he (by simp)
    exact h.close pre f st m post' hp

omit [DecidableEq F] in
/-- The kind of a future. -/
theorem kind_unique {ops : List (Op F)} (hn : (started ops).Nodup) {k k' : Kind} {f : F}
    (h : f ∈ startedOf k ops) (h' : f ∈ startedOf k' ops) : k = k' := by
  classical
  induction ops with
  | nil => cases h
  | cons o ops ih =>
    have e1 : started (o :: ops) = started [o] ++ started ops := started_append [o] ops
    have e2 : ∀ k, startedOf k (o :: ops) = startedOf k [o] ++ startedOf k ops :=
      fun k => startedOf_append k [o] ops
    rw [e1, List.nodup_append] at hn
    rw [e2, List.mem_append] at h h'
    rcases h with h | h <;> rcases h' with h' | h'
    · cases hs : Spec.start o with
      | none => simp [startedOf, hs] at h
      | some p =>
        have h1 : p.1 = k := by
          by_cases hh : p.1 = k
          · exact hh
          · simp [startedOf, hs, hh] at h
        have h2 : p.1 = k' := by
          by_cases hh : p.1 = k'
          · exact hh
          · simp [startedOf, hs, hh] at h'
        rw [← h1, ← h2]
    · exact absurd rfl (hn.2.2 f (mem_started h) f (mem_started h'))
    · exact absurd rfl (hn.2.2 f (mem_started h') f (mem_started h))
    · exact ih hn.2.1 h h'

theorem prefixes_of_append {α : Type} {l pre post : List α} {a : α} (h : l = pre ++ a :: post) :
    ∃ n, n < l.length ∧ pre = l.take n ∧ l[n]? = some a := by
  refine ⟨pre.length, by simp [h], by simp [h], by simp [h]⟩

/-- `Careful` for a concrete history, decided prefix by prefix. -/
theorem careful_of_check (ops : List (Op F)) (hm : ∀ op ∈ ops, Memory op)
    (h : ∀ n, n < ops.length → ∀ op, ops[n]? = some op →
      (Uses op → ∀ b, .free b ∉ ops.take n) ∧
      (∀ b, op = .free b → ∀ f ∈ started (ops.take n), f ∈ resolved (run St.init (ops.take n)).2) ∧
      (∀ f st m, op = .close f st m →
        ∀ f' ∈ startedOf .close (ops.take n), f' ∈ resolved (run St.init (ops.take n)).2)) :
    Careful ops := by
  refine ⟨hm, fun pre op post he hu b => ?_, fun pre b post he => ?_, fun pre f st m post he => ?_⟩
  · obtain ⟨n, hn, rfl, hop⟩ := prefixes_of_append he
    exact (h n hn op hop).1 hu b
  · obtain ⟨n, hn, rfl, hop⟩ := prefixes_of_append he
    exact (h n hn _ hop).2.1 b rfl
  · obtain ⟨n, hn, rfl, hop⟩ := prefixes_of_append he
    exact (h n hn _ hop).2.2 f st m rfl

end

end Verif.Stream.Api
