import Verif.Stream.VirtualLemmas

/-!
# Virtual streams (lemmas about bytes, C46)
-/

namespace Verif.Stream.Virtual

open Verif.Stream (Ec)
open Spec

variable {E : Type}

/-! ### what the copying functions do -/

/-- The cases of `cDoWrite`: the buffer of the read is too small; it is larger and the read is for all bytes;
otherwise. -/
theorem cDoWrite_cases (s : St E) (r : Rdr E) (w : Wrr E) (hr : s.sRd = some r) (hw : s.cWr = some w)
    (hc : s.cClosed = true → r.all = false) :
    (r.left < w.rest.length ∧ cDoWrite s =
      ({ s with sRd := none, cWr := some { w with rest := w.rest.drop r.left } },
        [.done .server r.ev .ok (r.got ++ w.rest.take r.left)])) ∨
    (w.rest.length < r.left ∧ r.all = true ∧ s.cClosed = false ∧ cDoWrite s =
      ({ s with sRd := some { r with got := r.got ++ w.rest, left := r.left - w.rest.length }, cWr := none },
        [.done .client w.ev .ok []])) ∨
    (w.rest.length ≤ r.left ∧ (r.all = true → w.rest.length = r.left) ∧ cDoWrite s =
      ({ s with sRd := none, cWr := none, cCl := if s.cClosed then none else s.cCl },
        [.done .server r.ev .ok (r.got ++ w.rest), .done .client w.ev .ok []] ++
          (if s.cClosed then finish .client s.cCl .ok else []))) := by
  by_cases h1 : r.left < w.rest.length
  · left
    refine ⟨h1, ?_⟩
    have hm : min r.left w.rest.length = r.left := by omega
    simp [cDoWrite, hr, hw, h1, resolveRead, finishRd, hm]
  · have ht : w.rest.take r.left = w.rest := List.take_of_length_le (by omega)
    by_cases h2 : w.rest.length < r.left ∧ r.all = true
    · right; left
      have hcf : s.cClosed = false := by
        cases h : s.cClosed with
        | false => rfl
        | true => have := hc h; simp [h2.2] at this
      refine ⟨h2.1, h2.2, hcf, ?_⟩
      simp [cDoWrite, hr, hw, h1, h2, ht, cResolveWrite, hcf, finishWr, finish]
    · right; right
      refine ⟨by omega, fun ha => ?_, ?_⟩
      · have : ¬ w.rest.length < r.left := fun h => h2 ⟨h, ha⟩
        omega
      · have h3 : (decide (w.rest.length < r.left) && r.all) = false := by
          cases hall : r.all with
          | false => simp
          | true => simp; exact Nat.le_of_not_lt fun h => h2 ⟨h, hall⟩
        cases hcc : s.cClosed <;>
          simp [cDoWrite, hr, hw, h1, h3, ht, cResolveWrite, resolveRead, finishRd, finishWr, finish, hcc]

theorem cDoWrite_idle (s : St E) (h : s.sRd = none ∨ s.cWr = none) : cDoWrite s = (s, []) := by
  unfold cDoWrite
  split
  · rename_i hr hw; simp [hr, hw] at h
  · rfl

theorem cDoRead_idle (s : St E) (h : s.cRd = none ∨ s.sWr = none) : cDoRead s = (s, []) := by
  unfold cDoRead
  split
  · rename_i hr hw; simp [hr, hw] at h
  · rfl

/-- The cases of `cDoRead`. -/
theorem cDoRead_cases (s : St E) (r : Rdr E) (w : Wrr E) (hr : s.cRd = some r) (hw : s.sWr = some w) :
    (r.left < w.rest.length ∧ cDoRead s =
      ({ s with cRd := none, sWr := some { w with rest := w.rest.drop r.left } },
        [.done .client r.ev .ok (r.got ++ w.rest.take r.left)])) ∨
    (w.rest.length < r.left ∧ r.all = true ∧ cDoRead s =
      ({ s with cRd := some { r with got := r.got ++ w.rest, left := r.left - w.rest.length }, sWr := none,
                sCl := if s.sClosed then none else s.sCl },
        [.done .server w.ev .ok []] ++ (if s.sClosed then finish .server s.sCl .ok else []))) ∨
    (w.rest.length ≤ r.left ∧ (r.all = true → w.rest.length = r.left) ∧ cDoRead s =
      ({ s with cRd := none, sWr := none, sCl := if s.sClosed then none else s.sCl },
        [.done .server w.ev .ok [], .done .client r.ev .ok (r.got ++ w.rest)] ++
          (if s.sClosed then finish .server s.sCl .ok else []))) := by
  by_cases h1 : r.left < w.rest.length
  · left
    refine ⟨h1, ?_⟩
    have hm : min r.left w.rest.length = r.left := by omega
    simp [cDoRead, hr, hw, h1, cResolveRead, finishRd, hm]
  · have ht : w.rest.take r.left = w.rest := List.take_of_length_le (by omega)
    by_cases h2 : w.rest.length < r.left ∧ r.all = true
    · right; left
      refine ⟨h2.1, h2.2, ?_⟩
      cases hcc : s.sClosed <;> simp [cDoRead, hr, hw, h1, h2, ht, hcc]
    · right; right
      refine ⟨by omega, fun ha => ?_, ?_⟩
      · have : ¬ w.rest.length < r.left := fun h => h2 ⟨h, ha⟩
        omega
      · have h3 : (decide (w.rest.length < r.left) && r.all) = false := by
          cases hall : r.all with
          | false => simp
          | true => simp; exact Nat.le_of_not_lt fun h => h2 ⟨h, hall⟩
        cases hcc : s.sClosed <;>
          simp [cDoRead, hr, hw, h1, h3, ht, cResolveRead, finishRd, hcc]

/-! ### bytes -/

/-- The bytes in the buffer of a read. -/
def gotOf : Option (Rdr E) → List UInt8
  | some r => r.got
  | none => []

/-- The bytes of a write which are not copied. -/
def restOf : Option (Wrr E) → List UInt8
  | some w => w.rest
  | none => []

@[simp] theorem gotOf_none : gotOf (none : Option (Rdr E)) = [] := rfl
@[simp] theorem gotOf_some (r : Rdr E) : gotOf (some r) = r.got := rfl
@[simp] theorem restOf_none : restOf (none : Option (Wrr E)) = [] := rfl
@[simp] theorem restOf_some (w : Wrr E) : restOf (some w) = w.rest := rfl

@[simp] theorem delivered_nil (sd : Side) : delivered sd ([] : List (Out E)) = [] := rfl

@[simp] theorem delivered_cons (sd sd' : Side) (e : E) (ec : Ec) (g : List UInt8) (os : List (Out E)) :
    delivered sd (.done sd' e ec g :: os) = (if sd' = sd then g else []) ++ delivered sd os := by
  by_cases h : sd' = sd <;> simp [delivered, h]

@[simp] theorem delivered_append (sd : Side) (a b : List (Out E)) :
    delivered sd (a ++ b) = delivered sd a ++ delivered sd b := by
  simp [delivered]

@[simp] theorem delivered_finish (sd sd' : Side) (ev : Option E) (ec : Ec) :
    delivered sd (finish sd' ev ec) = [] := by
  cases ev <;> simp [finish]

@[simp] theorem delivered_finishWr (sd sd' : Side) (w : Option (Wrr E)) (ec : Ec) :
    delivered sd (finishWr sd' w ec) = [] := delivered_finish _ _ _ _

@[simp] theorem delivered_finishRd (sd sd' : Side) (r : Option (Rdr E)) (ec : Ec) :
    delivered sd (finishRd sd' r ec) = if sd' = sd then gotOf r else [] := by
  cases r <;> simp [finishRd]

@[simp] theorem refused_nil : refused ([] : List (Out E)) = [] := rfl

@[simp] theorem refused_cons (sd : Side) (e : E) (ec : Ec) (g : List UInt8) (os : List (Out E)) :
    refused (.done sd e ec g :: os) = (if isRefusal ec then [(sd, e)] else []) ++ refused os := by
  by_cases h : isRefusal ec <;> simp [refused, h]

@[simp] theorem refused_append (a b : List (Out E)) : refused (a ++ b) = refused a ++ refused b := by
  simp [refused]

theorem refused_finish (sd : Side) (ev : Option E) (ec : Ec) (h : isRefusal ec = false) :
    refused (finish sd ev ec) = [] := by
  cases ev <;> simp [finish, h]

theorem refused_finishWr (sd : Side) (w : Option (Wrr E)) (ec : Ec) (h : isRefusal ec = false) :
    refused (finishWr sd w ec) = [] := refused_finish _ _ _ h

theorem refused_finishRd (sd : Side) (r : Option (Rdr E)) (ec : Ec) (h : isRefusal ec = false) :
    refused (finishRd sd r ec) = [] := by
  cases r <;> simp [finishRd, h]

@[simp] theorem refused_finish_ok (sd : Side) (ev : Option E) : refused (finish sd ev .ok) = [] :=
  refused_finish sd ev _ rfl

@[simp] theorem refused_finish_eof (sd : Side) (ev : Option E) : refused (finish sd ev .eof) = [] :=
  refused_finish sd ev _ rfl

@[simp] theorem refused_finish_aborted (sd : Side) (ev : Option E) : refused (finish sd ev .aborted) = [] :=
  refused_finish sd ev _ rfl

@[simp] theorem refused_finishWr_ok (sd : Side) (w : Option (Wrr E)) : refused (finishWr sd w .ok) = [] :=
  refused_finishWr sd w _ rfl

@[simp] theorem refused_finishWr_eof (sd : Side) (w : Option (Wrr E)) : refused (finishWr sd w .eof) = [] :=
  refused_finishWr sd w _ rfl

@[simp] theorem refused_finishWr_aborted (sd : Side) (w : Option (Wrr E)) : refused (finishWr sd w .aborted) = [] :=
  refused_finishWr sd w _ rfl

@[simp] theorem refused_finishRd_ok (sd : Side) (r : Option (Rdr E)) : refused (finishRd sd r .ok) = [] :=
  refused_finishRd sd r _ rfl

@[simp] theorem refused_finishRd_eof (sd : Side) (r : Option (Rdr E)) : refused (finishRd sd r .eof) = [] :=
  refused_finishRd sd r _ rfl

@[simp] theorem refused_finishRd_aborted (sd : Side) (r : Option (Rdr E)) : refused (finishRd sd r .aborted) = [] :=
  refused_finishRd sd r _ rfl

/-- The facts about the bytes of both directions: `aC` are the accepted bytes of the client, `dS` those the
server got, `aS` and `dC` those of the other direction. -/
structure Data (s : St E) (aC dS aS dC : List UInt8) : Prop where
  w1 : s.sRd = none ∨ s.cWr = none
  w2 : s.cRd = none ∨ s.sWr = none
  c1 : s.cClosed = true → s.sRd = none
  c2 : s.sClosed = true → s.cRd = none
  st : s.stopped = true → s.sRd = none ∧ s.sWr = none ∧ s.sCl = none
  vst : s.vstopped = true → s.opened = none ∧ s.cWr = none ∧ s.sRd = none ∧ s.sWr = none ∧ s.cCl = none
  d1 : s.vstopped = false → dS ++ gotOf s.sRd ++ restOf s.cWr = aC
  p1 : s.vstopped = true → dS <+: aC
  d2 : s.stopped = false → s.vstopped = false → dC ++ gotOf s.cRd ++ restOf s.sWr = aS
  p2 : s.stopped = true ∨ s.vstopped = true → dC ++ gotOf s.cRd <+: aS
  cc : s.cCl.isSome = true → s.cClosed = true ∧ s.cWr.isSome = true
  sc : s.sCl.isSome = true → s.sClosed = true ∧ (s.sWr.isSome = true ∨ s.vstopped = true)

theorem Data.init (e : E) : Data (St.init e) [] [] [] [] := by
  constructor <;> simp [St.init]

variable [DecidableEq E]

/-- The bytes a step accepts. -/
def acc (side : Side) (op : Op E) (o : List (Out E)) : List UInt8 :=
  match writeOf op with
  | some (sd, e, d) => if sd = side ∧ (sd, e) ∉ refused o then d else []
  | none => []

/-- The facts after a step. -/
def Next (s : St E) (op : Op E) (aC dS aS dC : List UInt8) (res : St E × List (Out E)) : Prop :=
  Data s aC dS aS dC →
    Data res.1 (aC ++ acc .client op res.2) (dS ++ delivered .server res.2) (aS ++ acc .server op res.2)
      (dC ++ delivered .client res.2)

/-- A step which only answers. -/
theorem next_answer (s : St E) (op : Op E) (sd : Side) (e : E) (ec : Ec) (aC dS aS dC : List UInt8)
    (h : isRefusal ec = true ∨ writeOf op = none) (hw : who op = some (sd, e)) :
    Next s op aC dS aS dC (s, [.done sd e ec []]) := by
  have ha : ∀ side, acc side op [.done sd e ec []] = [] := by
    intro side
    unfold acc
    cases op <;> simp_all [writeOf, who]
  intro hd
  simpa [ha] using hd

theorem acc_none (side : Side) (op : Op E) (o : List (Out E)) (h : writeOf op = none) : acc side op o = [] := by
  simp [acc, h]

theorem next_accept (s : St E) (e : E) (aC dS aS dC : List UInt8) :
    Next s (.accept e) aC dS aS dC (step s (.accept e)) := by
  simp only [step, accept]
  split
  · exact next_answer _ _ _ _ _ _ _ _ _ (.inl rfl) rfl
  · intro hd
    obtain ⟨w1, w2, c1, c2, st, vst, d1, p1, d2, p2, cc, sc⟩ := hd
    constructor <;> simp_all [acc, writeOf]

theorem opt_cases {α : Type} (o : Option α) : o = none ∨ ∃ a, o = some a := by
  cases o <;> simp

theorem next_sread (s : St E) (op : Op E) (e : E) (all : Bool) (n : Nat) (aC dS aS dC : List UInt8)
    (ho : writeOf op = none) (hn : s.sRd = none) (hs : s.stopped = false) (hv : s.vstopped = false)
    (hc : s.cClosed = true → all = false ∧ s.cWr.isSome = true) :
    Next s op aC dS aS dC (cDoWrite { s with sRd := some ⟨e, all, n, []⟩ }) := by
  intro hd
  obtain ⟨w1, w2, c1, c2, st, vst, d1, p1, d2, p2, cc, sc⟩ := hd
  have d1 := d1 hv
  have d2 := d2 hs hv
  simp only [acc_none _ _ _ ho, List.append_nil]
  rcases opt_cases s.cWr with hw | ⟨w, hw⟩
  · skip
    rw [cDoWrite_idle { s with sRd := some ⟨e, all, n, []⟩ } (.inr hw)]
    have hcf : s.cClosed = false := by
      cases h : s.cClosed with
      | false => rfl
      | true => have := (hc h).2; simp [hw] at this
    constructor <;> simp_all
  · skip
    rcases cDoWrite_cases { s with sRd := some ⟨e, all, n, []⟩ } ⟨e, all, n, []⟩ w rfl hw
      (fun h => (hc h).1) with ⟨h1, h⟩ | ⟨h1, h2, h3, h⟩ | ⟨h1, h2, h⟩
    · rw [h]
      constructor <;> simp_all
    · rw [h]
      constructor <;> simp_all
    · rw [h]
      by_cases hcc : s.cClosed = true
      · constructor <;> simp_all
      · constructor <;> simp_all

theorem next_cread (s : St E) (op : Op E) (e : E) (all : Bool) (n : Nat) (aC dS aS dC : List UInt8)
    (ho : writeOf op = none) (hn : s.cRd = none) (hc : s.sClosed = false) :
    Next s op aC dS aS dC (cDoRead { s with cRd := some ⟨e, all, n, []⟩ }) := by
  intro hd
  obtain ⟨w1, w2, c1, c2, st, vst, d1, p1, d2, p2, cc, sc⟩ := hd
  simp only [acc_none _ _ _ ho, List.append_nil]
  rcases opt_cases s.sWr with hw | ⟨w, hw⟩
  · skip
    rw [cDoRead_idle { s with cRd := some ⟨e, all, n, []⟩ } (.inr hw)]
    constructor <;> simp_all
  · skip
    have hs : s.stopped = false := by
      cases h : s.stopped with
      | false => rfl
      | true => simp [hw] at st; simp [h] at st
    have hv : s.vstopped = false := by
      cases h : s.vstopped with
      | false => rfl
      | true => simp [hw] at vst; simp [h] at vst
    rcases cDoRead_cases { s with cRd := some ⟨e, all, n, []⟩ } ⟨e, all, n, []⟩ w rfl hw
      with ⟨h1, h⟩ | ⟨h1, h2, h⟩ | ⟨h1, h2, h⟩
    all_goals
      rw [h]
      constructor <;> simp_all

theorem next_cwrite (s : St E) (e : E) (d : List UInt8) (aC dS aS dC : List UInt8)
    (hs : s.stopped = false) (hv : s.vstopped = false) (hc : s.cClosed = false) (hn : s.cWr = none) :
    Next s (.cWrite e d) aC dS aS dC (cDoWrite { s with cWr := some ⟨e, d⟩ }) := by
  intro hd
  obtain ⟨w1, w2, c1, c2, st, vst, d1, p1, d2, p2, cc, sc⟩ := hd
  have d1 := d1 hv
  have d2 := d2 hs hv
  rcases opt_cases s.sRd with hr | ⟨r, hr⟩
  · skip
    rw [cDoWrite_idle { s with cWr := some ⟨e, d⟩ } (.inl hr)]
    constructor <;> simp_all [acc, writeOf]
  · skip
    rcases cDoWrite_cases { s with cWr := some ⟨e, d⟩ } r ⟨e, d⟩ hr rfl
      (fun h => by simp [hc] at h) with ⟨h1, h⟩ | ⟨h1, h2, h3, h⟩ | ⟨h1, h2, h⟩
    all_goals
      rw [h]
      constructor <;> simp_all [acc, writeOf, isRefusal] <;>
        rw [← d1, List.append_assoc]

theorem next_write (s : St E) (e : E) (d : List UInt8) (aC dS aS dC : List UInt8)
    (hs : s.stopped = false) (hv : s.vstopped = false) (hc : s.sClosed = false) (hn : s.sWr = none) :
    Next s (.write e d) aC dS aS dC (cDoRead { s with sWr := some ⟨e, d⟩ }) := by
  intro hd
  obtain ⟨w1, w2, c1, c2, st, vst, d1, p1, d2, p2, cc, sc⟩ := hd
  have d1 := d1 hv
  have d2 := d2 hs hv
  rcases opt_cases s.cRd with hr | ⟨r, hr⟩
  · skip
    rw [cDoRead_idle { s with sWr := some ⟨e, d⟩ } (.inl hr)]
    constructor <;> simp_all [acc, writeOf]
  · skip
    rcases cDoRead_cases { s with sWr := some ⟨e, d⟩ } r ⟨e, d⟩ hr rfl
      with ⟨h1, h⟩ | ⟨h1, h2, h⟩ | ⟨h1, h2, h⟩
    all_goals
      rw [h]
      constructor <;> simp_all [acc, writeOf, isRefusal] <;>
        rw [← d2, List.append_assoc]

theorem next_close (s : St E) (e : E) (aC dS aS dC : List UInt8) :
    Next s (.close e) aC dS aS dC (step s (.close e)) := by
  simp only [step, close]
  split
  · exact next_answer _ _ _ _ _ _ _ _ _ (.inl rfl) rfl
  split
  · exact next_answer _ _ _ _ _ _ _ _ _ (.inl rfl) rfl
  split
  · intro hd
    obtain ⟨w1, w2, c1, c2, st, vst, d1, p1, d2, p2, cc, sc⟩ := hd
    constructor <;> simp_all [acc, writeOf]
    rcases w2 with h | h
    · exact h
    · simp_all
  · intro hd
    obtain ⟨w1, w2, c1, c2, st, vst, d1, p1, d2, p2, cc, sc⟩ := hd
    simp only [cResolveRead]
    constructor <;> simp_all [acc, writeOf]

theorem next_stop (s : St E) (aC dS aS dC : List UInt8) :
    Next s .stop aC dS aS dC (step s .stop) := by
  simp only [step, stop]
  split
  · intro hd; simpa [acc, writeOf] using hd
  · intro hd
    obtain ⟨w1, w2, c1, c2, st, vst, d1, p1, d2, p2, cc, sc⟩ := hd
    constructor <;> simp_all [acc, writeOf]
    cases hv : s.vstopped with
    | true => exact p2 hv
    | false => rw [← d2 hv, ← List.append_assoc]; exact List.prefix_append _ _

theorem next_cClose (s : St E) (e : E) (aC dS aS dC : List UInt8) :
    Next s (.cClose e) aC dS aS dC (step s (.cClose e)) := by
  simp only [step, cClose]
  split
  · intro hd
    obtain ⟨w1, w2, c1, c2, st, vst, d1, p1, d2, p2, cc, sc⟩ := hd
    constructor <;> simp_all [acc, writeOf]
    · rcases w1 with h | h
      · exact h
      · simp_all
    · cases h : s.vstopped with
      | false => rfl
      | true => have := vst h; simp_all
  · intro hd
    obtain ⟨w1, w2, c1, c2, st, vst, d1, p1, d2, p2, cc, sc⟩ := hd
    simp only [resolveRead]
    constructor <;> simp_all [acc, writeOf]

theorem next_cStop (s : St E) (aC dS aS dC : List UInt8) :
    Next s .cStop aC dS aS dC (step s .cStop) := by
  simp only [step, cStop]
  split
  · intro hd; simpa [acc, writeOf] using hd
  · intro hd
    obtain ⟨w1, w2, c1, c2, st, vst, d1, p1, d2, p2, cc, sc⟩ := hd
    constructor <;> simp_all [acc, writeOf]
    · rw [← d1, ← List.append_assoc]; exact List.prefix_append _ _
    · cases hv : s.stopped with
      | true => exact p2 hv
      | false => rw [← d2 hv, ← List.append_assoc]; exact List.prefix_append _ _

theorem next_step (s : St E) (op : Op E) (aC dS aS dC : List UInt8) :
    Next s op aC dS aS dC (step s op) := by
  cases op with
  | accept e => exact next_accept s e aC dS aS dC
  | readAll e n =>
    simp only [step, readAll]
    split
    · exact next_answer _ _ _ _ _ _ _ _ _ (.inl rfl) rfl
    split
    · exact next_answer _ _ _ _ _ _ _ _ _ (.inl rfl) rfl
    split
    · exact next_answer _ _ _ _ _ _ _ _ _ (.inr rfl) rfl
    · exact next_sread _ _ _ _ _ _ _ _ _ rfl (by simp_all) (by simp_all) (by simp_all) (by simp_all)
  | readSome e n =>
    simp only [step, readSome]
    split
    · exact next_answer _ _ _ _ _ _ _ _ _ (.inl rfl) rfl
    split
    · exact next_answer _ _ _ _ _ _ _ _ _ (.inl rfl) rfl
    split
    · exact next_answer _ _ _ _ _ _ _ _ _ (.inr rfl) rfl
    · rename_i h1 h2 h3
      refine next_sread _ _ _ _ _ _ _ _ _ rfl (by simp_all) (by simp_all) (by simp_all) ?_
      intro hc
      refine ⟨rfl, ?_⟩
      cases hw : s.cWr with
      | none => simp [hw, hc] at h3
      | some w => rfl
  | write e d =>
    simp only [step, write]
    split
    · exact next_answer _ _ _ _ _ _ _ _ _ (.inl rfl) rfl
    split
    · exact next_answer _ _ _ _ _ _ _ _ _ (.inl rfl) rfl
    split
    · exact next_answer _ _ _ _ _ _ _ _ _ (.inl rfl) rfl
    · exact next_write _ _ _ _ _ _ _ (by simp_all) (by simp_all) (by simp_all) (by simp_all)
  | close e => exact next_close s e aC dS aS dC
  | stop => exact next_stop s aC dS aS dC
  | cReadAll e n =>
    simp only [step, cReadAll]
    split
    · exact next_answer _ _ _ _ _ _ _ _ _ (.inl rfl) rfl
    split
    · exact next_answer _ _ _ _ _ _ _ _ _ (.inr rfl) rfl
    · exact next_cread _ _ _ _ _ _ _ _ _ rfl (by simp_all) (by simp_all)
  | cReadSome e n =>
    simp only [step, cReadSome]
    split
    · exact next_answer _ _ _ _ _ _ _ _ _ (.inl rfl) rfl
    split
    · exact next_answer _ _ _ _ _ _ _ _ _ (.inr rfl) rfl
    · exact next_cread _ _ _ _ _ _ _ _ _ rfl (by simp_all) (by simp_all)
  | cWrite e d =>
    simp only [step, cWrite]
    split
    · exact next_answer _ _ _ _ _ _ _ _ _ (.inl rfl) rfl
    split
    · exact next_answer _ _ _ _ _ _ _ _ _ (.inl rfl) rfl
    split
    · exact next_answer _ _ _ _ _ _ _ _ _ (.inl rfl) rfl
    · exact next_cwrite _ _ _ _ _ _ _ (by simp_all) (by simp_all) (by simp_all) (by simp_all)
  | cClose e => exact next_cClose s e aC dS aS dC
  | cStop => exact next_cStop s aC dS aS dC

/-! ### histories -/

/-- Only the operation itself is refused. -/
theorem step_refused (s : St E) (op : Op E) (x : Side × E) (h : x ∈ refused (step s op).2) :
    who op = some x := by
  have rr : ∀ s : St E, ∀ ec, isRefusal ec = false → refused (resolveRead s ec).2 = [] := by
    intro s ec h; exact refused_finishRd _ _ _ h
  have cr : ∀ s : St E, refused (cResolveRead s .eof).2 = [] := by
    intro s; exact refused_finishRd _ _ _ rfl
  have re : ∀ s : St E, refused (resolveRead s .eof).2 = [] := by
    intro s; exact refused_finishRd _ _ _ rfl
  have rw' : ∀ s : St E, refused (cResolveWrite s .ok).2 = [] := by
    intro s
    cases hr : s.sRd with
    | none => cases hc : s.cClosed <;> simp [cResolveWrite, hr, hc]
    | some r =>
      cases hc : s.cClosed <;> cases ha : r.all <;>
        simp [cResolveWrite, hr, hc, ha, isRefusal, resolveRead, finishRd]
  have dw : ∀ s : St E, refused (cDoWrite s).2 = [] := by
    intro s
    unfold cDoWrite
    split
    · dsimp only
      split
      · exact rr _ _ rfl
      · split
        · exact rw' _
        · simp only [refused_append, rw', List.append_nil]
          exact rr _ _ rfl
    · rfl
  have dr : ∀ s : St E, refused (cDoRead s).2 = [] := by
    intro s
    rcases opt_cases s.cRd with hr | ⟨r, hr⟩
    · rw [cDoRead_idle s (.inl hr)]; rfl
    · rcases opt_cases s.sWr with hw | ⟨w, hw⟩
      · rw [cDoRead_idle s (.inr hw)]; rfl
      · rcases cDoRead_cases s r w hr hw with ⟨_, h⟩ | ⟨_, _, h⟩ | ⟨_, _, h⟩ <;> rw [h] <;>
          cases s.sClosed <;> simp [isRefusal]
  have one : ∀ (sd : Side) (e : E) (ec : Ec), x ∈ refused [Out.done sd e ec []] → some (sd, e) = some x := by
    intro sd e ec h
    cases hec : isRefusal ec <;> simp [hec] at h
    rw [h]
  cases op with
  | accept e =>
    simp only [step, accept] at h
    split at h
    · exact one _ _ _ h
    · simp [isRefusal] at h
  | readAll e n =>
    simp only [step, readAll] at h
    split at h
    · exact one _ _ _ h
    split at h
    · exact one _ _ _ h
    split at h
    · exact one _ _ _ h
    · simp [dw] at h
  | readSome e n =>
    simp only [step, readSome] at h
    split at h
    · exact one _ _ _ h
    split at h
    · exact one _ _ _ h
    split at h
    · exact one _ _ _ h
    · simp [dw] at h
  | write e d =>
    simp only [step, write] at h
    split at h
    · exact one _ _ _ h
    split at h
    · exact one _ _ _ h
    split at h
    · exact one _ _ _ h
    · simp [dr] at h
  | close e =>
    simp only [step, close] at h
    split at h
    · exact one _ _ _ h
    split at h
    · exact one _ _ _ h
    split at h
    · simp at h
    · simp [cr] at h
  | stop =>
    simp only [step, stop] at h
    split at h
    · simp at h
    · simp at h
  | cReadAll e n =>
    simp only [step, cReadAll] at h
    split at h
    · exact one _ _ _ h
    split at h
    · exact one _ _ _ h
    · simp [dr] at h
  | cReadSome e n =>
    simp only [step, cReadSome] at h
    split at h
    · exact one _ _ _ h
    split at h
    · exact one _ _ _ h
    · simp [dr] at h
  | cWrite e d =>
    simp only [step, cWrite] at h
    split at h
    · exact one _ _ _ h
    split at h
    · exact one _ _ _ h
    split at h
    · exact one _ _ _ h
    · simp [dw] at h
  | cClose e =>
    simp only [step, cClose] at h
    split at h
    · simp at h
    · simp [re, isRefusal] at h
  | cStop =>
    simp only [step, cStop] at h
    split at h
    · simp at h
    · simp at h

theorem run_refused (s : St E) (ops : List (Op E)) (x : Side × E) (h : x ∈ refused (run s ops).2) :
    x ∈ ops.filterMap who := by
  induction ops generalizing s with
  | nil => simp at h
  | cons op ops ih =>
    rw [run_cons, refused_append, List.mem_append] at h
    rcases h with h | h
    · exact List.mem_filterMap.2 ⟨op, by simp, step_refused s op x h⟩
    · obtain ⟨o, ho, hx⟩ := List.mem_filterMap.1 (ih _ h)
      exact List.mem_filterMap.2 ⟨o, by simp [ho], hx⟩

omit [DecidableEq E] in
theorem distinct_init {e₀ : E} {ops : List (Op E)} {op : Op E} (h : Distinct e₀ (ops ++ [op])) :
    Distinct e₀ ops := by
  unfold Distinct at h ⊢
  rw [started_snoc] at h
  exact (List.nodup_append.1 h).1

omit [DecidableEq E] in
theorem distinct_fresh {e₀ : E} {ops : List (Op E)} {op : Op E} {x : Side × E}
    (h : Distinct e₀ (ops ++ [op])) (hw : who op = some x) : x ∉ ops.filterMap who := by
  unfold Distinct at h
  rw [started_snoc, hw] at h
  intro hm
  exact (List.nodup_append.1 h).2.2 x (List.mem_cons_of_mem _ hm) x (by simp) rfl

omit [DecidableEq E] in
theorem writeOf_who {op : Op E} {sd : Side} {e : E} {d : List UInt8} (h : writeOf op = some (sd, e, d)) :
    who op = some (sd, e) := by
  cases op <;> simp_all [writeOf, who]

theorem filterMap_eq {α β : Type} (l : List α) (f g : α → Option β) (h : ∀ a ∈ l, f a = g a) :
    l.filterMap f = l.filterMap g := by
  induction l with
  | nil => rfl
  | cons a l ih =>
    rw [List.filterMap_cons, List.filterMap_cons, h a (by simp), ih fun b hb => h b (by simp [hb])]

theorem accepted_snoc (e₀ : E) (ops : List (Op E)) (op : Op E) (hd : Distinct e₀ (ops ++ [op])) (sd : Side) :
    accepted sd (ops ++ [op]) (run (St.init e₀) (ops ++ [op])).2 =
      accepted sd ops (run (St.init e₀) ops).2 ++ acc sd op (step (run (St.init e₀) ops).1 op).2 := by
  rw [run_snoc]
  unfold accepted
  rw [List.filterMap_append, List.flatten_append]
  congr 1
  · congr 1
    apply filterMap_eq
    intro o ho
    cases hw : writeOf o with
    | none => rfl
    | some x =>
      obtain ⟨sd', e, d⟩ := x
      have hn : (sd', e) ∉ refused (step (run (St.init e₀) ops).1 op).2 := by
        intro hr
        exact distinct_fresh hd (step_refused _ _ _ hr) (List.mem_filterMap.2 ⟨o, ho, writeOf_who hw⟩)
      simp [hn]
  · cases hw : writeOf op with
    | none => simp [acc, hw]
    | some x =>
      obtain ⟨sd', e, d⟩ := x
      have hn : (sd', e) ∉ refused (run (St.init e₀) ops).2 := by
        intro hr
        exact distinct_fresh hd (writeOf_who hw) (run_refused _ _ _ hr)
      by_cases hc : sd' = sd ∧ (sd', e) ∉ refused (step (run (St.init e₀) ops).1 op).2
      · obtain ⟨rfl, h2⟩ := hc
        simp [acc, hw, hn, h2]
      · have hc' : ¬ (sd' = sd ∧ (sd', e) ∉ refused ((run (St.init e₀) ops).2 ++
            (step (run (St.init e₀) ops).1 op).2)) := by
          simpa [hn] using hc
        simp only [acc, hw, List.filterMap_cons, List.filterMap_nil, hc, hc', if_false, List.flatten_nil]

/-- The facts hold after every history. -/
theorem run_data (e₀ : E) (ops : List (Op E)) (hd : Distinct e₀ ops) :
    Data (run (St.init e₀) ops).1
      (accepted .client ops (run (St.init e₀) ops).2) (delivered .server (run (St.init e₀) ops).2)
      (accepted .server ops (run (St.init e₀) ops).2) (delivered .client (run (St.init e₀) ops).2) := by
  induction ops using run_ind with
  | h0 => exact Data.init e₀
  | h1 ops op ih =>
    have := next_step _ op _ _ _ _ (ih (distinct_init hd))
    rw [accepted_snoc e₀ ops op hd, accepted_snoc e₀ ops op hd]
    rw [run_snoc, delivered_append, delivered_append]
    exact this

end Verif.Stream.Virtual
