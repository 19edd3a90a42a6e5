import Verif.Stream.OpsLemmas

/-!
# The bytes of the operations on a stream (lemmas, C45, C80)
-/

namespace Verif.Stream

open Spec

variable {E : Type} [DecidableEq E]

theorem takenFor_append (e : E) (a b : List (Out E)) :
    takenFor e (a ++ b) = takenFor e a ++ takenFor e b := by
  induction a with
  | nil => rfl
  | cons o a ih =>
    cases o <;> simp only [List.cons_append, takenFor, ih]
    split <;> simp [List.append_assoc]

theorem putFor_append (e : E) (a b : List (Out E)) : putFor e (a ++ b) = putFor e a ++ putFor e b := by
  induction a with
  | nil => rfl
  | cons o a ih =>
    cases o <;> simp only [List.cons_append, putFor, ih]
    split <;> simp [List.append_assoc]

omit [DecidableEq E] in
theorem taken_append (a b : List (Out E)) : taken (a ++ b) = taken a ++ taken b := by
  induction a with
  | nil => rfl
  | cons o a ih => cases o <;> simp [taken, ih]

omit [DecidableEq E] in
theorem delivered_append (a b : List (Out E)) : delivered (a ++ b) = delivered a ++ delivered b := by
  induction a with
  | nil => rfl
  | cons o a ih => cases o <;> simp [delivered, ih]

/-- What the completion of an operation promises. -/
def Fits (ops : List (Op E)) (os : List (Out E)) (e : E) (ec : Ec) (g : List UInt8) : Prop :=
  takenFor e os = g ∧
  ((∃ n r, .readAll e n r ∈ ops ∧ g.length ≤ n ∧ (ec = .ok → g.length = n)) ∨
   (∃ n r, .readSome e n r ∈ ops ∧ g.length ≤ n ∧ (ec = .ok → g ≠ []) ∧
      (ec ≠ .ok → g = [])) ∨
   (∃ d w, .write e d w ∈ ops ∧ g = [] ∧ putFor e os <+: d ∧ (ec = .ok → putFor e os = d)) ∨
   ((.accept e ∈ ops ∨ ∃ st, .close e st ∈ ops) ∧ g = []))

/-- The state agrees with the history. -/
structure Book (ops : List (Op E)) (s : St E) (os : List (Out E)) : Prop where
  nodup : (started ops).Nodup
  one : s.readAllEv = none ∨ s.readSomeEv = none
  cons : ∀ e, (completed os).count e + cnt s e = (started ops).count e
  known : ∀ e, takenFor e os ≠ [] ∨ putFor e os ≠ [] → e ∈ started ops
  acc : ∀ e, s.acceptEv = some e → .accept e ∈ ops ∧ takenFor e os = []
  ra : ∀ e, s.readAllEv = some e → takenFor e os = s.got ∧
    ∃ n r, .readAll e n r ∈ ops ∧ s.got.length + s.readLeft = n
  rs : ∀ e, s.readSomeEv = some e → takenFor e os = [] ∧ s.got = [] ∧
    ∃ n r, .readSome e n r ∈ ops ∧ s.readLeft = n
  wr : ∀ e, s.writeEv = some e → takenFor e os = [] ∧
    ∃ d w, .write e d w ∈ ops ∧ putFor e os ++ s.writeLeft = d
  cl : ∀ e, s.closeEv = some e → takenFor e os = [] ∧ ∃ st, .close e st ∈ ops
  fits : ∀ e ec g, .done e ec g ∈ os → Fits ops os e ec g

theorem Book.lt {ops : List (Op E)} {s : St E} {os : List (Out E)} (h : Book ops s os) (e : E) :
    (completed os).count e + cnt s e ≤ 1 := by
  rw [h.cons e]; exact List.nodup_iff_count.1 h.nodup e

theorem mem_completed {e : E} {ec : Ec} {g : List UInt8} {os : List (Out E)}
    (h : Out.done e ec g ∈ os) : e ∈ completed os :=
  List.mem_filterMap.2 ⟨_, h, rfl⟩

/-- A waiting operation has not been completed. -/
theorem Book.fresh {ops : List (Op E)} {s : St E} {os : List (Out E)} (h : Book ops s os) {e : E}
    {ec : Ec} {g : List UInt8} (hd : Out.done e ec g ∈ os) : cnt s e = 0 := by
  have := h.lt e
  have : 0 < (completed os).count e := List.count_pos_iff.2 (mem_completed hd)
  omega

/-- What `doRead` can do. -/
inductive RdShape (s : St E) : St E × List (Out E) → Prop where
  | same : RdShape s (s, [])
  | part (e : E) (b : List UInt8) (h : s.readAllEv = some e) (hl : b.length < s.readLeft) :
      RdShape s (note s b, [.take e b])
  | all (e : E) (b : List UInt8) (h : s.readAllEv = some e) (hl : b.length = s.readLeft) :
      RdShape s ({ s with readAllEv := none, readLeft := 0, got := [] },
        [.take e b, .done e .ok (s.got ++ b)])
  | some (e : E) (b : List UInt8) (h0 : s.readAllEv = none) (h : s.readSomeEv = some e) (hb : b ≠ [])
      (hl : b.length ≤ s.readLeft) :
      RdShape s ({ s with readSomeEv := none, readLeft := 0, got := [] },
        [.take e b, .done e .ok (s.got ++ b)])
  | errAll (e : E) (ec : Ec) (h : s.readAllEv = some e) (hc : ec ≠ .ok) :
      RdShape s ({ s with readAllEv := none, readLeft := 0, got := [] }, [.done e ec s.got])
  | errSome (e : E) (ec : Ec) (h0 : s.readAllEv = none) (h : s.readSomeEv = some e) (hc : ec ≠ .ok) :
      RdShape s ({ s with readSomeEv := none, readLeft := 0, got := [] }, [.done e ec s.got])

theorem toEc_ne {st : Status} (h : st ≠ .ok) : st.toEc ≠ .ok := by
  cases st <;> simp_all [Status.toEc]

omit [DecidableEq E] in
theorem doRead_shape (s : St E) (r : Rd) : RdShape s (doRead s r) := by
  have hlen : (r.bytes.take s.readLeft).length ≤ s.readLeft := by simp [List.length_take]; omega
  unfold doRead
  split
  · rename_i e he
    split
    · dsimp only
      split
      · exact .same
      · split
        · rename_i hz
          have : (r.bytes.take s.readLeft).length = s.readLeft := by simp only [note] at hz; omega
          have h := RdShape.all (s := s) e _ he this
          simpa [resolveRead, note, he] using h
        · rename_i hz
          exact .part e _ he (by simp only [note] at hz; omega)
    · rename_i hs
      have h := RdShape.errAll (s := s) e _ he (toEc_ne hs)
      simpa [resolveRead, he] using h
  · rename_i he
    split
    · rename_i e he'
      split
      · dsimp only
        split
        · exact .same
        · rename_i hb
          have h := RdShape.some (s := s) e _ he he' hb hlen
          simpa [resolveRead, note, he, he'] using h
      · rename_i hs
        have h := RdShape.errSome (s := s) e _ he he' (toEc_ne hs)
        simpa [resolveRead, he, he'] using h
    · exact .same

/-- What `doWriteAll` can do. -/
inductive WrShape (s : St E) : St E × List (Out E) → Prop where
  | same : WrShape s (s, [])
  | part (e : E) (b c : List UInt8) (h : s.writeEv = some e) (hb : s.writeLeft = b ++ c) :
      WrShape s ({ s with writeLeft := c }, [.put e b])
  | all (e : E) (h : s.writeEv = some e) :
      WrShape s ({ s with writeEv := none }, [.put e s.writeLeft, .done e .ok []])
  | err (e : E) (ec : Ec) (h : s.writeEv = some e) (hc : ec ≠ .ok) :
      WrShape s ({ s with writeEv := none }, [.done e ec []])

omit [DecidableEq E] in
theorem doWriteAll_shape (s : St E) (w : Wr) : WrShape s (doWriteAll s w) := by
  unfold doWriteAll
  split
  · exact .same
  · rename_i e he
    split
    · dsimp only
      split
      · exact .same
      · split
        · rename_i hl
          have : s.writeLeft.take w.room = s.writeLeft := by
            apply List.take_of_length_le
            rw [List.length_take] at hl; omega
          rw [this]; exact .all e he
        · refine .part e _ _ he ?_
          rw [List.length_take]
          rcases Nat.le_total w.room s.writeLeft.length with h | h
          · rw [Nat.min_eq_left h, List.take_append_drop]
          · rw [Nat.min_eq_right h, List.take_of_length_le h, List.drop_length, List.append_nil]
    · rename_i hs
      exact .err e _ he (toEc_ne hs)

/-- Outputs which only concern one waiting operation leave the books of the others alone. -/
theorem Book.extend {ops : List (Op E)} {s s' : St E} {os o : List (Out E)} (h : Book ops s os) (e : E)
    (hk : Keeps s (s', o)) (he : 0 < cnt s e)
    (ht : ∀ e', e' ≠ e → takenFor e' o = [] ∧ putFor e' o = [])
    (hacc : ∀ e', s'.acceptEv = some e' → s.acceptEv = some e' ∧ (e' = e → takenFor e' o = []))
    (hra : ∀ e', s'.readAllEv = some e' → (e' = e → takenFor e' os ++ takenFor e' o = s'.got) ∧
      (e' ≠ e → s.readAllEv = some e' ∧ s'.got = s.got) ∧
      ∃ n r, .readAll e' n r ∈ ops ∧ s'.got.length + s'.readLeft = n)
    (hrs : ∀ e', s'.readSomeEv = some e' → e' ≠ e ∧ s.readSomeEv = some e' ∧ s'.got = s.got ∧
      s'.readLeft = s.readLeft)
    (hwr : ∀ e', s'.writeEv = some e' → (e' = e → takenFor e' o = []) ∧ s.writeEv = some e' ∧
      (e' ≠ e → s'.writeLeft = s.writeLeft) ∧
      (e' = e → putFor e' o ++ s'.writeLeft = s.writeLeft))
    (hcl : ∀ e', s'.closeEv = some e' → s.closeEv = some e' ∧ (e' = e → takenFor e' o = []))
    (hf : ∀ e' ec g, .done e' ec g ∈ o → Fits ops (os ++ o) e' ec g) :
    Book ops s' (os ++ o) := by
  have hold : ∀ e', e' ≠ e → takenFor e' (os ++ o) = takenFor e' os ∧
      putFor e' (os ++ o) = putFor e' os := by
    intro e' hn
    rw [takenFor_append, putFor_append, (ht e' hn).1, (ht e' hn).2]; simp
  refine ⟨h.nodup, hk.one h.one, fun e' => ?_, fun e' hh => ?_, fun e' hs => ?_, fun e' hs => ?_,
    fun e' hs => ?_, fun e' hs => ?_, fun e' hs => ?_, fun e' ec g hd => ?_⟩
  · rw [completed_append, List.count_append, ← h.cons e', ← hk.count e']; dsimp only; omega
  · by_cases hn : e' = e
    · subst hn
      have := h.cons e'
      exact List.count_pos_iff.1 (by omega)
    · rw [(hold e' hn).1, (hold e' hn).2] at hh
      exact h.known e' hh
  · obtain ⟨a, b⟩ := hacc e' hs
    refine ⟨(h.acc e' a).1, ?_⟩
    rw [takenFor_append, (h.acc e' a).2]
    by_cases hn : e' = e
    · simp [b hn]
    · simp [(ht e' hn).1]
  · obtain ⟨a, b, c⟩ := hra e' hs
    refine ⟨?_, c⟩
    by_cases hn : e' = e
    · rw [takenFor_append]; exact a hn
    · obtain ⟨b1, b2⟩ := b hn
      rw [(hold e' hn).1, (h.ra e' b1).1, b2]
  · obtain ⟨a, b, c, d⟩ := hrs e' hs
    obtain ⟨x, y, n, r, z, t⟩ := h.rs e' b
    exact ⟨by rw [(hold e' a).1, x], by rw [c, y], n, r, z, by rw [d, t]⟩
  · obtain ⟨a, b, c, d⟩ := hwr e' hs
    obtain ⟨x, dd, w, y, z⟩ := h.wr e' b
    refine ⟨?_, dd, w, y, ?_⟩
    · rw [takenFor_append, x]
      by_cases hn : e' = e
      · simp [a hn]
      · simp [(ht e' hn).1]
    · by_cases hn : e' = e
      · rw [putFor_append, List.append_assoc, d hn, z]
      · rw [(hold e' hn).2, c hn, z]
  · obtain ⟨a, b⟩ := hcl e' hs
    refine ⟨?_, (h.cl e' a).2⟩
    rw [takenFor_append, (h.cl e' a).1]
    by_cases hn : e' = e
    · simp [b hn]
    · simp [(ht e' hn).1]
  · rcases List.mem_append.1 hd with hd | hd
    · have hn : e' ≠ e := by
        rintro rfl
        have := h.fresh hd
        omega
      have hfit := h.fits e' ec g hd
      unfold Fits at *
      rw [(hold e' hn).1, (hold e' hn).2]
      exact hfit
    · exact hf e' ec g hd

/-- Two places hold different operations. -/
theorem Book.apart {ops : List (Op E)} {s : St E} {os : List (Out E)} (h : Book ops s os) (e : E) :
    s.acceptEv.toList.count e + s.readAllEv.toList.count e + s.readSomeEv.toList.count e +
      s.writeEv.toList.count e + s.closeEv.toList.count e ≤ 1 := by
  have := h.lt e
  rw [cnt_eq] at this
  omega

theorem toList_count_self {o : Option E} {e : E} (h : o = some e) : o.toList.count e = 1 := by
  subst h; simp

/-- The books do not depend on the flags of the stream. -/
theorem Book.flags {ops : List (Op E)} {s s' : St E} {os : List (Out E)} (h : Book ops s os)
    (ha : s'.acceptEv = s.acceptEv) (hra : s'.readAllEv = s.readAllEv)
    (hrs : s'.readSomeEv = s.readSomeEv) (hl : s'.readLeft = s.readLeft) (hg : s'.got = s.got)
    (hw : s'.writeEv = s.writeEv) (hwl : s'.writeLeft = s.writeLeft) (hc : s'.closeEv = s.closeEv) :
    Book ops s' os := by
  obtain ⟨a, b, c, d, e, f, g, i, j, k⟩ := h
  simp only [cnt_eq] at c
  constructor <;> (try simp only [cnt_eq, ha, hra, hrs, hl, hg, hw, hwl, hc]) <;> assumption

theorem doRead_book {ops : List (Op E)} {s : St E} {os : List (Out E)} (h : Book ops s os) (r : Rd) :
    Book ops (doRead s r).1 (os ++ (doRead s r).2) := by
  have hk := doRead_keeps s r
  have hs := doRead_shape s r
  generalize doRead s r = res at hk hs
  cases hs with
  | same => simpa using h
  | part e b he hl =>
    obtain ⟨h1, n, r', h2, h3⟩ := h.ra e he
    have hap := h.apart e
    rw [toList_count_self he] at hap
    refine h.extend e hk (by rw [cnt_eq, toList_count_self he]; omega) ?_ ?_ ?_ ?_ ?_ ?_ ?_
    · intro e' hn; simp [takenFor, putFor, Ne.symm hn]
    · intro e' ha; refine ⟨ha, ?_⟩; rintro rfl
      have ha : s.acceptEv = some e' := ha
      rw [toList_count_self ha] at hap; omega
    · intro e' ha
      have ha : s.readAllEv = some e' := ha
      have : e' = e := by rw [he] at ha; exact (Option.some.inj ha).symm
      subst this
      refine ⟨fun _ => by simp [takenFor, h1, note], fun hn => absurd rfl hn, n, r', h2, ?_⟩
      simp [note]; omega
    · intro e' ha
      have ha : s.readSomeEv = some e' := ha
      rcases h.one with h' | h'
      · rw [h'] at he; cases he
      · rw [h'] at ha; cases ha
    · intro e' ha
      replace ha : s.writeEv = some e' := ha
      have hn : e' ≠ e := by rintro rfl; rw [toList_count_self ha] at hap; omega
      exact ⟨fun hh => absurd hh hn, ha, fun _ => rfl, fun hh => absurd hh hn⟩
    · intro e' ha; refine ⟨ha, ?_⟩; rintro rfl
      have ha : s.closeEv = some e' := ha
      rw [toList_count_self ha] at hap; omega
    · intro e' ec g hd; simp at hd
  | all e b he hl =>
    obtain ⟨h1, n, r', h2, h3⟩ := h.ra e he
    have hap := h.apart e
    rw [toList_count_self he] at hap
    refine h.extend e hk (by rw [cnt_eq, toList_count_self he]; omega) ?_ ?_ ?_ ?_ ?_ ?_ ?_
    · intro e' hn; simp [takenFor, putFor, Ne.symm hn]
    · intro e' ha; refine ⟨ha, ?_⟩; rintro rfl
      have ha : s.acceptEv = some e' := ha
      rw [toList_count_self ha] at hap; omega
    · intro e' ha; simp at ha
    · intro e' ha
      have ha : s.readSomeEv = some e' := ha
      rcases h.one with h' | h'
      · rw [h'] at he; cases he
      · rw [h'] at ha; cases ha
    · intro e' ha
      replace ha : s.writeEv = some e' := ha
      have hn : e' ≠ e := by rintro rfl; rw [toList_count_self ha] at hap; omega
      exact ⟨fun hh => absurd hh hn, ha, fun _ => rfl, fun hh => absurd hh hn⟩
    · intro e' ha; refine ⟨ha, ?_⟩; rintro rfl
      have ha : s.closeEv = some e' := ha
      rw [toList_count_self ha] at hap; omega
    · intro e' ec g hd
      simp at hd
      obtain ⟨rfl, rfl, rfl⟩ := hd
      refine ⟨by simp [takenFor_append, h1, takenFor], .inl ⟨n, r', h2, ?_, fun _ => ?_⟩⟩ <;>
        simp <;> omega
  | some e b he0 he hb hl =>
    obtain ⟨h1, h0, n, r', h2, h3⟩ := h.rs e he
    have hap := h.apart e
    rw [toList_count_self he] at hap
    refine h.extend e hk (by rw [cnt_eq, toList_count_self he]; omega) ?_ ?_ ?_ ?_ ?_ ?_ ?_
    · intro e' hn; simp [takenFor, putFor, Ne.symm hn]
    · intro e' ha; refine ⟨ha, ?_⟩; rintro rfl
      have ha : s.acceptEv = some e' := ha
      rw [toList_count_self ha] at hap; omega
    · intro e' ha
      have ha : s.readAllEv = some e' := ha
      rw [he0] at ha; cases ha
    · intro e' ha; simp at ha
    · intro e' ha
      replace ha : s.writeEv = some e' := ha
      have hn : e' ≠ e := by rintro rfl; rw [toList_count_self ha] at hap; omega
      exact ⟨fun hh => absurd hh hn, ha, fun _ => rfl, fun hh => absurd hh hn⟩
    · intro e' ha; refine ⟨ha, ?_⟩; rintro rfl
      have ha : s.closeEv = some e' := ha
      rw [toList_count_self ha] at hap; omega
    · intro e' ec g hd
      simp at hd
      obtain ⟨rfl, rfl, rfl⟩ := hd
      refine ⟨by simp [takenFor_append, h1, h0, takenFor], .inr (.inl ⟨n, r', h2, ?_, fun _ => ?_,
        fun hn => absurd rfl hn⟩)⟩
      · simp [h0]; omega
      · simp [hb]
  | errAll e ec he hc =>
    obtain ⟨h1, n, r', h2, h3⟩ := h.ra e he
    have hap := h.apart e
    rw [toList_count_self he] at hap
    refine h.extend e hk (by rw [cnt_eq, toList_count_self he]; omega) ?_ ?_ ?_ ?_ ?_ ?_ ?_
    · intro e' hn; simp [takenFor, putFor]
    · intro e' ha; exact ⟨ha, fun _ => rfl⟩
    · intro e' ha; simp at ha
    · intro e' ha
      have ha : s.readSomeEv = some e' := ha
      rcases h.one with h' | h'
      · rw [h'] at he; cases he
      · rw [h'] at ha; cases ha
    · intro e' ha
      exact ⟨fun _ => rfl, ha, fun _ => rfl, fun _ => rfl⟩
    · intro e' ha; exact ⟨ha, fun _ => rfl⟩
    · intro e' ec' g hd
      simp at hd
      obtain ⟨rfl, rfl, rfl⟩ := hd
      exact ⟨by simp [takenFor_append, h1, takenFor], .inl ⟨n, r', h2, by omega, fun hh => absurd hh hc⟩⟩
  | errSome e ec he0 he hc =>
    obtain ⟨h1, h0, n, r', h2, h3⟩ := h.rs e he
    refine h.extend e hk (by rw [cnt_eq, toList_count_self he]; omega) ?_ ?_ ?_ ?_ ?_ ?_ ?_
    · intro e' hn; simp [takenFor, putFor]
    · intro e' ha; exact ⟨ha, fun _ => rfl⟩
    · intro e' ha
      have ha : s.readAllEv = some e' := ha
      rw [he0] at ha; cases ha
    · intro e' ha; simp at ha
    · intro e' ha
      exact ⟨fun _ => rfl, ha, fun _ => rfl, fun _ => rfl⟩
    · intro e' ha; exact ⟨ha, fun _ => rfl⟩
    · intro e' ec' g hd
      simp at hd
      obtain ⟨rfl, rfl, rfl⟩ := hd
      exact ⟨by simp [takenFor_append, h1, h0, takenFor], .inr (.inl ⟨n, r', h2, by simp [h0],
        fun hh => absurd hh hc, fun _ => h0⟩)⟩

theorem doWriteAll_book {ops : List (Op E)} {s : St E} {os : List (Out E)} (h : Book ops s os) (w : Wr) :
    Book ops (doWriteAll s w).1 (os ++ (doWriteAll s w).2) := by
  have hk := doWriteAll_keeps s w
  have hs := doWriteAll_shape s w
  generalize doWriteAll s w = res at hk hs
  have hread : ∀ e, s.writeEv = some e → ∀ e', s.readAllEv = some e' → e' ≠ e := by
    rintro e he e' ha rfl
    have hap := h.apart e'
    rw [toList_count_self he, toList_count_self ha] at hap; omega
  have hread' : ∀ e, s.writeEv = some e → ∀ e', s.readSomeEv = some e' → e' ≠ e := by
    rintro e he e' ha rfl
    have hap := h.apart e'
    rw [toList_count_self he, toList_count_self ha] at hap; omega
  cases hs with
  | same => simpa using h
  | part e b c he hb =>
    refine h.extend e hk (by rw [cnt_eq, toList_count_self he]; omega) ?_ ?_ ?_ ?_ ?_ ?_ ?_
    · intro e' hn; simp [takenFor, putFor, Ne.symm hn]
    · intro e' ha; exact ⟨ha, fun _ => rfl⟩
    · intro e' ha
      have hn := hread e he e' ha
      exact ⟨fun hh => absurd hh hn, fun _ => ⟨ha, rfl⟩, (h.ra e' ha).2⟩
    · intro e' ha
      exact ⟨hread' e he e' ha, ha, rfl, rfl⟩
    · intro e' ha
      have ha : s.writeEv = some e' := ha
      have : e' = e := by rw [he] at ha; exact (Option.some.inj ha).symm
      subst this
      exact ⟨fun _ => rfl, ha, fun hn => absurd rfl hn, fun _ => by simp [putFor, hb]⟩
    · intro e' ha; exact ⟨ha, fun _ => rfl⟩
    · intro e' ec g hd; simp at hd
  | all e he =>
    obtain ⟨h1, d, w', h2, h3⟩ := h.wr e he
    refine h.extend e hk (by rw [cnt_eq, toList_count_self he]; omega) ?_ ?_ ?_ ?_ ?_ ?_ ?_
    · intro e' hn; simp [takenFor, putFor, Ne.symm hn]
    · intro e' ha; exact ⟨ha, fun _ => rfl⟩
    · intro e' ha
      have hn := hread e he e' ha
      exact ⟨fun hh => absurd hh hn, fun _ => ⟨ha, rfl⟩, (h.ra e' ha).2⟩
    · intro e' ha
      exact ⟨hread' e he e' ha, ha, rfl, rfl⟩
    · intro e' ha; simp at ha
    · intro e' ha; exact ⟨ha, fun _ => rfl⟩
    · intro e' ec g hd
      simp at hd
      obtain ⟨rfl, rfl, rfl⟩ := hd
      exact ⟨by simp [takenFor_append, h1, takenFor], .inr (.inr (.inl ⟨d, w', h2, rfl,
        ⟨[], by simp [putFor_append, putFor, h3]⟩, fun _ => by simp [putFor_append, putFor, h3]⟩))⟩
  | err e ec he hc =>
    obtain ⟨h1, d, w', h2, h3⟩ := h.wr e he
    refine h.extend e hk (by rw [cnt_eq, toList_count_self he]; omega) ?_ ?_ ?_ ?_ ?_ ?_ ?_
    · intro e' hn; simp [takenFor, putFor]
    · intro e' ha; exact ⟨ha, fun _ => rfl⟩
    · intro e' ha
      have hn := hread e he e' ha
      exact ⟨fun hh => absurd hh hn, fun _ => ⟨ha, rfl⟩, (h.ra e' ha).2⟩
    · intro e' ha
      exact ⟨hread' e he e' ha, ha, rfl, rfl⟩
    · intro e' ha; simp at ha
    · intro e' ha; exact ⟨ha, fun _ => rfl⟩
    · intro e' ec g hd
      simp at hd
      obtain ⟨rfl, rfl, rfl⟩ := hd
      exact ⟨by simp [takenFor_append, h1, takenFor], .inr (.inr (.inl ⟨d, w', h2, rfl,
        ⟨s.writeLeft, by simp [putFor_append, putFor, h3]⟩, fun hh => absurd hh hc⟩))⟩

theorem accept_book {ops : List (Op E)} {s : St E} {os : List (Out E)} (h : Book ops s os) (ec : Ec) :
    Book ops { s with acceptEv := none } (os ++ finish s.acceptEv ec) := by
  cases he : s.acceptEv with
  | none =>
    rw [finish, List.append_nil]
    exact h.flags (by simp [he]) rfl rfl rfl rfl rfl rfl rfl
  | some e =>
    obtain ⟨h2, h1⟩ := h.acc e he
    have hap := h.apart e
    rw [toList_count_self he] at hap
    have hno : ∀ o : Option E, o.toList.count e = 0 → o ≠ some e := by
      rintro o ho rfl; simp at ho
    refine h.extend e ⟨fun e' => ?_, rfl, id⟩ (by rw [cnt_eq, toList_count_self he]; omega)
      ?_ ?_ ?_ ?_ ?_ ?_ ?_
    · simp [cnt_eq, he, finish, List.count_cons]; omega
    · intro e' hn; simp [takenFor, putFor, finish]
    · intro e' ha; simp at ha
    · intro e' ha
      have ha : s.readAllEv = some e' := ha
      have hn : e' ≠ e := by rintro rfl; rw [toList_count_self ha] at hap; omega
      exact ⟨fun hh => absurd hh hn, fun _ => ⟨ha, rfl⟩, (h.ra e' ha).2⟩
    · intro e' ha
      have ha : s.readSomeEv = some e' := ha
      have hn : e' ≠ e := by rintro rfl; rw [toList_count_self ha] at hap; omega
      exact ⟨hn, ha, rfl, rfl⟩
    · intro e' ha
      exact ⟨fun _ => rfl, ha, fun _ => rfl, fun _ => rfl⟩
    · intro e' ha; exact ⟨ha, fun _ => rfl⟩
    · intro e' ec g hd
      simp [finish] at hd
      obtain ⟨rfl, rfl, rfl⟩ := hd
      exact ⟨by simp [takenFor_append, h1, takenFor, finish], .inr (.inr (.inr ⟨.inl h2, rfl⟩))⟩

theorem close_book {ops : List (Op E)} {s : St E} {os : List (Out E)} (h : Book ops s os) (ec : Ec) :
    Book ops { s with closeEv := none } (os ++ finish s.closeEv ec) := by
  cases he : s.closeEv with
  | none =>
    rw [finish, List.append_nil]
    exact h.flags rfl rfl rfl rfl rfl rfl rfl (by simp [he])
  | some e =>
    obtain ⟨h1, h2⟩ := h.cl e he
    have hap := h.apart e
    rw [toList_count_self he] at hap
    refine h.extend e ⟨fun e' => ?_, rfl, id⟩ (by rw [cnt_eq, toList_count_self he]; omega)
      ?_ ?_ ?_ ?_ ?_ ?_ ?_
    · simp [cnt_eq, he, finish, List.count_cons]; omega
    · intro e' hn; simp [takenFor, putFor, finish]
    · intro e' ha; exact ⟨ha, fun _ => rfl⟩
    · intro e' ha
      have ha : s.readAllEv = some e' := ha
      have hn : e' ≠ e := by rintro rfl; rw [toList_count_self ha] at hap; omega
      exact ⟨fun hh => absurd hh hn, fun _ => ⟨ha, rfl⟩, (h.ra e' ha).2⟩
    · intro e' ha
      have ha : s.readSomeEv = some e' := ha
      have hn : e' ≠ e := by rintro rfl; rw [toList_count_self ha] at hap; omega
      exact ⟨hn, ha, rfl, rfl⟩
    · intro e' ha
      exact ⟨fun _ => rfl, ha, fun _ => rfl, fun _ => rfl⟩
    · intro e' ha; simp at ha
    · intro e' ec g hd
      simp [finish] at hd
      obtain ⟨rfl, rfl, rfl⟩ := hd
      exact ⟨by simp [takenFor_append, h1, takenFor, finish], .inr (.inr (.inr ⟨.inr h2, rfl⟩))⟩

/-- An output which does not concern an operation. -/
theorem Book.silent {ops : List (Op E)} {s : St E} {os : List (Out E)} (h : Book ops s os)
    (o : Out E) (ho : o = .accept ∨ o = .close ∨ o = .rst) : Book ops s (os ++ [o]) := by
  obtain ⟨a, b, c, d, e, f, g, i, j, k⟩ := h
  have h1 : ∀ x, takenFor x (os ++ [o]) = takenFor x os := by
    intro x; rw [takenFor_append]; rcases ho with rfl | rfl | rfl <;> simp [takenFor]
  have h2 : ∀ x, putFor x (os ++ [o]) = putFor x os := by
    intro x; rw [putFor_append]; rcases ho with rfl | rfl | rfl <;> simp [putFor]
  have h3 : completed (os ++ [o]) = completed os := by
    rw [completed_append]; rcases ho with rfl | rfl | rfl <;> simp
  constructor <;> (try simp only [h1, h2, h3, Fits]) <;> try assumption
  intro x ec y hx
  have : Out.done x ec y ∈ os := by
    rcases List.mem_append.1 hx with hx | hx
    · exact hx
    · rcases ho with rfl | rfl | rfl <;> simp at hx
  exact k x ec y this

/-- The books without the slots of reads and writes: used when a stream is stopped. -/
theorem abort_book {ops : List (Op E)} {s : St E} {os : List (Out E)} (h : Book ops s os) (o : List (Out E))
    (e : E) (g : List UInt8)
    (ho : o = [.done e .aborted g])
    (s' : St E) (he : (s.readAllEv = some e ∧ s.got = g ∧ s' = { s with readAllEv := none }) ∨
      (s.readSomeEv = some e ∧ s.got = g ∧ s' = { s with readSomeEv := none }) ∨
      (s.writeEv = some e ∧ g = [] ∧ s' = { s with writeEv := none })) :
    Book ops s' (os ++ o) := by
  subst ho
  rcases he with ⟨he, rfl, rfl⟩ | ⟨he, rfl, rfl⟩ | ⟨he, rfl, rfl⟩
  · obtain ⟨h1, n, r', h2, h3⟩ := h.ra e he
    refine h.extend e ⟨fun e' => ?_, rfl, fun _ => .inl rfl⟩
      (by rw [cnt_eq, toList_count_self he]; omega) ?_ ?_ ?_ ?_ ?_ ?_ ?_
    · simp [cnt_eq, he, List.count_cons]; omega
    · intro e' hn; simp [takenFor, putFor]
    · intro e' ha; exact ⟨ha, fun _ => rfl⟩
    · intro e' ha; simp at ha
    · intro e' ha
      have ha : s.readSomeEv = some e' := ha
      rcases h.one with h' | h'
      · rw [h'] at he; cases he
      · rw [h'] at ha; cases ha
    · intro e' ha; exact ⟨fun _ => rfl, ha, fun _ => rfl, fun _ => rfl⟩
    · intro e' ha; exact ⟨ha, fun _ => rfl⟩
    · intro e' ec' g hd
      simp at hd
      obtain ⟨rfl, rfl, rfl⟩ := hd
      exact ⟨by simp [takenFor_append, h1, takenFor], .inl ⟨n, r', h2, by omega, fun hh => by cases hh⟩⟩
  · obtain ⟨h1, h0, n, r', h2, h3⟩ := h.rs e he
    refine h.extend e ⟨fun e' => ?_, rfl, fun _ => .inr rfl⟩
      (by rw [cnt_eq, toList_count_self he]; omega) ?_ ?_ ?_ ?_ ?_ ?_ ?_
    · simp [cnt_eq, he, List.count_cons]; omega
    · intro e' hn; simp [takenFor, putFor]
    · intro e' ha; exact ⟨ha, fun _ => rfl⟩
    · intro e' ha
      have ha : s.readAllEv = some e' := ha
      rcases h.one with h' | h'
      · rw [h'] at ha; cases ha
      · rw [h'] at he; cases he
    · intro e' ha; simp at ha
    · intro e' ha; exact ⟨fun _ => rfl, ha, fun _ => rfl, fun _ => rfl⟩
    · intro e' ha; exact ⟨ha, fun _ => rfl⟩
    · intro e' ec' g hd
      simp at hd
      obtain ⟨rfl, rfl, rfl⟩ := hd
      exact ⟨by simp [takenFor_append, h1, h0, takenFor], .inr (.inl ⟨n, r', h2, by simp [h0],
        (fun hh => by cases hh), fun _ => h0⟩)⟩
  · obtain ⟨h1, d, w', h2, h3⟩ := h.wr e he
    have hap := h.apart e
    rw [toList_count_self he] at hap
    refine h.extend e ⟨fun e' => ?_, rfl, id⟩
      (by rw [cnt_eq, toList_count_self he]; omega) ?_ ?_ ?_ ?_ ?_ ?_ ?_
    · simp [cnt_eq, he, List.count_cons]; omega
    · intro e' hn; simp [takenFor, putFor]
    · intro e' ha; exact ⟨ha, fun _ => rfl⟩
    · intro e' ha
      have ha : s.readAllEv = some e' := ha
      have hn : e' ≠ e := by rintro rfl; rw [toList_count_self ha] at hap; omega
      exact ⟨fun hh => absurd hh hn, fun _ => ⟨ha, rfl⟩, (h.ra e' ha).2⟩
    · intro e' ha
      have ha : s.readSomeEv = some e' := ha
      have hn : e' ≠ e := by rintro rfl; rw [toList_count_self ha] at hap; omega
      exact ⟨hn, ha, rfl, rfl⟩
    · intro e' ha; simp at ha
    · intro e' ha; exact ⟨ha, fun _ => rfl⟩
    · intro e' ec g hd
      simp at hd
      obtain ⟨rfl, rfl, rfl⟩ := hd
      exact ⟨by simp [takenFor_append, h1, takenFor], .inr (.inr (.inl ⟨d, w', h2, rfl,
        ⟨s.writeLeft, by simp [putFor_append, putFor, h3]⟩, (fun hh => by cases hh)⟩))⟩

theorem stop_book {ops : List (Op E)} {s : St E} {os : List (Out E)} (h : Book ops s os) (b : Bool) :
    Book ops (stop s b).1 (os ++ (stop s b).2) := by
  unfold stop
  split
  · simpa using h
  · simp only [← List.append_assoc]
    have h1 : Book ops s (os ++ if b && s.conn then [Out.rst] else []) := by
      split
      · exact h.silent _ (.inr (.inr rfl))
      · simpa using h
    have h2 := accept_book h1 .aborted
    have h3 : Book ops { s with acceptEv := none, readAllEv := none }
        ((os ++ if b && s.conn then [Out.rst] else []) ++ finish s.acceptEv .aborted ++
          (match s.readAllEv with | some e => [.done e .aborted s.got] | none => [])) := by
      cases he : s.readAllEv with
      | none => simpa [← he] using h2
      | some e => exact abort_book h2 _ e s.got rfl _ (.inl ⟨he, rfl, rfl⟩)
    have h4 : Book ops { s with acceptEv := none, readAllEv := none, readSomeEv := none }
        ((os ++ if b && s.conn then [Out.rst] else []) ++ finish s.acceptEv .aborted ++
          (match s.readAllEv with | some e => [.done e .aborted s.got] | none => []) ++
          (match s.readSomeEv with | some e => [.done e .aborted s.got] | none => [])) := by
      cases he : s.readSomeEv with
      | none => simpa [← he] using h3
      | some e => exact abort_book h3 _ e s.got rfl _ (.inr (.inl ⟨he, rfl, rfl⟩))
    have h5 : Book ops { s with acceptEv := none, readAllEv := none, readSomeEv := none, writeEv := none }
        ((os ++ if b && s.conn then [Out.rst] else []) ++ finish s.acceptEv .aborted ++
          (match s.readAllEv with | some e => [.done e .aborted s.got] | none => []) ++
          (match s.readSomeEv with | some e => [.done e .aborted s.got] | none => []) ++
          finish s.writeEv .aborted) := by
      cases he : s.writeEv with
      | none => simpa [← he, finish] using h4
      | some e => exact abort_book h4 _ e [] rfl _ (.inr (.inr ⟨he, rfl, rfl⟩))
    exact (close_book h5 .aborted).flags rfl rfl rfl rfl rfl rfl rfl rfl

theorem streamClosed_book {ops : List (Op E)} {s : St E} {os : List (Out E)} (h : Book ops s os)
    (w : Wr) (r : Rd) (st : Status) :
    Book ops (streamClosed s w r st).1 (os ++ (streamClosed s w r st).2) := by
  have h1 := doWriteAll_book h w
  have h2 := accept_book h1 .aborted
  have h3 := doRead_book h2 r
  unfold streamClosed
  generalize doWriteAll s w = sw at h1 h2 h3
  obtain ⟨s1, o1⟩ := sw
  dsimp only at h1 h2 h3 ⊢
  generalize doRead { s1 with acceptEv := none } r = sr at h3
  obtain ⟨s3, o3⟩ := sr
  dsimp only at h3 ⊢
  split
  · simpa [List.append_assoc] using h3
  · rename_i e he
    split
    · simpa [List.append_assoc] using h3.silent .close (.inr (.inl rfl))
    · have := close_book (h3.silent .close (.inr (.inl rfl))) st.toEc
      rw [he] at this
      simpa [List.append_assoc, finish] using this

omit [DecidableEq E] in
theorem started_snoc (ops : List (Op E)) (op : Op E) :
    started (ops ++ [op]) = started ops ++ started [op] := started_append ops [op]

theorem Fits.mono {ops : List (Op E)} {os : List (Out E)} {e : E} {ec : Ec} {g : List UInt8}
    (h : Fits ops os e ec g) (op : Op E) : Fits (ops ++ [op]) os e ec g := by
  obtain ⟨h0, h⟩ := h
  refine ⟨h0, ?_⟩
  rcases h with ⟨n, r, h, h'⟩ | ⟨n, r, h, h'⟩ | ⟨n, r, h, h'⟩ | ⟨h | ⟨st, h⟩, h'⟩
  · exact .inl ⟨n, r, List.mem_append_left _ h, h'⟩
  · exact .inr (.inl ⟨n, r, List.mem_append_left _ h, h'⟩)
  · exact .inr (.inr (.inl ⟨n, r, List.mem_append_left _ h, h'⟩))
  · exact .inr (.inr (.inr ⟨.inl (List.mem_append_left _ h), h'⟩))
  · exact .inr (.inr (.inr ⟨.inr ⟨st, List.mem_append_left _ h⟩, h'⟩))

/-- A step which starts no operation. -/
theorem Book.idle {ops : List (Op E)} {s : St E} {os : List (Out E)} (h : Book ops s os) (op : Op E)
    (hop : started [op] = []) : Book (ops ++ [op]) s os := by
  obtain ⟨a, b, c, d, e, f, g, i, j, k⟩ := h
  have hst : started (ops ++ [op]) = started ops := by rw [started_snoc, hop, List.append_nil]
  refine ⟨by rw [hst]; exact a, b, by rw [hst]; exact c, by rw [hst]; exact d, ?_, ?_, ?_, ?_, ?_, ?_⟩
  · exact fun x hx => ⟨List.mem_append_left _ (e x hx).1, (e x hx).2⟩
  · intro x hx
    obtain ⟨y, n, r, z, t⟩ := f x hx
    exact ⟨y, n, r, List.mem_append_left _ z, t⟩
  · intro x hx
    obtain ⟨y, y', n, r, z, t⟩ := g x hx
    exact ⟨y, y', n, r, List.mem_append_left _ z, t⟩
  · intro x hx
    obtain ⟨y, n, r, z, t⟩ := i x hx
    exact ⟨y, n, r, List.mem_append_left _ z, t⟩
  · intro x hx
    obtain ⟨y, n, z⟩ := j x hx
    exact ⟨y, n, List.mem_append_left _ z⟩
  · exact fun x ec y hx => (k x ec y hx).mono op

/-- What is known about an operation which is new. -/
theorem Book.new {ops : List (Op E)} {s : St E} {os : List (Out E)} (h : Book ops s os) {op : Op E} {e : E}
    (hop : started [op] = [e]) (hn : (started (ops ++ [op])).Nodup) :
    e ∉ started ops ∧ takenFor e os = [] ∧ putFor e os = [] ∧ cnt s e = 0 ∧
      (completed os).count e = 0 := by
  rw [started_snoc, hop, List.nodup_append] at hn
  have hne : e ∉ started ops := fun hh => hn.2.2 e hh e (by simp) rfl
  have hz : (started ops).count e = 0 := List.count_eq_zero.2 hne
  have hc := h.cons e
  have hk : ¬ (takenFor e os ≠ [] ∨ putFor e os ≠ []) := fun hh => hne (h.known e hh)
  have hk1 : takenFor e os = [] := Classical.not_not.1 fun hh => hk (.inl hh)
  have hk2 : putFor e os = [] := Classical.not_not.1 fun hh => hk (.inr hh)
  exact ⟨hne, hk1, hk2, by omega, by omega⟩

/-- An operation takes its place. -/
theorem Book.start {ops : List (Op E)} {s s' : St E} {os : List (Out E)} (h : Book ops s os) {op : Op E}
    {e : E} (hop : started [op] = [e]) (hn : (started (ops ++ [op])).Nodup)
    (hone : s'.readAllEv = none ∨ s'.readSomeEv = none)
    (hcnt : ∀ e', cnt s' e' = cnt s e' + [e].count e')
    (hacc : ∀ e', s'.acceptEv = some e' → s.acceptEv = some e' ∨ e' = e ∧ op = .accept e)
    (hra : ∀ e', s'.readAllEv = some e' → (s.readAllEv = some e' ∧ s'.got = s.got ∧
      s'.readLeft = s.readLeft) ∨ e' = e ∧ s'.got = [] ∧ ∃ r, op = .readAll e s'.readLeft r)
    (hrs : ∀ e', s'.readSomeEv = some e' → (s.readSomeEv = some e' ∧ s'.got = s.got ∧
      s'.readLeft = s.readLeft) ∨ e' = e ∧ s'.got = [] ∧ ∃ r, op = .readSome e s'.readLeft r)
    (hwr : ∀ e', s'.writeEv = some e' → (s.writeEv = some e' ∧ s'.writeLeft = s.writeLeft) ∨
      e' = e ∧ ∃ w, op = .write e s'.writeLeft w)
    (hcl : ∀ e', s'.closeEv = some e' → s.closeEv = some e' ∨ e' = e ∧ ∃ st, op = .close e st) :
    Book (ops ++ [op]) s' os := by
  obtain ⟨hne, ht, hp, -, -⟩ := h.new hop hn
  have hst : started (ops ++ [op]) = started ops ++ [e] := by rw [started_snoc, hop]
  refine ⟨hn, hone, ?_, ?_, ?_, ?_, ?_, ?_, ?_, ?_⟩
  · intro e'
    rw [hst, List.count_append, hcnt, ← h.cons e']; omega
  · intro e' hh; rw [hst]; exact List.mem_append_left _ (h.known e' hh)
  · intro e' hh
    rcases hacc e' hh with hh | ⟨rfl, rfl⟩
    · exact ⟨List.mem_append_left _ (h.acc e' hh).1, (h.acc e' hh).2⟩
    · exact ⟨by simp, ht⟩
  · intro e' hh
    rcases hra e' hh with ⟨hh, h1, h2⟩ | ⟨rfl, h1, r, rfl⟩
    · obtain ⟨y, n, r, z, t⟩ := h.ra e' hh
      exact ⟨by rw [h1, y], n, r, List.mem_append_left _ z, by rw [h1, h2, t]⟩
    · exact ⟨by rw [ht, h1], s'.readLeft, r, by simp, by simp [h1]⟩
  · intro e' hh
    rcases hrs e' hh with ⟨hh, h1, h2⟩ | ⟨rfl, h1, r, rfl⟩
    · obtain ⟨y, y', n, r, z, t⟩ := h.rs e' hh
      exact ⟨y, by rw [h1, y'], n, r, List.mem_append_left _ z, by rw [h2, t]⟩
    · exact ⟨ht, h1, s'.readLeft, r, by simp, rfl⟩
  · intro e' hh
    rcases hwr e' hh with ⟨hh, h1⟩ | ⟨rfl, w, rfl⟩
    · obtain ⟨y, n, r, z, t⟩ := h.wr e' hh
      exact ⟨y, n, r, List.mem_append_left _ z, by rw [h1, t]⟩
    · exact ⟨ht, s'.writeLeft, w, by simp, by simp [hp]⟩
  · intro e' hh
    rcases hcl e' hh with hh | ⟨rfl, st, rfl⟩
    · exact ⟨(h.cl e' hh).1, (h.cl e' hh).2.imp fun _ z => List.mem_append_left _ z⟩
    · exact ⟨ht, st, by simp⟩
  · exact fun x ec y hx => (h.fits x ec y hx).mono op

/-- An operation is answered at once. -/
theorem Book.answer {ops : List (Op E)} {s : St E} {os : List (Out E)} (h : Book ops s os) {op : Op E}
    {e : E} {ec : Ec} (hop : started [op] = [e]) (hn : (started (ops ++ [op])).Nodup) (hec : ec ≠ .ok)
    (hk : Spec.start op ≠ none) : Book (ops ++ [op]) s (os ++ [.done e ec []]) := by
  obtain ⟨hne, ht, hp, hc0, -⟩ := h.new hop hn
  have hst : started (ops ++ [op]) = started ops ++ [e] := by rw [started_snoc, hop]
  have h1 : ∀ x, takenFor x (os ++ [.done e ec []]) = takenFor x os := by
    intro x; rw [takenFor_append]; simp [takenFor]
  have h2 : ∀ x, putFor x (os ++ [.done e ec []]) = putFor x os := by
    intro x; rw [putFor_append]; simp [putFor]
  refine ⟨hn, h.one, ?_, ?_, ?_, ?_, ?_, ?_, ?_, ?_⟩
  · intro e'
    rw [hst, completed_append, List.count_append, List.count_append, ← h.cons e']
    simp; omega
  · intro e' hh; rw [h1, h2] at hh; rw [hst]; exact List.mem_append_left _ (h.known e' hh)
  · intro e' hh; rw [h1]; exact ⟨List.mem_append_left _ (h.acc e' hh).1, (h.acc e' hh).2⟩
  · intro e' hh; rw [h1]
    obtain ⟨y, n, r, z, t⟩ := h.ra e' hh
    exact ⟨y, n, r, List.mem_append_left _ z, t⟩
  · intro e' hh; rw [h1]
    obtain ⟨y, y', n, r, z, t⟩ := h.rs e' hh
    exact ⟨y, y', n, r, List.mem_append_left _ z, t⟩
  · intro e' hh; rw [h1, h2]
    obtain ⟨y, n, r, z, t⟩ := h.wr e' hh
    exact ⟨y, n, r, List.mem_append_left _ z, t⟩
  · intro e' hh; rw [h1]
    exact ⟨(h.cl e' hh).1, (h.cl e' hh).2.imp fun _ z => List.mem_append_left _ z⟩
  · intro x c y hx
    rcases List.mem_append.1 hx with hx | hx
    · have := (h.fits x c y hx).mono op
      unfold Fits at *
      rw [h1, h2]; exact this
    · simp at hx
      obtain ⟨rfl, rfl, rfl⟩ := hx
      refine ⟨by rw [h1, ht], ?_⟩
      cases op <;> simp [started, Spec.start] at hop hk <;> subst hop
      · exact .inr (.inr (.inr ⟨.inl (by simp), rfl⟩))
      · exact .inl ⟨_, _, List.mem_append_right _ (List.mem_singleton.2 rfl), by simp, fun hh => absurd hh hec⟩
      · exact .inr (.inl ⟨_, _, List.mem_append_right _ (List.mem_singleton.2 rfl), by simp,
          fun hh => absurd hh hec, fun _ => rfl⟩)
      · exact .inr (.inr (.inl ⟨_, _, List.mem_append_right _ (List.mem_singleton.2 rfl), rfl,
          ⟨_, by rw [h2, hp]; rfl⟩, fun hh => absurd hh hec⟩))
      · exact .inr (.inr (.inr ⟨.inr ⟨_, List.mem_append_right _ (List.mem_singleton.2 rfl)⟩, rfl⟩))

theorem event_book {ops : List (Op E)} {s : St E} {os : List (Out E)} (h : Book ops s os) (op : Op E)
    (hop : started [op] = []) (f : St E → St E × List (Out E))
    (hf : ∀ ops, Book ops s os → Book ops (f s).1 (os ++ (f s).2)) :
    Book (ops ++ [op]) (event s f).1 (os ++ (event s f).2) := by
  unfold event
  split
  · simpa using h.idle op hop
  · exact hf _ (h.idle op hop)

theorem step_book {ops : List (Op E)} {s : St E} {os : List (Out E)} (h : Book ops s os) (op : Op E)
    (hn : (started (ops ++ [op])).Nodup) :
    Book (ops ++ [op]) (step s op).1 (os ++ (step s op).2) := by
  cases op with
  | accept e =>
    simp only [step, asyncAccept]
    split
    · exact h.answer rfl hn (by simp) (by simp [Spec.start])
    · split
      · exact h.answer rfl hn (by simp) (by simp [Spec.start])
      · rename_i hs ha
        have ha : s.acceptEv = none := by simpa using ha
        refine Book.silent (h.start (s' := { s with acceptEv := some e }) rfl hn h.one
          ?_ ?_ ?_ ?_ ?_ ?_) _ (.inl rfl)
        · intro e'; simp [cnt_eq, ha]; omega
        · intro e' hh; exact .inr ⟨(Option.some.inj hh).symm, rfl⟩
        · intro e' hh; exact .inl ⟨hh, rfl, rfl⟩
        · intro e' hh; exact .inl ⟨hh, rfl, rfl⟩
        · intro e' hh; exact .inl ⟨hh, rfl⟩
        · intro e' hh; exact .inl hh
  | readAll e n r =>
    simp only [step, asyncReadAll]
    split
    · exact h.answer rfl hn (by simp) (by simp [Spec.start])
    · split
      · exact h.answer rfl hn (by simp) (by simp [Spec.start])
      · rename_i hs ha
        have ha : s.readAllEv = none ∧ s.readSomeEv = none := by simpa using ha
        refine doRead_book (h.start (s' := { s with readAllEv := some e, readLeft := n, got := [] })
          rfl hn (.inr ha.2) ?_ ?_ ?_ ?_ ?_ ?_) r
        · intro e'; simp [cnt_eq, ha]; omega
        · intro e' hh; exact .inl hh
        · intro e' hh; exact .inr ⟨(Option.some.inj hh).symm, rfl, r, rfl⟩
        · intro e' hh; rw [show s.readSomeEv = some e' from hh] at ha; exact absurd ha.2 (by simp)
        · intro e' hh; exact .inl ⟨hh, rfl⟩
        · intro e' hh; exact .inl hh
  | readSome e n r =>
    simp only [step, asyncReadSome]
    split
    · exact h.answer rfl hn (by simp) (by simp [Spec.start])
    · split
      · exact h.answer rfl hn (by simp) (by simp [Spec.start])
      · rename_i hs ha
        have ha : s.readAllEv = none ∧ s.readSomeEv = none := by simpa using ha
        refine doRead_book (h.start (s' := { s with readSomeEv := some e, readLeft := n, got := [] })
          rfl hn (.inl ha.1) ?_ ?_ ?_ ?_ ?_ ?_) r
        · intro e'; simp [cnt_eq, ha]; omega
        · intro e' hh; exact .inl hh
        · intro e' hh; rw [show s.readAllEv = some e' from hh] at ha; exact absurd ha.1 (by simp)
        · intro e' hh; exact .inr ⟨(Option.some.inj hh).symm, rfl, r, rfl⟩
        · intro e' hh; exact .inl ⟨hh, rfl⟩
        · intro e' hh; exact .inl hh
  | write e d w =>
    simp only [step, asyncWrite]
    split
    · exact h.answer rfl hn (by simp) (by simp [Spec.start])
    · split
      · exact h.answer rfl hn (by simp) (by simp [Spec.start])
      · split
        · exact h.answer rfl hn (by simp) (by simp [Spec.start])
        · rename_i hs ha hc
          have ha : s.writeEv = none := by simpa using ha
          refine doWriteAll_book (h.start (s' := { s with writeEv := some e, writeLeft := d })
            rfl hn h.one ?_ ?_ ?_ ?_ ?_ ?_) w
          · intro e'; simp [cnt_eq, ha]; omega
          · intro e' hh; exact .inl hh
          · intro e' hh; exact .inl ⟨hh, rfl, rfl⟩
          · intro e' hh; exact .inl ⟨hh, rfl, rfl⟩
          · intro e' hh; exact .inr ⟨(Option.some.inj hh).symm, w, rfl⟩
          · intro e' hh; exact .inl hh
  | close e st =>
    simp only [step, asyncClose]
    split
    · exact h.answer rfl hn (by simp) (by simp [Spec.start])
    · split
      · exact h.answer rfl hn (by simp) (by simp [Spec.start])
      · rename_i hs ha
        have ha : s.closeEv = none := by simpa using ha
        split
        · refine Book.silent (h.start (s' := { s with closed := true, closeEv := some e })
            rfl hn h.one ?_ ?_ ?_ ?_ ?_ ?_) _ (.inr (.inl rfl))
          · intro e'; simp [cnt_eq, ha]
          · intro e' hh; exact .inl hh
          · intro e' hh; exact .inl ⟨hh, rfl, rfl⟩
          · intro e' hh; exact .inl ⟨hh, rfl, rfl⟩
          · intro e' hh; exact .inl ⟨hh, rfl⟩
          · intro e' hh; exact .inr ⟨(Option.some.inj hh).symm, st, rfl⟩
        · rename_i hst
          have := (h.silent .close (.inr (.inl rfl))).answer (op := .close e st) rfl hn (toEc_ne hst)
            (by simp [Spec.start])
          rw [List.append_assoc] at this
          exact this.flags rfl rfl rfl rfl rfl rfl rfl rfl
  | opened =>
    simp only [step]
    exact event_book h _ rfl _ fun _ hb => accept_book hb .ok
  | dataReady r =>
    simp only [step]
    exact event_book h _ rfl _ fun _ hb => doRead_book hb r
  | dataWrite w =>
    simp only [step]
    exact event_book h _ rfl _ fun _ hb => doWriteAll_book hb w
  | readClosed r =>
    simp only [step]
    exact event_book h _ rfl _ fun _ hb => doRead_book hb r
  | writeClosed =>
    simp only [step]
    exact event_book h _ rfl _ fun _ hb => close_book hb .ok
  | streamClosed w r st =>
    simp only [step]
    exact event_book h _ rfl _ fun _ hb => streamClosed_book hb w r st
  | stop b => exact stop_book (h.idle _ rfl) b
  | connClosed =>
    exact stop_book (s := { s with conn := false })
      ((h.idle .connClosed rfl).flags rfl rfl rfl rfl rfl rfl rfl rfl) false

theorem run_book (ops : List (Op E)) (hn : (started ops).Nodup) :
    Book ops (run St.init ops).1 (run St.init ops).2 := by
  refine run_ind (fun ops s os => (started ops).Nodup → Book ops s os) _ ?_ ?_ ops hn
  · intro _
    constructor <;> simp [St.init, started, cnt_eq, takenFor, putFor]
  · intro ops s os op ih hn
    refine step_book (ih ?_) op hn
    rw [started_snoc, List.nodup_append] at hn
    exact hn.1

/-! ## The bytes of all reads -/

/-- The bytes in the buffer of a waiting read. -/
def partRead (s : St E) : List UInt8 :=
  if s.readAllEv.isSome || s.readSomeEv.isSome then s.got else []

/-- What a step does to the bytes which are read; reads which wait share the buffer. -/
def Moves (s : St E) (r : St E × List (Out E)) : Prop :=
  delivered r.2 ++ partRead r.1 = partRead s ++ taken r.2

omit [DecidableEq E] in
theorem doRead_moves (s : St E) (r : Rd) (h : s.readAllEv = none ∨ s.readSomeEv = none) :
    Moves s (doRead s r) := by
  have hs := doRead_shape s r
  generalize doRead s r = res at hs
  unfold Moves
  cases hs with
  | same => simp [delivered, taken]
  | part e b he hl => simp [delivered, taken, partRead, note, he]
  | all e b he hl =>
    have : s.readSomeEv = none := by simpa [he] using h
    simp [delivered, taken, partRead, he, this]
  | some e b h0 he hb hl => simp [delivered, taken, partRead, he, h0]
  | errAll e ec he hc =>
    have : s.readSomeEv = none := by simpa [he] using h
    simp [delivered, taken, partRead, he, this]
  | errSome e ec h0 he hc => simp [delivered, taken, partRead, he, h0]

omit [DecidableEq E] in
theorem doWriteAll_moves (s : St E) (w : Wr) : Moves s (doWriteAll s w) := by
  have hs := doWriteAll_shape s w
  generalize doWriteAll s w = res at hs
  unfold Moves
  cases hs <;> simp [delivered, taken, partRead]

omit [DecidableEq E] in
theorem delivered_finish (ev : Option E) (ec : Ec) : delivered (finish ev ec) = [] := by
  cases ev <;> simp [finish, delivered]

omit [DecidableEq E] in
theorem taken_finish (ev : Option E) (ec : Ec) : taken (finish ev ec) = [] := by
  cases ev <;> simp [finish, taken]

omit [DecidableEq E] in
theorem streamClosed_moves (s : St E) (w : Wr) (r : Rd) (st : Status)
    (h : s.readAllEv = none ∨ s.readSomeEv = none) : Moves s (streamClosed s w r st) := by
  have h1 := doWriteAll_moves s w
  have hs := doWriteAll_shape s w
  unfold streamClosed
  generalize doWriteAll s w = sw at h1 hs
  obtain ⟨s1, o1⟩ := sw
  have hone : s1.readAllEv = none ∨ s1.readSomeEv = none := by cases hs <;> exact h
  have h2 := doRead_moves { s1 with acceptEv := none } r hone
  dsimp only
  generalize doRead { s1 with acceptEv := none } r = sr at h2
  obtain ⟨s3, o3⟩ := sr
  unfold Moves at *
  dsimp only at *
  have h3 : delivered (o1 ++ finish s1.acceptEv .aborted ++ o3) ++ partRead s3 =
      partRead s ++ taken (o1 ++ finish s1.acceptEv .aborted ++ o3) := by
    simp only [delivered_append, taken_append, delivered_finish, taken_finish,
      List.append_assoc]
    rw [h2, show partRead { s1 with acceptEv := none } = partRead s1 from rfl]
    simp only [List.nil_append]
    rw [← List.append_assoc, h1, List.append_assoc]
  split
  · exact h3
  · split
    · rw [delivered_append, taken_append]
      simpa [delivered, taken] using h3
    · rw [delivered_append, taken_append]
      simpa [delivered, taken, partRead] using h3

omit [DecidableEq E] in
theorem stop_moves (s : St E) (b : Bool) (h : s.readAllEv = none ∨ s.readSomeEv = none) :
    Moves s (stop s b) := by
  unfold stop Moves
  split
  · simp [delivered, taken]
  · simp only [delivered_append, taken_append, delivered_finish, taken_finish]
    have e1 : delivered (if b && s.conn then [(Out.rst : Out E)] else []) = [] := by
      split <;> simp [delivered]
    have e2 : taken (if b && s.conn then [(Out.rst : Out E)] else []) = [] := by
      split <;> simp [taken]
    rw [e1, e2]
    rcases h with h | h
    · cases h' : s.readSomeEv <;> simp [h, h', partRead, delivered, taken]
    · cases h' : s.readAllEv <;> simp [h, h', partRead, delivered, taken]

omit [DecidableEq E] in
theorem event_moves (s : St E) (f : St E → St E × List (Out E)) (h : Moves s (f s)) :
    Moves s (event s f) := by
  unfold event
  split
  · simp [Moves, delivered, taken]
  · exact h

omit [DecidableEq E] in
theorem step_moves (s : St E) (op : Op E) (h : s.readAllEv = none ∨ s.readSomeEv = none) :
    Moves s (step s op) := by
  cases op with
  | accept e =>
    simp only [step, asyncAccept]
    split
    · simp [Moves, delivered, taken]
    · split <;> simp [Moves, delivered, taken, partRead]
  | readAll e n r =>
    simp only [step, asyncReadAll]
    split
    · simp [Moves, delivered, taken]
    · split
      · simp [Moves, delivered, taken]
      · rename_i ha
        have ha : s.readAllEv = none ∧ s.readSomeEv = none := by simpa using ha
        have := doRead_moves { s with readAllEv := some e, readLeft := n, got := [] } r (.inr ha.2)
        simpa [Moves, partRead, ha] using this
  | readSome e n r =>
    simp only [step, asyncReadSome]
    split
    · simp [Moves, delivered, taken]
    · split
      · simp [Moves, delivered, taken]
      · rename_i ha
        have ha : s.readAllEv = none ∧ s.readSomeEv = none := by simpa using ha
        have := doRead_moves { s with readSomeEv := some e, readLeft := n, got := [] } r (.inl ha.1)
        simpa [Moves, partRead, ha] using this
  | write e d w =>
    simp only [step, asyncWrite]
    split
    · simp [Moves, delivered, taken]
    · split
      · simp [Moves, delivered, taken]
      · split
        · simp [Moves, delivered, taken]
        · exact doWriteAll_moves { s with writeEv := some e, writeLeft := d } w
  | close e st =>
    simp only [step, asyncClose]
    split
    · simp [Moves, delivered, taken]
    · split
      · simp [Moves, delivered, taken]
      · split <;> simp [Moves, delivered, taken, partRead]
  | opened =>
    simp only [step]
    exact event_moves _ _ (by simp [Moves, delivered_finish, taken_finish, partRead])
  | dataReady r =>
    simp only [step]
    exact event_moves _ _ (doRead_moves s r h)
  | dataWrite w =>
    simp only [step]
    exact event_moves _ _ (doWriteAll_moves s w)
  | readClosed r =>
    simp only [step]
    exact event_moves _ _ (doRead_moves s r h)
  | writeClosed =>
    simp only [step]
    exact event_moves _ _ (by simp [Moves, delivered_finish, taken_finish, partRead])
  | streamClosed w r st =>
    simp only [step]
    exact event_moves _ _ (streamClosed_moves s w r st h)
  | stop b => exact stop_moves s b h
  | connClosed => exact stop_moves { s with conn := false } false h

theorem run_moves (ops : List (Op E)) :
    delivered (run St.init ops).2 ++ partRead (run St.init ops).1 = taken (run St.init ops).2 := by
  refine (run_ind (fun _ s os => Inv s ∧ delivered os ++ partRead s = taken os) _
    ⟨inv_init, by simp [delivered, taken, partRead, St.init]⟩ (fun ops s os op h => ?_) ops).2
  refine ⟨(step_eff s h.1 op).inv, ?_⟩
  have := step_moves s op h.1.one
  unfold Moves at this
  rw [delivered_append, taken_append, ← h.2, List.append_assoc, this, List.append_assoc]

end Verif.Stream
