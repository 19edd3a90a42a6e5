import Verif.Apps.FilesSpec
import Verif.Json.CjsonTorn
import Verif.Iam.JsonProps

/-!
# Files of the example applications — lemmas
-/

namespace Verif.Apps

open Verif.Json (Bytes R Strtod)
open Verif.Iam (IamState stateDoc stateDump)
open Verif.Iam.Spec (StateLoads SameState)
open Spec

/-! ## Writing -/

theorem run_done (content : Bytes) (evs : List WEv) (w : Write) (hs : w.stream = none) (hr : w.result ≠ none) :
    evs.foldl (Write.step content) w = w := by
  induction evs with
  | nil => rfl
  | cons e l ih =>
    have : w.step content e = w := by
      cases e with
      | «open» ok =>
        have : w.result.isSome = true := by cases h : w.result <;> simp [h] at hr ⊢
        simp [Write.step, this]
      | put n => simp [Write.step, hs]
      | flush n => simp [Write.step, hs]
      | close n => simp [Write.step, hs]
    rw [List.foldl_cons, this, ih]

/-- While the stream is open the bytes are in the file, in the buffer, or still to be written. -/
theorem run_open (content : Bytes) (evs : List WEv) (b : Bytes) (s : Stream) :
    ∃ b' q, (evs.foldl (Write.step content) ⟨some b, some s, none⟩).disk = some b' ∧ b' ++ q = b ++ s.buf ++ s.todo ∧
      ((evs.foldl (Write.step content) ⟨some b, some s, none⟩).result = some .ok → (∀ n, .close (some n) ∉ evs) → q = []) := by
  induction evs generalizing b s with
  | nil => exact ⟨b, s.buf ++ s.todo, rfl, by simp, by simp⟩
  | cons e l ih =>
    rw [List.foldl_cons]
    cases e with
    | «open» ok =>
      obtain ⟨b', q, h1, h2, h3⟩ := ih b s
      exact ⟨b', q, h1, h2, fun hr hn => h3 hr (fun n hm => hn n (by simp [hm]))⟩
    | put n =>
      obtain ⟨b', q, h1, h2, h3⟩ := ih b ⟨s.todo.drop n, s.buf ++ s.todo.take n⟩
      exact ⟨b', q, h1, by rw [h2]; simp, fun hr hn => h3 hr (fun n hm => hn n (by simp [hm]))⟩
    | flush n =>
      obtain ⟨b', q, h1, h2, h3⟩ := ih (b ++ s.buf.take n) ⟨s.todo, s.buf.drop n⟩
      refine ⟨b', q, h1, ?_, fun hr hn => h3 hr (fun n hm => hn n (by simp [hm]))⟩
      rw [h2]
      simp only [List.append_assoc]
      rw [← List.append_assoc (s.buf.take n), List.take_append_drop]
    | close lost =>
      simp only [Write.step]
      rw [run_done content l _ rfl (by simp)]
      cases lost with
      | none =>
        refine ⟨b ++ s.buf, s.todo, rfl, by simp, ?_⟩
        intro hr _
        simp only [Option.some.injEq, ne_eq, ite_not] at hr
        split at hr
        · next h => exact List.length_eq_zero_iff.mp h
        · cases hr
      | some n =>
        refine ⟨b ++ s.buf.take n, s.buf.drop n ++ s.todo, rfl, ?_, fun _ hn => absurd (List.mem_cons_self) (hn n)⟩
        simp only [List.append_assoc]
        rw [← List.append_assoc (s.buf.take n), List.take_append_drop]

/-- The file after a write, however far it got. -/
theorem write_cases (d : Disk) (content : Bytes) (evs : List WEv) :
    (touched evs = false ∧ (writeFile d content evs).disk = d ∧ (writeFile d content evs).result ≠ some .ok) ∨
    (touched evs = true ∧ ∃ b q, (writeFile d content evs).disk = some b ∧ b ++ q = content ∧
      ((writeFile d content evs).result = some .ok → (∀ n, .close (some n) ∉ evs) → q = [])) := by
  unfold writeFile
  induction evs with
  | nil => exact .inl ⟨rfl, rfl, by simp⟩
  | cons e l ih =>
    have other : Write.step content { disk := d } e = { disk := d } → touched (e :: l) = touched l →
        (touched (e :: l) = false ∧ ((e :: l).foldl (Write.step content) { disk := d }).disk = d ∧
          ((e :: l).foldl (Write.step content) { disk := d }).result ≠ some .ok) ∨
        (touched (e :: l) = true ∧ ∃ b q, ((e :: l).foldl (Write.step content) { disk := d }).disk = some b ∧ b ++ q = content ∧
          (((e :: l).foldl (Write.step content) { disk := d }).result = some .ok → (∀ n, .close (some n) ∉ e :: l) → q = [])) := by
      intro h1 h2
      rw [List.foldl_cons, h1, h2]
      rcases ih with h | ⟨ht, b, q, h3, h4, h5⟩
      · exact .inl h
      · exact .inr ⟨ht, b, q, h3, h4, fun hr hn => h5 hr (fun n hm => hn n (by simp [hm]))⟩
    cases e with
    | «open» ok =>
      cases ok with
      | true =>
        obtain ⟨b', q, h1, h2, h3⟩ := run_open content l [] ⟨content, []⟩
        exact .inr ⟨rfl, b', q, h1, by simpa using h2, fun hr hn => h3 hr (fun n hm => hn n (by simp [hm]))⟩
      | false =>
        refine .inl ⟨rfl, ?_⟩
        rw [List.foldl_cons]
        simp only [Write.step]
        rw [run_done content l _ rfl (by simp)]
        exact ⟨rfl, by simp⟩
    | put n => exact other rfl rfl
    | flush n => exact other rfl rfl
    | close lost => exact other rfl rfl

/-! ## Reading -/

theorem takeWhile_zeros (a : Bytes) (k : Nat) : (a ++ List.replicate k 0).takeWhile (· ≠ 0) = a.takeWhile (· ≠ 0) := by
  induction a with
  | nil => cases k <;> simp [List.replicate_succ]
  | cons c a ih =>
    simp only [List.cons_append, List.takeWhile_cons]
    rw [ih]

theorem takeWhile_prefix (a : Bytes) : ∃ q, a = a.takeWhile (· ≠ 0) ++ q := ⟨_, (List.takeWhile_append_dropWhile).symm⟩

theorem takeWhile_nonzero {a : Bytes} (h : 0 ∉ a) : a.takeWhile (· ≠ 0) = a := by
  rw [Json.takeWhile_all]
  intro x hx
  simp only [ne_eq, decide_eq_true_eq]
  rintro rfl
  exact h hx

/-- What is read is a part of the file. -/
theorem load_prefix {a d : Disk} {io : ReadIo} {text : Bytes} (h : loadString a d io = .ok text) :
    ∃ f q, d = some f ∧ f = text ++ q := by
  unfold loadString at h
  cases a with
  | none => cases h
  | some s =>
    simp only at h
    split at h
    · cases h
    · split at h
      · cases h
      · cases d with
        | none => cases h
        | some f =>
          simp only at h
          split at h
          · cases h
          · unfold cString at h
            split at h
            · simp only [R.ok.injEq] at h
              unfold readBuffer at h
              simp only at h
              rw [takeWhile_zeros] at h
              obtain ⟨q, hq⟩ := takeWhile_prefix (f.take (min io.delivered (s.length + 1)))
              rw [h] at hq
              refine ⟨f, q ++ f.drop (min io.delivered (s.length + 1)), rfl, ?_⟩
              rw [← List.append_assoc, ← hq, List.take_append_drop]
            · cases h

/-- A file which is read completely. -/
theorem load_complete {f : Bytes} {io : ReadIo} (hz : 0 ∉ f) (hio : Complete io (some f)) :
    loadString (some f) (some f) io = .ok f := by
  obtain ⟨h1, h2, h3, h4⟩ := hio
  have h4 := h4 f rfl
  unfold loadString
  simp only [h1, h2, h3, Bool.not_true, Bool.false_eq_true, if_false]
  have hb : readBuffer f.length f io.delivered = f ++ [0] := by
    unfold readBuffer
    simp only
    rw [List.take_of_length_le (by omega)]
    simp
  rw [hb, cString, if_pos (by simp)]
  rw [show f ++ [0] = f ++ List.replicate 1 0 from rfl, takeWhile_zeros, takeWhile_nonzero hz]

/-! ## The state -/

theorem dumpText_eq (st : IamState) : dumpText st = some (Json.text (stateDoc st)) := by
  simp only [dumpText, stateDump, Iam.bind_run, Iam.stateToJson_ok, Iam.finishDump, Iam.alloc_ok]
  rfl

theorem saveState_eq (d : Disk) (st : IamState) (evs : List WEv) :
    saveState d st evs = (writeFile d (Json.text (stateDoc st)) evs).disk := by
  simp only [saveState, dumpText_eq]

theorem text_loads (S : Strtod) {st : IamState} (h : Proper st) :
    StateLoads S (Json.text (stateDoc st)) { st with users := st.users.map Iam.noAddr } :=
  ⟨stateDoc st, Json.C70_parse_print S _ (Iam.good_state h.2), Iam.stateFromJson_doc h.1⟩

/-- A part of the text of a state which loads is the whole text. -/
theorem torn_state (S : Strtod) {st st' : IamState} {p q : Bytes} (h : Proper st) (hp : Json.text (stateDoc st) = p ++ q)
    (hl : StateLoads S p st') : q = [] ∧ st' = { st with users := st.users.map Iam.noAddr } := by
  have hq : q = [] := by
    by_cases hq : q = []
    · exact hq
    · exfalso
      obtain ⟨doc, h1, _⟩ := hl
      refine Json.parse_torn S (v := (stateDoc st).map Json.enc) (Iam.good_state h.2) hp hq ?_ _ h1
      intro i
      simp [stateDoc, Json.Json.map]
  refine ⟨hq, ?_⟩
  rw [hq, List.append_nil] at hp
  rw [← hp] at hl
  exact Iam.stateLoads_unique hl (text_loads S h)

theorem proper_loaded {st : IamState} (h : Proper st) : Proper { st with users := st.users.map Iam.noAddr } := by
  refine ⟨?_, ?_⟩
  · intro u hu
    simp only [List.mem_map] at hu
    obtain ⟨u', h1, rfl⟩ := hu
    exact h.1 u' h1
  · intro s hs
    refine h.2 s ?_
    simp only [Iam.Spec.stateStrings, List.mem_append, List.mem_flatMap, List.mem_map] at hs ⊢
    rcases hs with hs | ⟨u, ⟨u', h1, rfl⟩, h2⟩
    · exact .inl hs
    · exact .inr ⟨u', h1, h2⟩

theorem proper_named {st : IamState} (h : Proper st) : Proper (named st) := by
  unfold named
  split
  · next hn =>
    refine ⟨h.1, ?_⟩
    intro s hs
    simp only [Iam.Spec.stateStrings, List.mem_append, Option.mem_toList] at hs
    have h2 := h.2 s
    simp only [Iam.Spec.stateStrings, List.mem_append, Option.mem_toList] at h2
    rcases hs with ((hs | hs) | hs) | hs
    · exact h2 (.inl (.inl (.inl hs)))
    · exact h2 (.inl (.inl (.inr hs)))
    · simp only [Option.some.injEq] at hs
      subst hs
      decide
    · exact h2 (.inr hs)
  · exact h

/-! ## Histories -/

theorem lastWritten_snoc (evs : List Ev) (e : Ev) : lastWritten (evs ++ [e]) =
    match lastWritten [e] with
    | some st => some st
    | none => lastWritten evs := by
  induction evs with
  | nil => cases h : lastWritten [e] <;> simp [h]; rfl
  | cons x l ih =>
    rw [List.cons_append, lastWritten.eq_def]
    simp only [ih]
    cases h : lastWritten [e] with
    | none => rfl
    | some st => rfl

/-- The file is the beginning of the text of the last written state. -/
theorem history_file {S : Strtod} {evs : List Ev} {d : Disk} (h : History S evs d)
    (hp : ∀ st w, .save st w ∈ evs → Proper st) :
    (lastWritten evs = none ∧ d = none) ∨
      ∃ st b q, lastWritten evs = some st ∧ Proper st ∧ d = some b ∧ Json.text (stateDoc st) = b ++ q := by
  have saved : ∀ {evs d st w e}, lastWritten [e] = (if touched w then some st else none) → Proper st →
      ((lastWritten evs = none ∧ d = none) ∨
        ∃ st b q, lastWritten evs = some st ∧ Proper st ∧ d = some b ∧ Json.text (stateDoc st) = b ++ q) →
      ((lastWritten (evs ++ [e]) = none ∧ saveState d st w = none) ∨
        ∃ st' b q, lastWritten (evs ++ [e]) = some st' ∧ Proper st' ∧ saveState d st w = some b ∧
          Json.text (stateDoc st') = b ++ q) := by
    intro evs d st w e he hst ih
    rw [lastWritten_snoc, he, saveState_eq]
    rcases write_cases d (Json.text (stateDoc st)) w with ⟨h1, h2, _⟩ | ⟨h1, b, q, h2, h3, _⟩
    · rw [h1, h2]; exact ih
    · rw [h1]
      exact .inr ⟨st, b, q, rfl, hst, h2, h3.symm⟩
  induction h with
  | new => exact .inl ⟨rfl, rfl⟩
  | start io loaded rewrite text hh hl hs ih =>
    have ih := ih (fun st w hm => hp st w (by simp [hm]))
    rename_i evs d
    have hloaded : Proper loaded := by
      rcases ih with ⟨_, rfl⟩ | ⟨st, b, q, _, hst, rfl, hb⟩
      · cases hl
      · obtain ⟨f, q', hf, rfl⟩ := load_prefix hl
        cases hf
        rw [List.append_assoc] at hb
        rw [(torn_state S hst hb hs).2]
        exact proper_loaded hst
    simp only [fileAfter]
    cases hn : loaded.friendlyName with
    | none =>
      simp only [Option.isNone_none, if_true]
      refine saved ?_ (proper_named hloaded) ih
      simp [lastWritten, hn, named, withName]
    | some n =>
      simp only [Option.isNone_some, Bool.false_eq_true, if_false]
      rw [lastWritten_snoc]
      have : lastWritten [.start io loaded rewrite] = none := by simp [lastWritten, hn]
      rw [this]
      exact ih
  | save st w hh ih =>
    have ih := ih (fun st w hm => hp st w (by simp [hm]))
    exact saved rfl (hp st w (by simp)) ih

/-! ## Keys -/

theorem keyStarts_keeps {K} (P : Pem K) (f : Bytes) (l : List KeyStart) : (keyStarts P (some f) l).1 = some f := by
  induction l with
  | nil => rfl
  | cons s l ih =>
    have : (keyStart P (some f) s).1 = some f := by
      simp only [keyStart]
      split <;> rfl
    rw [keyStarts, this, ih]

theorem keyStart_uses {K} (P : Pem K) (f : Bytes) (s : KeyStart) :
    (keyStart P (some f) s).2 = none ∨ ∃ p q, f = p ++ q ∧ (keyStart P (some f) s).2 = P.read p := by
  simp only [keyStart]
  split
  · next text h =>
    obtain ⟨f', q, h1, h2⟩ := load_prefix h
    cases h1
    exact .inr ⟨text, q, h2, rfl⟩
  · exact .inl rfl

theorem keyStarts_uses {K} (P : Pem K) (f : Bytes) (l : List KeyStart) (o) (h : o ∈ (keyStarts P (some f) l).2) :
    o = none ∨ ∃ p q, f = p ++ q ∧ o = P.read p := by
  induction l with
  | nil => simp [keyStarts] at h
  | cons s l ih =>
    have hd : (keyStart P (some f) s).1 = some f := by
      have := keyStarts_keeps P f [s]
      simpa [keyStarts] using this
    rw [keyStarts, hd] at h
    simp only [List.mem_cons] at h
    rcases h with rfl | h
    · exact keyStart_uses P f s
    · exact ih h

/-- All starts of a history use the same key. -/
theorem keyStarts_same {K} (P : Pem K) (l : List KeyStart) (hk : ∀ s ∈ l, ∀ text, s.created = some text → KeyText P text) :
    ∃ k : Option K, ∀ o ∈ (keyStarts P none l).2, o = none ∨ o = k := by
  induction l with
  | nil => exact ⟨none, by simp [keyStarts]⟩
  | cons s l ih =>
    obtain ⟨k, ih⟩ := ih (fun x hx => hk x (by simp [hx]))
    have again : (keyStart P none s).1 = none → (keyStart P none s).2 = none →
        ∃ k : Option K, ∀ o ∈ (keyStarts P none (s :: l)).2, o = none ∨ o = k := by
      intro h1 h2
      refine ⟨k, ?_⟩
      intro o ho
      rw [keyStarts, h1, h2] at ho
      simp only [List.mem_cons] at ho
      rcases ho with rfl | ho
      · exact .inl rfl
      · exact ih o ho
    cases hc : s.created with
    | none => exact again (by simp [keyStart, hc]) (by simp [keyStart, hc])
    | some text =>
      have ht := hk s (by simp) text hc
      rcases write_cases none text s.evs with ⟨_, h2, h3⟩ | ⟨_, b, q, h2, h3, _⟩
      · have hr : saveResult (writeFile none text s.evs) ≠ some true := by
          unfold saveResult
          cases h : (writeFile none text s.evs).result with
          | none => simp
          | some e => rw [h] at h3; simpa using h3
        refine again ?_ ?_
        · simp [keyStart, hc, hr, h2]
        · simp [keyStart, hc, hr]
      · have use : ∀ o, (o = none ∨ ∃ p q, b = p ++ q ∧ o = P.read p) → o = none ∨ o = P.read text := by
          rintro o (rfl | ⟨p, q', rfl, rfl⟩)
          · exact .inl rfl
          · exact ht.2 p (q' ++ q) (by rw [← h3, List.append_assoc])
        refine ⟨P.read text, ?_⟩
        have hd : (keyStart P none s).1 = some b := by
          simp only [keyStart, hc, h2]
          split
          · split <;> rfl
          · rfl
        intro o ho
        rw [keyStarts, hd] at ho
        simp only [List.mem_cons] at ho
        apply use
        rcases ho with rfl | ho
        · simp only [keyStart, hc, h2]
          split
          · split
            · next text' h =>
              obtain ⟨f', q, h1, h2⟩ := load_prefix h
              cases h1
              exact .inr ⟨text', q, h2, rfl⟩
            · exact .inl rfl
          · exact .inl rfl
        · exact keyStarts_uses P b l o ho

end Verif.Apps
