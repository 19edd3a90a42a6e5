import Verif.Apps.FilesLemmas

/-!
# Files of the example applications — properties
-/

namespace Verif.Apps

open Verif.Json (Bytes R Strtod someStrtod)
open Verif.Iam (IamState demoState)
open Verif.Iam.Spec (StateLoads SameState)
open Spec

/-! ## C110: saving a file -/

/-- The claim: wherever a write ends, the file has its old or its new content. -/
def C110_claim : Prop := ∀ (d : Disk) (content : Bytes) (evs : List WEv),
  (writeFile d content evs).disk = d ∨ (writeFile d content evs).disk = some content

/-- A crash after opening leaves an empty file, whatever was there and whatever is to be written. -/
theorem C110_old_or_new_violated : ¬ C110_claim := by
  intro h
  exact absurd (h (some [1]) [2] [.open true]) (by decide)

/-- A crash during the save of any state leaves a file with which the device does not start: old and new state are
lost. -/
theorem C110_state_lost_violated (d : Disk) (st : IamState) : ∃ evs, ∀ S io st', ¬ Starts S (saveState d st evs) io st' := by
  refine ⟨[.open true], ?_⟩
  rintro S io st' ⟨text, loaded, h1, ⟨doc, h2, _⟩, _⟩
  rw [saveState_eq] at h1
  obtain ⟨f, q, h3, h4⟩ := load_prefix h1
  have hf : f = [] := by
    have : (writeFile d (Json.text (Iam.stateDoc st)) [.open true]).disk = some [] := rfl
    rw [this] at h3
    exact (Option.some.inj h3).symm
  rw [hf] at h4
  have ht : text = [] := (List.append_eq_nil_iff.mp h4.symm).1
  rw [ht] at h2
  have : Json.parse S [] = .fail := by
    unfold Json.parse Json.parseValue
    simp [Json.skipBom, Json.skipWs, Json.starts, R.bind]
  rw [this] at h2
  cases h2

/-- What holds: wherever a write ends, the file has its old content or a beginning of the new one. -/
theorem C110_old_or_new_partial (d : Disk) (content : Bytes) (evs : List WEv) :
    (writeFile d content evs).disk = d ∨ ∃ k, (writeFile d content evs).disk = some (content.take k) := by
  rcases write_cases d content evs with ⟨_, h, _⟩ | ⟨_, b, q, h1, h2, _⟩
  · exact .inl h
  · refine .inr ⟨b.length, ?_⟩
    rw [h1, ← h2]
    simp

/-- The claim: a write which reports success has written everything. -/
def C110_success_claim : Prop := ∀ (d : Disk) (content : Bytes) (evs : List WEv),
  (writeFile d content evs).result = some .ok → (writeFile d content evs).disk = some content

/-- `fwrite` takes everything into the buffer, then `fclose` cannot write it (the disk is full): success is reported and the
file is empty. This is so for every content. -/
theorem C110_success_violated (d : Disk) (content : Bytes) :
    ∃ evs, saveResult (writeFile d content evs) = some true ∧ (writeFile d content evs).disk = some [] := by
  refine ⟨[.open true, .put content.length, .close (some 0)], ?_⟩
  simp [writeFile, Write.step, saveResult, append]

example : ¬ C110_success_claim := by
  intro h
  exact absurd (h none [1] [.open true, .put 1, .close (some 0)] (by decide)) (by decide)

/-- What holds: a write which reports success has written everything if `fclose` could write what was left. -/
theorem C110_success_partial (d : Disk) (content : Bytes) (evs : List WEv) (hc : ∀ n, .close (some n) ∉ evs)
    (h : (writeFile d content evs).result = some .ok) : (writeFile d content evs).disk = some content := by
  rcases write_cases d content evs with ⟨_, _, h1⟩ | ⟨_, b, q, h1, h2, h3⟩
  · exact absurd h h1
  · rw [h1, ← h2, h3 h hc, List.append_nil]

example : (writeFile (some [9]) [1, 2, 3] [.open true, .put 2, .flush 1, .put 1, .close none]).result = some .ok ∧
    (writeFile (some [9]) [1, 2, 3] [.open true, .put 2, .flush 1, .put 1, .close none]).disk = some [1, 2, 3] := by decide

/-- A failed save is reported: a file which was not written completely, while the buffer is always written out, never
gives success. -/
example : saveResult (writeFile (some [9]) [1, 2, 3] [.open true, .put 2, .flush 1, .close none]) = some false ∧
    (writeFile (some [9]) [1, 2, 3] [.open true, .put 2, .flush 1, .close none]).disk = some [1, 2] := by decide

/-! ## C111: the state after crashes -/

/-- After any history of starts, saves, failures and crashes, a device which starts does so with the state which was
written last. A torn or partly read file is refused; it is never taken for another state. -/
theorem C111_starts_with_last_saved (S : Strtod) (evs : List Ev) (d : Disk) (h : History S evs d)
    (hp : ∀ st w, .save st w ∈ evs → Proper st) (io : ReadIo) (st : IamState) (hs : Starts S d io st) :
    ∃ last, lastWritten evs = some last ∧ SameState st (withName last) := by
  obtain ⟨text, loaded, h1, h2, rfl⟩ := hs
  rcases history_file h hp with ⟨_, rfl⟩ | ⟨last, b, q, hl, hlast, rfl, hb⟩
  · cases h1
  · obtain ⟨f, q', hf, rfl⟩ := load_prefix h1
    cases hf
    rw [List.append_assoc] at hb
    have := (torn_state S hlast hb h2).2
    refine ⟨last, hl, ?_⟩
    subst this
    unfold named withName SameState
    cases hn : last.friendlyName <;> simp [Iam.noAddr, hn]

/-- If the last write was not disturbed, the device does start when it can read the file. -/
theorem C111_saved_state_starts (S : Strtod) (d : Disk) (st : IamState) (hp : Proper st) (io : ReadIo) (text : Bytes)
    (ht : dumpText st = some text) (hio : Complete io (saveState d st (undisturbed text))) :
    ∃ st', Starts S (saveState d st (undisturbed text)) io st' ∧ SameState st' (withName st) := by
  rw [dumpText_eq] at ht
  cases ht
  have hd : saveState d st (undisturbed (Json.text (Iam.stateDoc st))) = some (Json.text (Iam.stateDoc st)) := by
    rw [saveState_eq]
    refine C110_success_partial d _ _ (by simp [undisturbed]) ?_
    simp [writeFile, undisturbed, Write.step]
  rw [hd] at hio ⊢
  refine ⟨_, ⟨_, _, load_complete (Json.print_zero _) hio, text_loads S hp, rfl⟩, ?_⟩
  unfold named withName SameState
  cases hn : st.friendlyName <;> simp [Iam.noAddr, hn]

/-- A proper beginning of the text of a state is not a state. -/
theorem C111_torn_state_refused (S : Strtod) (st : IamState) (hp : Proper st) (text : Bytes) (ht : dumpText st = some text)
    (k : Nat) (hk : k < text.length) (st' : IamState) : ¬ StateLoads S (text.take k) st' := by
  rw [dumpText_eq] at ht
  cases ht
  intro hl
  have := (torn_state S (q := (Json.text (Iam.stateDoc st)).drop k) hp (List.take_append_drop _ _).symm hl).1
  rw [List.drop_eq_nil_iff] at this
  omega

example : Proper demoState := by
  refine ⟨by decide, by decide⟩

/-- A history with a save, a crash in the next one, and a third one. -/
example : ∃ (S : Strtod) (evs : List Ev) (d : Disk), History S evs d ∧ (∀ st w, .save st w ∈ evs → Proper st) ∧
    lastWritten evs = some demoState ∧ evs.length = 3 := by
  refine ⟨someStrtod, _, _, .save demoState [.open true, .put 100] (.save {} [.open true, .put 3, .flush 2]
    (.save demoState [.open true] .new)), ?_, rfl, rfl⟩
  intro st w hm
  simp only [List.nil_append, List.cons_append, List.mem_cons, Ev.save.injEq, List.not_mem_nil, or_false] at hm
  rcases hm with ⟨rfl, _⟩ | ⟨rfl, _⟩ | ⟨rfl, _⟩
  · exact ⟨by decide, by decide⟩
  · exact ⟨by decide, by decide⟩
  · exact ⟨by decide, by decide⟩

/-! ## C112: the private key -/

/-- All starts of a device use the same private key, through all crashes and failures. -/
theorem C112_same_key {K} (P : Pem K) (l : List KeyStart) (hk : ∀ s ∈ l, ∀ text, s.created = some text → KeyText P text)
    (a b : K) (ha : some a ∈ (keyStarts P none l).2) (hb : some b ∈ (keyStarts P none l).2) : a = b := by
  obtain ⟨k, h⟩ := keyStarts_same P l hk
  rcases h _ ha with h1 | h1
  · cases h1
  · rcases h _ hb with h2 | h2
    · cases h2
    · rw [← h1] at h2
      exact (Option.some.inj h2).symm

/-- A key which has been stored is never overwritten, and every later start which reads the file uses it. -/
theorem C112_key_kept {K} (P : Pem K) (text : Bytes) (hz : 0 ∉ text) (before : List KeyStart) (s : KeyStart)
    (hio : Complete s.io (some text)) :
    (keyStarts P (some text) before).1 = some text ∧ keyStart P (some text) s = (some text, P.read text) := by
  refine ⟨keyStarts_keeps P text before, ?_⟩
  simp only [keyStart, load_complete hz hio]

/-- The claim: a device whose first start was interrupted can be started again. -/
def C112_claim : Prop := ∀ (K : Type) (P : Pem K) (text : Bytes) (evs : List WEv) (io : ReadIo), KeyText P text →
  (P.read text).isSome → ∃ later : List KeyStart, (∀ s ∈ later, s.created = some text) ∧
    ∃ k, some k ∈ (keyStarts P none (⟨some text, evs, io⟩ :: later)).2

/-- A crash right after the key file was created: no later start ever works, until somebody removes the file. -/
theorem C112_stuck_violated {K} (P : Pem K) (h0 : P.read [] = none) (text : Bytes) (io : ReadIo) (later : List KeyStart) :
    ∀ o ∈ (keyStarts P none (⟨some text, [.open true], io⟩ :: later)).2, o = none := by
  have h1 : keyStart P none ⟨some text, [.open true], io⟩ = (some [], none) := by
    simp [keyStart, writeFile, Write.step, saveResult]
  intro o ho
  rw [keyStarts, h1] at ho
  simp only [List.mem_cons] at ho
  rcases ho with rfl | ho
  · rfl
  · rcases keyStarts_uses P [] later o ho with h | ⟨p, q, h2, h3⟩
    · exact h
    · rw [h3, (List.append_eq_nil_iff.mp h2.symm).1, h0]

example : ¬ C112_claim := by
  intro h
  have := h Unit ⟨fun b => if b = [7] then some () else none⟩ [7] [.open true] ⟨true, true, true, 10⟩
    ⟨by decide, by
      intro p q hpq
      cases p with
      | nil => exact .inl (by decide)
      | cons c p =>
        simp only [List.cons_append, List.cons.injEq] at hpq
        obtain ⟨rfl, h2⟩ := hpq
        rw [(List.append_eq_nil_iff.mp h2.symm).1]
        exact .inr rfl⟩ (by decide)
  obtain ⟨later, _, k, hk⟩ := this
  have := C112_stuck_violated _ (by decide) _ _ later _ hk
  cases this

/-- Two starts which use the key. -/
example : (keyStarts (⟨fun b => if b = [7, 8] then some () else none⟩ : Pem Unit) none
    [⟨some [7, 8], [.open true, .put 2, .close none], ⟨true, true, true, 10⟩⟩,
     ⟨some [7, 8], [], ⟨true, true, true, 1⟩⟩, ⟨some [7, 8], [], ⟨true, true, true, 10⟩⟩]).2 = [some (), none, some ()] := by
  decide

/-! ## C113: loading a file -/

/-- The claim: loading a file is memory safe whatever happens to the file meanwhile. -/
def C113_claim (load : Disk → Disk → ReadIo → R Bytes) : Prop := ∀ a b io, load a b io ≠ .ub

/-- `string_file_load`: whenever the file has grown between taking its size and reading it, the string has no end. -/
theorem C113_grown_violated (s f : Bytes) (hl : s.length < f.length) (hz : 0 ∉ f) (n : Nat) (hn : f.length ≤ n) :
    loadString (some s) (some f) ⟨true, true, true, n⟩ = .ub := by
  have hb : readBuffer s.length f n = f.take (s.length + 1) := by
    unfold readBuffer
    simp only
    rw [Nat.min_eq_right (by omega), List.length_take, Nat.min_eq_left (by omega)]
    simp
  simp only [loadString, Bool.not_true, Bool.false_eq_true, if_false, hb, cString]
  rw [if_neg (fun h => hz (List.mem_of_mem_take h))]

example : ¬ C113_claim loadString := fun h => h (some []) (some [1]) ⟨true, true, true, 1⟩ (by decide)

/-- What holds: it is safe if the file has not grown, and the result is a beginning of the file. -/
theorem C113_string_partial (a b : Disk) (io : ReadIo)
    (h : ∀ s f, a = some s → b = some f → f.length ≤ s.length) :
    loadString a b io ≠ .ub ∧ ∀ text, loadString a b io = .ok text → ∃ f k, b = some f ∧ text = f.take k := by
  refine ⟨?_, ?_⟩
  · unfold loadString
    cases a with
    | none => simp
    | some s =>
      cases b with
      | none => simp only; (repeat' split) <;> simp
      | some f =>
        have := h s f rfl rfl
        have hz : 0 ∈ readBuffer s.length f io.delivered := by
          unfold readBuffer
          simp only [List.mem_append]
          refine .inr ?_
          rw [List.mem_replicate, List.length_take]
          exact ⟨by omega, rfl⟩
        simp only [cString, if_pos hz]
        (repeat' split) <;> simp
  · intro text ht
    obtain ⟨f, q, h1, h2⟩ := load_prefix ht
    exact ⟨f, text.length, h1, by rw [h2]; simp⟩

/-- `json_config_load` does not check its allocation. -/
theorem C113_json_alloc_violated (a b : Bytes) (n : Nat) : loadJsonText (some a) (some b) ⟨true, false, true, n⟩ = .ub := rfl

example : ¬ C113_claim loadJsonText := fun h => h (some []) (some []) ⟨true, false, true, 0⟩ rfl

/-- What holds: it is safe, also if the file has grown, when the allocation succeeds. -/
theorem C113_json_partial (a b : Disk) (io : ReadIo) (h : io.alloc = true) : loadJsonText a b io ≠ .ub := by
  unfold loadJsonText
  cases a with
  | none => simp
  | some s =>
    cases b with
    | none => simp only; (repeat' split) <;> simp
    | some f =>
      simp only [h, Bool.not_true, Bool.false_eq_true, if_false]
      split
      · simp
      · split
        · simp
        · split
          · simp
          · next hl =>
            have hz : 0 ∈ readBuffer s.length f io.delivered := by
              unfold readBuffer
              simp only [List.mem_append]
              refine .inr ?_
              rw [List.mem_replicate]
              refine ⟨?_, rfl⟩
              rw [List.length_take] at hl ⊢
              omega
            simp only [cString, if_pos hz]
            simp

/-- The claim: a load which succeeds gives the file. -/
def C113_whole_claim : Prop := ∀ f io text, 0 ∉ f → loadString (some f) (some f) io = .ok text → text = f

/-- A read error in the middle of any file is not noticed. -/
theorem C113_short_read_violated (f : Bytes) (k : Nat) (hz : 0 ∉ f) (hk : k < f.length) :
    loadString (some f) (some f) ⟨true, true, true, k⟩ = .ok (f.take k) ∧ f.take k ≠ f := by
  refine ⟨?_, ?_⟩
  · have hb : readBuffer f.length f k = f.take k ++ List.replicate (f.length + 1 - (f.take k).length) 0 := by
      unfold readBuffer
      simp only
      rw [Nat.min_eq_left (by omega)]
    simp only [loadString, Bool.not_true, Bool.false_eq_true, if_false, hb, cString]
    rw [if_pos ?_, takeWhile_zeros, takeWhile_nonzero (fun h => hz (List.mem_of_mem_take h))]
    simp only [List.mem_append, List.mem_replicate, List.length_take]
    exact .inr ⟨by omega, trivial⟩
  · intro h
    have := congrArg List.length h
    rw [List.length_take] at this
    omega

example : ¬ C113_whole_claim := by
  intro h
  have h1 := C113_short_read_violated [1, 2] 1 (by decide) (by decide)
  exact h1.2 (h [1, 2] _ _ (by decide) h1.1)

/-- What holds: a file which is read completely is loaded as it is. -/
theorem C113_whole_partial (f : Bytes) (io : ReadIo) (hz : 0 ∉ f) (hio : Complete io (some f)) :
    loadString (some f) (some f) io = .ok f := load_complete hz hio

example : Complete ⟨true, true, true, 5⟩ (some [1, 2, 3]) := ⟨rfl, rfl, rfl, by rintro f ⟨⟩; decide⟩

end Verif.Apps
