import Verif.Stream.OpsWait

/-!
# Operations on a stream (properties, C45, C80)

C45: every operation started on a stream is completed exactly once; a second operation of the same kind is
refused while one is waiting; ending the stream completes everything.
C80: the bytes of reads and writes pass unchanged, a read of exactly `n` bytes is reported as successful
only with `n` bytes, and a successful write has given all its bytes to the stream.
-/

namespace Verif.Stream

open Spec

variable {E : Type} [DecidableEq E]

/-- C45: no operation is completed more often than it was started: each one at most once, and nothing is
completed which was not started. -/
theorem C45_once (ops : List (Op E)) (e : E) :
    (completed (run St.init ops).2).count e ≤ (started ops).count e := by
  have := run_count ops e
  omega

example : completed (run (St.init : St Nat) [.accept 0, .readAll 1 2 ⟨.ok, []⟩, .opened,
    .dataReady ⟨.ok, [7]⟩, .dataReady ⟨.ok, [8, 9]⟩]).2 = [0, 1] := by decide

/-- C45: once the stream has been aborted or freed or its connection has ended, the operations which have
been completed are exactly the operations which were started, before and after. -/
theorem C45_ended (ops : List (Op E)) (h : ∃ op ∈ ops, Ends op) :
    (completed (run St.init ops).2).Perm (started ops) := by
  rw [List.perm_iff_count]
  intro e
  have h1 := run_count ops e
  have h2 := (run_inv ops).quiet (stopped_of_ends ops h _)
  rw [cnt, h2] at h1
  simpa using h1

example : (∃ op ∈ ([.accept 0, .readSome 1 4 ⟨.ok, []⟩, .write 2 [5] ⟨.ok, 0⟩, .close 3 .ok, .stop true,
      .readSome 4 1 ⟨.ok, [1]⟩] : List (Op Nat)), Ends op) ∧
    completed (run (St.init : St Nat) [.accept 0, .readSome 1 4 ⟨.ok, []⟩, .write 2 [5] ⟨.ok, 0⟩,
      .close 3 .ok, .stop true, .readSome 4 1 ⟨.ok, [1]⟩]).2 = [0, 1, 2, 3, 4] := by
  exact ⟨⟨.stop true, by simp, trivial⟩, by decide⟩

/-- C45: while an operation of some kind waits, another one of the same kind is refused at once with
`OPERATION_IN_PROGRESS`, and nothing else happens: neither the stream nor the waiting operation is
affected. -/
theorem C45_exclusive (ops : List (Op E)) (op : Op E) (k : Kind) (e e' : E)
    (hw : ∃ op' ∈ ops, Spec.start op' = some (k, e')) (hc : e' ∉ completed (run St.init ops).2)
    (ho : Spec.start op = some (k, e)) :
    step (run St.init ops).1 op = ((run St.init ops).1, [.done e .inProgress []]) := by
  have hh := (run_places ops k e' hw).resolve_right hc
  have hinv := run_inv ops
  generalize (run St.init ops).1 = s at hh hinv
  have hst : s.stopped = false := by
    cases hs : s.stopped with
    | false => rfl
    | true =>
      have hq := hinv.quiet hs
      simp only [pending, List.append_eq_nil_iff, Option.toList_eq_nil_iff] at hq
      obtain ⟨⟨⟨⟨q1, q2⟩, q3⟩, q4⟩, q5⟩ := hq
      cases k <;> simp_all [holds]
  cases op <;> simp only [Spec.start, Option.some.injEq, Prod.mk.injEq, reduceCtorEq] at ho <;>
    obtain ⟨rfl, rfl⟩ := ho <;> simp only [holds] at hh
  · simp [step, asyncAccept, hst, hh]
  · rcases hh with hh | hh <;> simp [step, asyncReadAll, hst, hh]
  · rcases hh with hh | hh <;> simp [step, asyncReadSome, hst, hh]
  · simp [step, asyncWrite, hst, hh]
  · simp [step, asyncClose, hst, hh]

example : 1 ∉ completed (run (St.init : St Nat) [.readAll 1 2 ⟨.ok, [7]⟩]).2 ∧
    (step (run (St.init : St Nat) [.readAll 1 2 ⟨.ok, [7]⟩]).1 (.readSome 2 9 ⟨.ok, [8]⟩)).2 =
      [.done 2 .inProgress []] := by decide

/-- C45: an operation on a stream which has ended is answered at once with `STOPPED`, and nothing else
happens. -/
theorem C45_after_end (ops : List (Op E)) (h : ∃ op ∈ ops, Ends op) (op : Op E) (k : Kind) (e : E)
    (ho : Spec.start op = some (k, e)) :
    step (run St.init ops).1 op = ((run St.init ops).1, [.done e .stopped []]) := by
  have hst := stopped_of_ends ops h St.init
  generalize (run St.init ops).1 = s at hst
  cases op <;> simp only [Spec.start, Option.some.injEq, Prod.mk.injEq, reduceCtorEq] at ho <;>
    obtain ⟨rfl, rfl⟩ := ho <;>
    simp [step, asyncAccept, asyncReadAll, asyncReadSome, asyncWrite, asyncClose, hst]

/-- C45: the event of the stream module which settles a kind of operations leaves none of this kind
waiting: whatever was started before is completed. -/
theorem C45_settled (ops : List (Op E)) (op : Op E) (k : Kind) (e : E)
    (hw : ∃ op' ∈ ops, Spec.start op' = some (k, e)) (ho : Settles op k) :
    e ∈ completed (run St.init (ops ++ [op])).2 := by
  have hnotstart : ∀ op' : Op E, Settles op' k → Spec.start op' = none := by
    intro op' h'; cases op' <;> simp_all [Settles, Spec.start]
  by_cases hs : (run St.init ops).1.stopped = true
  · rcases run_places ops k e hw with h | h
    · have hq := (run_inv ops).quiet hs
      simp only [pending, List.append_eq_nil_iff, Option.toList_eq_nil_iff] at hq
      obtain ⟨⟨⟨⟨q1, q2⟩, q3⟩, q4⟩, q5⟩ := hq
      cases k <;> simp_all [holds]
    · rw [run_append, completed_append]; exact List.mem_append_left _ h
  · obtain ⟨op', hm, h'⟩ := hw
    refine (run_places (ops ++ [op]) k e ⟨op', List.mem_append_left _ hm, h'⟩).resolve_left ?_
    rw [run_append]
    exact step_settles _ op k e (by simpa using hs) (run_inv ops).one ho

example : (∃ op' ∈ ([.close 3 .ok] : List (Op Nat)), Spec.start op' = some (.close, 3)) ∧
    Settles (.writeClosed : Op Nat) .close ∧
    completed (run (St.init : St Nat) [.close 3 .ok, .writeClosed]).2 = [3] :=
  ⟨⟨_, List.mem_singleton.2 rfl, rfl⟩, rfl, by decide⟩

/-- C45: a read of some bytes is completed as soon as the module has at least one byte, and a read of
exactly `n` bytes as soon as it has the bytes which are missing. -/
theorem C45_read_served (s : St E) (e : E) (bytes : List UInt8) (hs : s.stopped = false)
    (hone : s.readAllEv = none ∨ s.readSomeEv = none) :
    (s.readSomeEv = some e → bytes ≠ [] → 0 < s.readLeft →
      e ∈ completed (step s (.dataReady ⟨.ok, bytes⟩)).2) ∧
    (s.readAllEv = some e → s.readLeft ≤ bytes.length → 0 < s.readLeft →
      e ∈ completed (step s (.dataReady ⟨.ok, bytes⟩)).2) := by
  constructor
  · intro h hb hl
    have hn : s.readAllEv = none := by simpa [h] using hone
    have : bytes.take s.readLeft ≠ [] := by
      simp [List.take_eq_nil_iff, hb]; omega
    simp [step, event, hs, doRead, hn, h, this, resolveRead, note]
  · intro h hb hl
    have hne : bytes.take s.readLeft ≠ [] := by
      rw [Ne, List.take_eq_nil_iff]; rintro (h | rfl)
      · omega
      · simp at hb; omega
    have hlen : s.readLeft - (bytes.take s.readLeft).length = 0 := by
      rw [List.length_take]; omega
    simp [step, event, hs, doRead, h, hne, resolveRead, note]
    split
    · simp
    · rename_i hh; omega

example : ∃ s : St Nat, s.stopped = false ∧ (s.readAllEv = none ∨ s.readSomeEv = none) ∧
    s.readSomeEv = some 1 ∧ 0 < s.readLeft :=
  ⟨(run St.init [.readSome 1 4 ⟨.ok, []⟩]).1, by decide⟩

omit [DecidableEq E] in
/-- C45 does not hold for a write of no bytes: as long as the module reports no error and the stream is
not ended, it is never completed, whatever events arrive and however much room there is. -/
theorem C45_empty_write_violated (e : E) (w : Wr) (ops : List (Op E)) (hw : w.status = .ok)
    (hok : ∀ op ∈ ops, ¬ Ends op ∧ Spec.start op = none ∧ (∀ w', op = .dataWrite w' → w'.status = .ok) ∧
      (∀ w' r st, op = .streamClosed w' r st → w'.status = .ok)) :
    e ∉ completed (run St.init (.write e [] w :: ops)).2 := by
  have key : ∀ ops : List (Op E), (∀ op ∈ ops, ¬ Ends op ∧ Spec.start op = none ∧
      (∀ w', op = .dataWrite w' → w'.status = .ok) ∧
      (∀ w' r st, op = .streamClosed w' r st → w'.status = .ok)) →
      (run ({ St.init with writeEv := some e, writeLeft := [] } : St E) ops).2 = [] := by
    intro ops
    induction ops with
    | nil => intro _; rfl
    | cons op ops ih =>
      intro hok
      have hst : step ({ St.init with writeEv := some e, writeLeft := [] } : St E) op =
          (({ St.init with writeEv := some e, writeLeft := [] } : St E), []) := by
        obtain ⟨h1, h2, h3, h4⟩ := hok op (by simp)
        cases op <;> simp_all [Spec.start, Ends, step, event, St.init, doRead, doWriteAll, finish,
          streamClosed]
      have := ih fun op' h' => hok op' (by simp [h'])
      simp [run, hst, this]
  have h1 : step (St.init : St E) (.write e [] w) =
      (({ St.init with writeEv := some e, writeLeft := [] } : St E), []) := by
    simp [step, asyncWrite, St.init, doWriteAll, hw]
  simp [run, h1, key ops hok]

example : ∀ op ∈ ([.opened, .dataWrite ⟨.ok, 100⟩, .dataReady ⟨.eof, []⟩] : List (Op Nat)),
    ¬ Ends op ∧ Spec.start op = none ∧ (∀ w', op = .dataWrite w' → w'.status = .ok) ∧
      (∀ w' r st, op = .streamClosed w' r st → w'.status = .ok) := by
  intro op h
  simp only [List.mem_cons, List.not_mem_nil, or_false] at h
  rcases h with rfl | rfl | rfl <;>
    exact ⟨id, rfl, fun _ h' => by cases h' <;> rfl, fun _ _ _ h' => by cases h'⟩

omit [DecidableEq E] in
/-- The same for a read into a buffer of no bytes. -/
theorem C45_empty_read_violated (e : E) (r : Rd) (rs : List Rd) (hr : r.status = .ok)
    (hok : ∀ r' ∈ rs, r'.status = .ok) :
    e ∉ completed (run St.init (.readAll e 0 r :: rs.map .dataReady)).2 ∧
    e ∉ completed (run St.init (.readSome e 0 r :: rs.map .dataReady)).2 := by
  have key : ∀ (s : St E) (rs : List Rd), s.readLeft = 0 → s.stopped = false →
      (∀ r' ∈ rs, r'.status = .ok) → (run s (rs.map .dataReady)).2 = [] := by
    intro s rs h1 h2
    induction rs with
    | nil => intro _; rfl
    | cons r' rs ih =>
      intro hok
      have hst : step s (.dataReady r') = (s, []) := by
        have := hok r' (by simp)
        simp only [step, event, h2, doRead, this, h1]
        cases s.readAllEv <;> cases s.readSomeEv <;> simp
      have := ih fun x hx => hok x (by simp [hx])
      simp [run, hst, this]
  constructor
  · have h1 : step (St.init : St E) (.readAll e 0 r) =
        (({ St.init with readAllEv := some e } : St E), []) := by
      simp [step, asyncReadAll, St.init, doRead, hr]
    simp [run, h1, key ({ St.init with readAllEv := some e } : St E) rs rfl rfl hok]
  · have h1 : step (St.init : St E) (.readSome e 0 r) =
        (({ St.init with readSomeEv := some e } : St E), []) := by
      simp [step, asyncReadSome, St.init, doRead, hr]
    simp [run, h1, key ({ St.init with readSomeEv := some e } : St E) rs rfl rfl hok]

/-! ## The bytes -/

/-- C80: the bytes the completed reads have delivered are a prefix of the bytes which came out of the stream
module, in their order; and all of them once the stream has ended. -/
theorem C80_read_in_order (ops : List (Op E)) :
    delivered (run St.init ops).2 <+: taken (run St.init ops).2 ∧
    ((∃ op ∈ ops, Ends op) → delivered (run St.init ops).2 = taken (run St.init ops).2) := by
  have h := run_moves ops
  refine ⟨⟨_, h⟩, fun hh => ?_⟩
  have hq := (run_inv ops).quiet (stopped_of_ends ops hh _)
  have : partRead (run St.init ops).1 = [] := by
    simp only [pending, List.append_eq_nil_iff, Option.toList_eq_nil_iff] at hq
    simp [partRead, hq.1.1.1.2, hq.1.1.2]
  rw [this, List.append_nil] at h
  exact h

example : taken (run (St.init : St Nat) [.readAll 0 3 ⟨.ok, [1, 2]⟩, .dataReady ⟨.ok, [3, 4]⟩,
      .readSome 1 5 ⟨.ok, [4, 5]⟩]).2 = [1, 2, 3, 4, 5] ∧
    delivered (run (St.init : St Nat) [.readAll 0 3 ⟨.ok, [1, 2]⟩, .dataReady ⟨.ok, [3, 4]⟩,
      .readSome 1 5 ⟨.ok, [4, 5]⟩]).2 = [1, 2, 3, 4, 5] := by decide

/-- C80: a read of exactly `n` bytes is reported as successful only with `n` bytes, and never delivers more;
what it delivers are the bytes taken from the module for it. -/
theorem C80_read_all (ops : List (Op E)) (hn : (started ops).Nodup) (e : E) (n : Nat) (r : Rd)
    (hop : .readAll e n r ∈ ops) (ec : Ec) (g : List UInt8)
    (hd : .done e ec g ∈ (run St.init ops).2) :
    g.length ≤ n ∧ (ec = .ok → g.length = n) ∧ g = takenFor e (run St.init ops).2 := by
  obtain ⟨h0, h⟩ := (run_book ops hn).fits e ec g hd
  rcases h with ⟨n', r', h, h1, h2⟩ | ⟨n', r', h, -⟩ | ⟨n', r', h, -⟩ | ⟨h | ⟨st, h⟩, -⟩ <;>
    have := op_unique hn hop h rfl rfl <;> cases this
  exact ⟨h1, h2, h0.symm⟩

example : (started ([.readAll 0 3 ⟨.ok, [1, 2]⟩, .dataReady ⟨.ok, [3, 4]⟩] : List (Op Nat))).Nodup ∧
    .done 0 .ok [1, 2, 3] ∈ (run (St.init : St Nat) [.readAll 0 3 ⟨.ok, [1, 2]⟩,
      .dataReady ⟨.ok, [3, 4]⟩]).2 := by decide

/-- C80: a read of some bytes is reported as successful only with at least one and at most `n` bytes, and
delivers nothing otherwise. -/
theorem C80_read_some (ops : List (Op E)) (hn : (started ops).Nodup) (e : E) (n : Nat) (r : Rd)
    (hop : .readSome e n r ∈ ops) (ec : Ec) (g : List UInt8)
    (hd : .done e ec g ∈ (run St.init ops).2) :
    g.length ≤ n ∧ (ec = .ok ↔ g ≠ []) ∧ g = takenFor e (run St.init ops).2 := by
  obtain ⟨h0, h⟩ := (run_book ops hn).fits e ec g hd
  rcases h with ⟨n', r', h, -⟩ | ⟨n', r', h, h1, h2, h3⟩ | ⟨n', r', h, -⟩ | ⟨h | ⟨st, h⟩, -⟩ <;>
    have := op_unique hn hop h rfl rfl <;> cases this
  exact ⟨h1, ⟨h2, fun hh => Classical.not_not.1 fun hne => hh (h3 hne)⟩, h0.symm⟩

example : .done 1 .ok [4] ∈ (run (St.init : St Nat) [.readSome 1 5 ⟨.ok, [4]⟩]).2 := by decide

/-- C80: what is given to the module for a write is always a beginning of its data, in order, and it is all
of its data if the write is reported as successful. -/
theorem C80_write (ops : List (Op E)) (hn : (started ops).Nodup) (e : E) (d : List UInt8) (w : Wr)
    (hop : .write e d w ∈ ops) :
    putFor e (run St.init ops).2 <+: d ∧
    ((∃ g, .done e .ok g ∈ (run St.init ops).2) → putFor e (run St.init ops).2 = d) := by
  have hb := run_book ops hn
  have key : ∀ ec g, .done e ec g ∈ (run St.init ops).2 → putFor e (run St.init ops).2 <+: d ∧
      (ec = .ok → putFor e (run St.init ops).2 = d) := by
    intro ec g hd
    obtain ⟨h0, h⟩ := hb.fits e ec g hd
    rcases h with ⟨n', r', h, -⟩ | ⟨n', r', h, -⟩ | ⟨n', r', h, -, h1⟩ | ⟨h | ⟨st, h⟩, -⟩ <;>
      have := op_unique hn hop h rfl rfl <;> cases this
    exact h1
  refine ⟨?_, fun ⟨g, hd⟩ => (key _ _ hd).2 rfl⟩
  by_cases hc : e ∈ completed (run St.init ops).2
  · obtain ⟨o, ho, h'⟩ := List.mem_filterMap.1 hc
    cases o <;> simp [completes] at h'
    subst h'
    exact (key _ _ ho).1
  · have hh := (run_places ops .write e ⟨_, hop, rfl⟩).resolve_right hc
    obtain ⟨-, d', w', h1, h2⟩ := hb.wr e hh
    have := op_unique hn hop h1 rfl rfl
    cases this
    exact ⟨_, h2⟩

example : .done 2 .ok [] ∈ (run (St.init : St Nat) [.write 2 [5, 6, 7] ⟨.ok, 1⟩, .dataWrite ⟨.ok, 9⟩]).2 ∧
    putFor 2 (run (St.init : St Nat) [.write 2 [5, 6, 7] ⟨.ok, 1⟩, .dataWrite ⟨.ok, 9⟩]).2 =
      [5, 6, 7] := by decide

end Verif.Stream
