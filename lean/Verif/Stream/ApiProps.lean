import Verif.Stream.ApiLemmas

/-!
# Streams in the API (properties, C45)

For an application which does what the documentation asks, every future given to a stream is resolved
exactly once and with the error code of the core, nothing undefined happens, and after
`nabto_device_stream_abort` all futures are resolved. Closing a stream which is being closed is allowed by the
documentation but breaks this, and so do a lack of memory and freeing a stream with unresolved futures.
-/

namespace Verif.Stream.Api

open Verif.Stream.Spec (Kind completed)
open Spec

variable {F : Type} [DecidableEq F]

/-- A history used as an example: a read waits, another one is refused, data arrives, the stream is closed,
aborted and freed. -/
def sample : List (Op Nat) :=
  [.accept 0 false, .opened, .deliver, .readSome 1 4 ⟨.ok, []⟩ false, .readAll 2 4 ⟨.ok, []⟩ false,
   .dataReady ⟨.ok, [7]⟩, .deliver, .write 3 [1, 2] ⟨.ok, 1⟩ false, .close 4 .ok false, .abort true, .deliver,
   .deliver, .free false]

theorem sample_careful : Careful sample := by
  refine careful_of_check sample ?_ ?_
  · intro op h
    simp only [sample, List.mem_cons, List.not_mem_nil, or_false] at h
    rcases h with rfl | rfl | rfl | rfl | rfl | rfl | rfl | rfl | rfl | rfl | rfl | rfl | rfl <;>
      first | rfl | trivial
  · intro n hn op hop
    have hn : n < 13 := hn
    rcases n with _ | _ | _ | _ | _ | _ | _ | _ | _ | _ | _ | _ | _ | n <;>
      (try omega) <;>
      (simp only [sample, List.getElem?_cons_zero, List.getElem?_cons_succ, Option.some.injEq] at hop
       subst hop
       refine ⟨fun _ b => by simp [sample], (fun b hb => ?_), (fun f st m hf => ?_)⟩ <;>
       first
         | (cases hb; decide)
         | (cases hf; decide)
         | cases hb
         | cases hf)

/-- C45 for a careful application: nothing undefined happens, and every future is resolved at most once, and
only if it was given to the stream. -/
theorem C45_api_once_partial (ops : List (Op F)) (hn : (started ops).Nodup) (hc : Careful ops) :
    (run St.init ops).1.ub = false ∧ (resolved (run St.init ops).2).Nodup ∧
      ∀ f ∈ resolved (run St.init ops).2, f ∈ started ops := by
  have h := run_J ops hn hc
  refine ⟨h.ub, ?_, fun f hf => ?_⟩
  · rw [List.nodup_iff_count]
    intro f
    have := h.cons f
    have := List.nodup_iff_count.1 hn f
    omega
  · have := h.cons f
    have := List.count_pos_iff.2 hf
    exact List.count_pos_iff.1 (by omega)

example : (started sample).Nodup ∧ Careful sample ∧ resolved (run St.init sample).2 = [0, 2, 1, 3, 4] :=
  ⟨by decide, sample_careful, by decide⟩

/-- C45 for a careful application: when the stream has been aborted or its connection has ended, all futures
are resolved as soon as the event queue has run the events which are in it. -/
theorem C45_api_abort_partial (ops : List (Op F)) (hn : (started ops).Nodup) (hc : Careful ops)
    (he : ∃ op ∈ ops, Ends op) (n : Nat) (hq : (run St.init ops).1.q.length ≤ n) :
    (resolved (run St.init (ops ++ List.replicate n .deliver)).2).Perm (started ops) := by
  have hs : started (ops ++ List.replicate n .deliver) = started ops := by
    rw [started_append]
    have : started (List.replicate n (Op.deliver : Op F)) = [] := by
      unfold started
      rw [List.filterMap_eq_nil_iff]
      intro a ha; rw [List.eq_of_mem_replicate ha]; rfl
    rw [this, List.append_nil]
  have h := run_J (ops ++ List.replicate n .deliver) (hs ▸ hn) (careful_delivers hc n)
  have hst := run_core_stopped _ (careful_delivers hc n) (by
    obtain ⟨op, hm, ho⟩ := he
    exact ⟨op, List.mem_append_left _ hm, ho⟩)
  have hq' : (run St.init (ops ++ List.replicate n .deliver)).1.q = [] := by
    rw [run_append]; exact delivers_q n _ hq
  have hb : ∀ k, busy (run St.init (ops ++ List.replicate n .deliver)).1 k = 0 := by
    intro k
    unfold busy inQ
    rw [hq', cnt, h.inv.quiet hst]; rfl
  rw [List.perm_iff_count]
  intro f
  have := h.cons f
  rw [hs] at this
  have hw : wait (run St.init (ops ++ List.replicate n .deliver)).1 f = 0 := by simp [wait, wk, hb]
  omega

example : (∃ op ∈ sample, Ends op) ∧ (run St.init sample).1.q.length ≤ 0 :=
  ⟨⟨.abort true, by simp [sample], trivial⟩, by decide⟩

/-- C45 for a careful application: while a future of some kind is not resolved, another operation of this kind
is refused at once and nothing else happens. (For closing this is not so, see
`C45_api_close_twice_violated`.) -/
theorem C45_api_exclusive_partial (ops : List (Op F)) (hn : (started ops).Nodup) (hc : Careful ops)
    (k : Kind) (f : F) (hf : f ∈ startedOf k ops) (hr : f ∉ resolved (run St.init ops).2) (op : Op F) (g : F)
    (ho : Spec.start op = some (k, g)) (hk : k ≠ .close) (hfr : ∀ b, .free b ∉ ops) :
    step (run St.init ops).1 op = ((run St.init ops).1, [.refused k g]) := by
  have h := run_J ops hn hc
  have hw : 0 < wait (run St.init ops).1 f := by
    have h1 := h.cons f
    have h2 := List.count_pos_iff.2 (mem_started hf)
    have h3 : (resolved (run St.init ops).2).count f = 0 := List.count_eq_zero.2 hr
    omega
  obtain ⟨k', hb, hfut⟩ := wait_pos hw
  have := kind_unique hn hf (h.known k' f hfut)
  subst this
  have hfreed : (run St.init ops).1.freed = false := by
    cases hh : (run St.init ops).1.freed with
    | false => rfl
    | true => obtain ⟨b, hb⟩ := h.freed.1 hh; exact absurd hb (hfr b)
  generalize (run St.init ops).1 = s at hfut hfreed
  cases op <;> simp only [Spec.start, Option.some.injEq, Prod.mk.injEq, reduceCtorEq] at ho <;>
    obtain ⟨rfl, rfl⟩ := ho <;> simp_all [step, live, Api.begin]

example : 1 ∈ startedOf .read (sample.take 4) ∧ 1 ∉ resolved (run St.init (sample.take 4)).2 ∧
    (step (run St.init (sample.take 4)).1 (.readAll 2 4 ⟨.ok, []⟩ false)).2 = [.refused .read 2] := by decide

/-- C45 for a careful application: the futures of a kind are resolved with the error codes with which the core
completed the operations of this kind, in this order. -/
theorem C45_api_codes_partial (ops : List (Op F)) (hn : (started ops).Nodup) (hc : Careful ops) (k : Kind) :
    codes k (run St.init ops).2 <+: coreCodes k (run St.init ops).2 ∧
      ((run St.init ops).1.q = [] → codes k (run St.init ops).2 = coreCodes k (run St.init ops).2) := by
  have h := (run_J ops hn hc).code k
  refine ⟨⟨_, h⟩, fun hq => ?_⟩
  rw [← h]
  simp [qcode, inQ, hq]

example : codes .read (run St.init sample).2 = [.ok] ∧ codes .close (run St.init sample).2 = [.aborted] := by
  decide

/-- C45 for a careful application: when the stream is freed, every future has been resolved, and the events
which the queue runs later do nothing. -/
theorem C45_api_free_partial (ops : List (Op F)) (hn : (started ops).Nodup) (hc : Careful ops) (b : Bool)
    (hf : .free b ∈ ops) : (run St.init ops).1.q = [] ∧ (resolved (run St.init ops).2).Perm (started ops) := by
  have h := run_J ops hn hc
  have hb := h.quiet (h.freed.2 ⟨b, hf⟩)
  constructor
  · rw [List.eq_nil_iff_forall_not_mem]
    rintro ⟨k, i⟩ hm
    have h0 := hb k
    have : k ∈ (run St.init ops).1.q.map (·.1) := List.mem_map.2 ⟨_, hm, rfl⟩
    have := List.count_pos_iff.2 this
    unfold busy inQ at h0; omega
  · rw [List.perm_iff_count]
    intro f
    have := h.cons f
    have hw : wait (run St.init ops).1 f = 0 := by simp [wait, wk, hb]
    omega

example : .free false ∈ sample := by simp [sample]

/-- C45 does not hold when a stream is closed while it is being closed, which the documentation allows
(`NABTO_DEVICE_EC_OPERATION_IN_PROGRESS`): the future of the first call is forgotten and the event object it
needs is destroyed, so its completion uses memory which has been freed. -/
theorem C45_api_close_twice_violated :
    (run (St.init : St Nat) [.close 0 .ok false, .close 1 .ok false, .deliver, .writeClosed]).1.ub = true ∧
    resolved (run (St.init : St Nat) [.close 0 .ok false, .close 1 .ok false, .deliver, .writeClosed]).2 = [1] ∧
    resolved (run (St.init : St Nat) [.close 0 .ok false, .close 1 .ok false, .deliver, .abort true,
      .deliver, .deliver]).2 = [1] := by decide

/-- If the first close is complete but its callback has not run, it is the second future which gets its
result, although the second close is still on its way; that one is resolved twice or its completion uses freed
memory, and the first future is never resolved. -/
theorem C45_api_close_early_violated :
    resolved (run (St.init : St Nat) [.close 0 .ok false, .writeClosed, .close 1 .ok false, .deliver]).2 = [1] ∧
    (run (St.init : St Nat) [.close 0 .ok false, .writeClosed, .close 1 .ok false, .deliver]).1.core.closeEv =
      some .close ∧
    (run (St.init : St Nat) [.close 0 .ok false, .writeClosed, .close 1 .ok false, .deliver,
      .writeClosed]).1.ub = true := by decide

/-- Without memory for the event object, the completion of the operation is undefined. -/
theorem C45_api_memory_violated :
    (run (St.init : St Nat) [.accept 0 true, .opened]).1.ub = true := by decide

/-- Freeing a stream with an unresolved future does not just lose the future, as the documentation says: the
callback runs on freed memory. -/
theorem C45_api_free_early_violated :
    (run (St.init : St Nat) [.readSome 0 4 ⟨.ok, []⟩ false, .free true, .deliver]).1.ub = true := by decide

/-- A stream which has been accepted refuses another accept as if one were in progress. -/
theorem C45_api_accept_again_violated :
    (run (St.init : St Nat) [.accept 0 false, .opened, .deliver, .accept 1 false]).2 =
      [.core .accept, .core (.done .accept .ok []), .resolved .accept 0 .ok, .refused .accept 1] := by decide

end Verif.Stream.Api
