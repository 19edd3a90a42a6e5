import Verif.Stream.VirtualApiAbort

/-!
# Virtual streams in the API (properties, C143)

For an application which opens a virtual stream once and before everything else, every future given to the
handle is resolved exactly once and with the code of the core, nothing undefined happens, no event object is
lost, and aborting resolves everything. What the documentation allows besides breaks this.
-/

namespace Verif.Stream.VirtualApi

open Verif.Stream (Ec)
open Spec

variable {F : Type} [DecidableEq F]

/-- A history used as an example: the stream is opened and accepted, a read waits and another one is refused, the
device's application writes, a write and a close wait, the stream is aborted and freed. -/
def sample : List (Op Nat) :=
  [.opn 0 false true, .server 0 .accept, .deliver, .readSome 1 4 false, .readSome 2 4 false, .server 0 (.write [7]),
   .deliver, .write 3 [1, 2] false, .close 4 false, .abort, .deliver, .deliver, .free]

theorem sample_careful : Careful sample := careful_of_check sample (by decide)

/-- **C143 for a careful application:** nothing undefined happens, the device does not hang, and every future is
resolved at most once, and only if it was given to the handle. -/
theorem C143_once_partial (ops : List (Op F)) (hn : (started ops).Nodup) (hc : Careful ops) :
    (run St.init ops).1.ub = false ∧ (run St.init ops).1.hung = false ∧ (resolved (run St.init ops).2).Nodup ∧
      ∀ f ∈ resolved (run St.init ops).2, f ∈ started ops := by
  have h := run_J ops hn hc
  refine ⟨h.good.ub, h.good.hung, ?_, fun f hf => ?_⟩
  · rw [List.nodup_iff_count]
    intro f
    have h1 := h.cons f
    have h2 := List.nodup_iff_count.1 hn f
    omega
  · have h1 := h.cons f
    have h2 := List.count_pos_iff.2 hf
    exact List.count_pos_iff.1 (by omega)

example : (started sample).Nodup ∧ Careful sample ∧ resolved (run St.init sample).2 = [0, 2, 1, 3, 4] :=
  ⟨by decide, sample_careful, by decide⟩

/-- **C143 for a careful application:** when the stream has been aborted and no read was started after that, all
futures are resolved, each once, as soon as the event queue has run the events which are in it. -/
theorem C143_abort_partial (ops : List (Op F)) (hn : (started ops).Nodup) (hc : Careful ops) (ha : .abort ∈ ops)
    (hr : NoReadAfterAbort ops) (n : Nat) (hq : (run St.init ops).1.q.length ≤ n) :
    (resolved (run St.init (ops ++ List.replicate n .deliver)).2).Perm (started ops) := by
  have hs := started_delivers ops n
  have hn2 : (started (ops ++ List.replicate n .deliver)).Nodup := by rw [hs]; exact hn
  have hc2 := careful_delivers hc n
  have hr2 : NoReadAfterAbort (ops ++ List.replicate n .deliver) := by
    clear hq hs hn2 hc2
    induction n with
    | zero => simpa using hr
    | succ n ih =>
      rw [replicate_snoc, ← List.append_assoc]
      intro pre op post e hre
      rcases split_snoc e with ⟨_, rfl, _⟩ | ⟨post', _, e'⟩
      · exact hre.elim
      · exact ih pre op post' e' hre
  have h := run_J _ hn2 hc2
  have hq' : inQ (run St.init (ops ++ List.replicate n .deliver)).1 = fun _ => 0 := by
    have := delivers_q hn hc n
    have : (run St.init (ops ++ List.replicate n .deliver)).1.q = [] := List.eq_nil_of_length_eq_zero (by omega)
    funext k
    simp [inQ, this]
  have hb : ∀ k, (run St.init (ops ++ List.replicate n .deliver)).1.fut k = none := by
    intro k
    have hbusy : busy (run St.init (ops ++ List.replicate n .deliver)).1 k = 0 := by
      rcases h.cores with h1 | ⟨_, c, h1, _⟩
      · simp [busy, pnd, h1.2.1, hq']
      · have hqu := (abort_quiet _ hn2 hc2 hr2 c h1).2 (by simp [ha])
        simp [busy, pnd, h1, hq', Virtual.pend, hqu.opened, hqu.cRd, hqu.cWr, hqu.cCl, Virtual.tk]
    have := h.good.fut k
    rw [hbusy] at this
    simpa using this
  rw [List.perm_iff_count]
  intro f
  have := h.cons f
  rw [hs] at this
  have hw : wt (run St.init (ops ++ List.replicate n .deliver)).1 f = 0 := by simp [wt, hb]
  omega

example : Op.abort ∈ sample.take 10 ∧ (run St.init (sample.take 10)).1.q.length ≤ 2 ∧
    resolved (run St.init (sample.take 10)).2 = [0, 2, 1] ∧
    resolved (run St.init (sample.take 10 ++ List.replicate 2 .deliver)).2 = [0, 2, 1, 3, 4] := by decide

/-- **C143 for a careful application:** while a future for reading, writing or closing waits, another operation
of this kind is refused at once and nothing else happens. (Not so for `read_all`, see
`C143_read_all_violated`.) -/
theorem C143_exclusive_partial (ops : List (Op F)) (hn : (started ops).Nodup) (hc : Careful ops) (k : Kind) (f : F)
    (hf : f ∈ startedOf k ops) (hr : f ∉ resolved (run St.init ops).2) (op : Op F) (g : F)
    (hb : begins op = some (k, g)) (hk : ¬ Opens op) (ha : ∀ n oom, op ≠ .readAll g n oom) (hfr : .free ∉ ops) :
    step (run St.init ops).1 op = ((run St.init ops).1, [.refused k g]) := by
  have h := run_J ops hn hc
  have hw : 0 < wt (run St.init ops).1 f := by
    have h1 := h.cons f
    have h2 := List.count_pos_iff.2 (mem_started hf)
    have h3 : (resolved (run St.init ops).2).count f = 0 := List.count_eq_zero.2 hr
    omega
  obtain ⟨k', hfut⟩ := of_wt_pos hw
  have := kind_unique hn hf (h.known k' f hfut)
  subst this
  have hfreed : (run St.init ops).1.freed = false := by
    cases hh : (run St.init ops).1.freed with
    | false => rfl
    | true => exact absurd (h.freed.1 hh) hfr
  have hh := h.good.hung
  generalize (run St.init ops).1 = s at hfut hfreed hh
  cases op <;> simp only [begins, Option.some.injEq, Prod.mk.injEq, reduceCtorEq] at hb <;>
    obtain ⟨rfl, rfl⟩ := hb
  case opn => exact absurd trivial hk
  case readAll => exact absurd rfl (ha _ _)
  all_goals simp_all [step, step', live, start]

example : 1 ∈ startedOf .read (sample.take 4) ∧ 1 ∉ resolved (run St.init (sample.take 4)).2 ∧
    (step (run St.init (sample.take 4)).1 (.readSome 2 4 false)).2 = [.refused .read 2] := by decide

/-- **C143 for a careful application:** the futures of a kind are resolved with the codes with which the core
completed the operations of this kind, in this order. -/
theorem C143_codes_partial (ops : List (Op F)) (hn : (started ops).Nodup) (hc : Careful ops) (k : Kind) :
    codes k (run St.init ops).2 <+: coreCodes k (run St.init ops).2 ∧
      ((run St.init ops).1.q = [] → codes k (run St.init ops).2 = coreCodes k (run St.init ops).2) := by
  have h := (run_J ops hn hc).code k
  refine ⟨⟨_, h.symm⟩, fun hq => ?_⟩
  rw [h]
  simp [qcode, inQ, hq]

example : codes .read (run St.init sample).2 = [.ok] ∧ codes .write (run St.init sample).2 = [.aborted] := by decide

/-- **C143 for a careful application:** when the handle has been freed, every future has been resolved, no event
of it is in the queue, and every event object which was made has been destroyed. -/
theorem C143_free_partial (ops : List (Op F)) (hn : (started ops).Nodup) (hc : Careful ops) (hf : .free ∈ ops) :
    (resolved (run St.init ops).2).Perm (started ops) ∧ (run St.init ops).1.q = [] ∧
      (run St.init ops).1.made = (run St.init ops).1.gone := by
  have h := run_J ops hn hc
  have hi := h.good.idle (h.freed.2 hf)
  have hb : ∀ k, busy (run St.init ops).1 k = 0 := by
    intro k
    have h1 := h.good.fut k
    have h2 := h.good.le k
    rw [hi] at h1
    simp at h1
    omega
  have he : ∀ k, (run St.init ops).1.ev k = none := by
    intro k
    have h1 := h.good.ev k
    rw [hb] at h1
    simpa using h1
  refine ⟨?_, ?_, ?_⟩
  · rw [List.perm_iff_count]
    intro f
    have := h.cons f
    have hw : wt (run St.init ops).1 f = 0 := by simp [wt, hi]
    omega
  · rw [List.eq_nil_iff_forall_not_mem]
    rintro ⟨k, i⟩ hm
    have := h.good.own _ hm
    rw [he] at this
    cases this
  · have := h.good.bal
    simpa [evs, he] using this

example : Op.free ∈ sample ∧ (run St.init sample).1.made = 4 ∧ (run St.init sample).1.gone = 4 := by decide

/-- **C143 violated:** a read which is started after the stream has been aborted is never resolved, whatever the
application and the device do, aborting again included. The documentation promises `ABORTED` for it, and it
asks the application to free the handle only when all futures are resolved; so it cannot be freed. -/
theorem C143_read_after_abort_violated (post : List (Op Nat))
    (hn : (started ([.opn 0 false true, .server 0 .accept, .deliver, .abort, .readSome 1 5 false] ++ post)).Nodup)
    (hc : Careful ([.opn 0 false true, .server 0 .accept, .deliver, .abort, .readSome 1 5 false] ++ post)) :
    1 ∉ resolved (run St.init
      ([.opn 0 false true, .server 0 .accept, .deliver, .abort, .readSome 1 5 false] ++ post)).2 := by
  obtain ⟨c, _, _, hf⟩ := read_waits [.opn 0 false true, .server 0 .accept, .deliver, .abort, .readSome 1 5 false] 1
    { stopped := false, vstopped := true, opened := none, sRd := none, sWr := none, sClosed := false, sCl := none,
      cRd := some ⟨.read, false, 5, []⟩, cWr := none, cClosed := false, cCl := none } ⟨.read, false, 5, []⟩
    (by decide) ⟨rfl, rfl, rfl, rfl, rfl⟩ rfl (by decide) post hn hc
  have hJ := run_J _ hn hc
  intro hm
  have h1 := wt_pos hf
  have h2 := hJ.cons 1
  have h3 := List.count_pos_iff.2 hm
  have h4 := List.nodup_iff_count.1 hn 1
  omega

example : Careful ([.opn 0 false true, .server 0 .accept, .deliver, .abort, .readSome 1 5 false] ++
    [.abort, .close 2 false, .deliver, .server 0 (.write [1]), .server 0 .stop, .deliver]) :=
  careful_of_check _ (by decide)

/-- **C143 violated:** on a handle which has not been opened every other call uses a null pointer, freeing it
included. -/
theorem C143_not_opened_violated (op : Op F) (hu : Uses op) (ho : ¬ Opens op) :
    (run St.init [op]).1.ub = true := by
  cases op with
  | opn f a b => exact absurd trivial ho
  | readAll f n oom => cases oom <;> rfl
  | readSome f n oom => cases oom <;> rfl
  | write f d oom => cases oom <;> rfl
  | close f oom => cases oom <;> rfl
  | abort => rfl
  | free => rfl
  | server i o => exact hu.elim
  | deliver => exact hu.elim

example : Uses (.free : Op Nat) ∧ ¬ Opens (.free : Op Nat) := ⟨trivial, fun h => h⟩

/-- **C143 violated:** when there is no memory for the stream, the future is resolved but the event object is
not destroyed, and freeing the handle uses a null pointer, as every other call does. -/
theorem C143_open_failed_violated (f : F) :
    resolved (run St.init [.opn f false false]).2 = [f] ∧ (run St.init [.opn f false false]).1.made = 1 ∧
      (run St.init [.opn f false false]).1.gone = 0 ∧ (run St.init [.opn f false false]).1.ub = false ∧
      ∀ op : Op F, Uses op → ¬ Opens op → (run St.init [.opn f false false, op]).1.ub = true := by
  refine ⟨rfl, rfl, rfl, rfl, fun op hu ho => ?_⟩
  cases op with
  | opn f a b => exact absurd trivial ho
  | readAll f n oom => cases oom <;> rfl
  | readSome f n oom => cases oom <;> rfl
  | write f d oom => cases oom <;> rfl
  | close f oom => cases oom <;> rfl
  | abort => rfl
  | free => rfl
  | server i o => exact hu.elim
  | deliver => exact hu.elim

/-- **C143 violated:** when a handle is opened again before the first opening is complete, the first future is
never resolved, whatever happens. -/
theorem C143_open_twice_violated (post : List (Op Nat)) (h : 0 ∉ started post) :
    0 ∉ resolved (run St.init ([.opn 0 false true, .opn 1 false true] ++ post)).2 := by
  rw [run_append, resolved_append, List.mem_append, not_or]
  exact ⟨by decide, run_from _ _ _ (fun k => by cases k <;> decide) h⟩

example : 0 ∉ started ([.server 0 .accept, .server 1 .accept, .deliver, .deliver, .abort] : List (Op Nat)) ∧
    resolved (run St.init ([.opn 0 false true, .opn 1 false true] ++
      [.server 0 .accept, .server 1 .accept, .deliver, .deliver, .abort])).2 = [1] := by decide

/-- **C143 violated:** after `read_all` while a read waits nothing is resolved any more, and nothing happens at
all, whatever is called. -/
theorem C143_read_all_violated (post : List (Op Nat)) :
    resolved (run St.init ([.opn 0 false true, .readSome 1 4 false, .readAll 2 4 false] ++ post)).2 = [2] := by
  rw [run_append, run_hung _ (by decide) post, resolved_append]
  decide

/-- **C143 violated:** when there is no memory for an event object, the completion of the operation uses an
event which does not exist. -/
theorem C143_memory_violated :
    (run (St.init : St Nat) [.opn 0 true true, .server 0 .accept]).1.ub = true := by decide

/-- **C143 violated:** freeing a handle with an unresolved future is allowed by the documentation and said to
have no other effect than that the future may not be resolved. The device's application accepts the stream
later, and memory which has been freed is used. -/
theorem C143_free_early_violated :
    (run (St.init : St Nat) [.opn 0 false true, .free, .server 0 .accept]).1.ub = true ∧
      (run (St.init : St Nat) [.opn 0 false true, .server 0 .accept, .free, .deliver]).1.ub = true := by decide

end Verif.Stream.VirtualApi
