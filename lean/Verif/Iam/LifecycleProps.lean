import Verif.Iam.LifecycleLemmas

/-!
# C146: starting and ending the IAM module when memory runs out

`nm_iam_init`, `nm_iam_stop`, `nm_iam_deinit`, with a list of the answers to each request for memory.
-/

namespace Verif.Iam.Lifecycle

open Spec

/-- C146, first part: with memory enough the module starts; and whenever it says that it started, each of the thirty
services listens, whatever was refused. -/
theorem C146_started_partial (mem : List Bool) :
    ((∀ b ∈ mem, b = true) → (init mem).1 = true) ∧
    ((init mem).1 = true → (init mem).2.bad = [] ∧ ∀ x, Listens ((init mem).2.subs x)) :=
  ⟨init_true, fun h => ⟨(init_after mem).clean, fun x => (((init_after mem).all h).2.2.2.2 x).1⟩⟩

/-- C146, second part: a module which started can be stopped at any time and any number of times. After that no service
takes a request, and none does later: not even one whose callback was under way. -/
theorem C146_stopped_partial (mem : List Bool) (h : (init mem).1 = true) (ops more : List Op) :
    (run (stop (run (init mem).2 ops)) more).bad = [] ∧
    ∀ x, ((run (stop (run (init mem).2 ops)) more).subs x).fut ≠ .armed := by
  have ha := init_after mem
  have hp := inv_p ha.toInv
  have hf := full_of_init h
  have h1 := run_step ops hp
  have hp1 := fun x => (h1.same x).2
  have hf1 := h1.full hf
  obtain ⟨b, e⟩ := stop_full hp1 hf1
  have h2 := stop_step hp1
  have hp2 := fun x => (h2.same x).2
  have h3 := run_step more hp2
  constructor
  · rw [run_full more hp2 (h2.full hf1), b, run_full ops hp hf]
    exact ha.clean
  · intro x
    refine ((h3.same x).2).stp ((h3.same x).1.stopped ?_)
    refine (e x ?_).1
    rw [(h2.same x).1.inited, (h1.same x).1.inited]
    exact (((ha.all h).2.2.2.2 x).1).inited

/-- C146, third part: a module which started, and was used in any way, is ended without a trace when the device was
stopped first. -/
theorem C146_ended_partial (mem : List Bool) (h : (init mem).1 = true) (ops : List Op) (hd : .deviceStop ∈ ops) :
    Gone (deinit (run (init mem).2 ops)) ∧ (∀ x, ((deinit (run (init mem).2 ops)).subs x).lLive = false) ∧
    (deinit (run (init mem).2 ops)).bad = [] := by
  have ha := init_after mem
  have hp := inv_p ha.toInv
  obtain ⟨m, s, c, nl, _⟩ := ha.all h
  obtain ⟨g, l, b⟩ := deinit_ok ha (run_step ops hp) (run_quiet ops hp (.inl hd))
    ((run_full ops hp (full_of_init h)).trans ha.clean)
  refine ⟨g, ?_, ?_⟩
  · intro x
    cases hx : ((deinit (run (init mem).2 ops)).subs x).lLive with
    | false => rfl
    | true => exact absurd (l x hx) (nl x)
  · rw [b, m, s, c]
    rfl

/-- C146, fourth part: a module which did not start is ended as well, if the device was stopped first and `nm_iam_stop`
is not called. What stays behind is at most one listener, that of a CoAP handler for which no future could be made; and
only if the state or the configuration could not be made are things deinitialised which never were initialised. -/
theorem C146_refused_partial (mem : List Bool) (ops : List Op) (hd : .deviceStop ∈ ops) (hs : .stop ∉ ops) :
    Gone (deinit (run (init mem).2 ops)) ∧
    (∃ h, ∀ x, ((deinit (run (init mem).2 ops)).subs x).lLive = true →
      x = .coap h ∧ ((init mem).2.subs x).fPtr = false) ∧
    (deinit (run (init mem).2 ops)).bad =
      if (init mem).2.mutex.ptr && !((init mem).2.state.ptr && (init mem).2.conf.ptr) then [.uninitialised] else [] := by
  have ha := init_after mem
  have hp := inv_p ha.toInv
  obtain ⟨g, l, b⟩ := deinit_ok ha (run_step ops hp) (run_quiet ops hp (.inl hd)) ((run_bad ops hs).trans ha.clean)
  obtain ⟨h, one⟩ := ha.one
  refine ⟨g, ⟨h, ?_⟩, b⟩
  intro x hx
  have hl := l x hx
  obtain rfl := one x hl
  exact ⟨rfl, (ha.c h).leak hl.1 hl.2⟩

/-- C146 does not hold: when no future can be made for a CoAP handler then its listener stays behind
(`nm_iam_coap_handler.c:29-34`). -/
theorem C146_leak_violated : ∃ mem, (init mem).1 = false ∧
    ((deinit (run (init mem).2 [.deviceStop])).subs (.coap .iamMeGet)).lLive = true :=
  ⟨noFuture 7, by decide +kernel⟩

/-- C146 does not hold: `nm_iam_stop` of a module which did not start uses a listener which is not there. -/
theorem C146_stop_violated : ∃ mem, (init mem).1 = false ∧ (init mem).2.mutex.live = true ∧
    .null ∈ (stop (init mem).2).bad :=
  ⟨[true, true, true, false], by decide +kernel⟩

/-- C146 does not hold: when the state cannot be made then a set and a vector are deinitialised which were not
initialised. -/
theorem C146_sets_violated : ∃ mem, (init mem).1 = false ∧
    .uninitialised ∈ (deinit (run (init mem).2 [.deviceStop])).bad :=
  ⟨[true, false], by decide +kernel⟩

/-! The hypotheses are met, and that the device is stopped first is needed. -/

example : (init []).1 = true := by decide +kernel
example : (init [true, true, true, true, true, true, true, false]).1 = false := by decide +kernel
example : ((run (init []).2 [.request (.coap .iamMeGet), .stop, .callback (.coap .iamMeGet)]).subs (.coap .iamMeGet)).fut =
    .queued false := by decide +kernel
example : .freedInUse ∈ (deinit (run (init []).2 [.request (.coap .iamMeGet), .stop])).bad := by decide +kernel
example : (deinit (run (init []).2 [.request (.coap .iamMeGet), .stop, .deviceStop])).bad = [] := by decide +kernel

end Verif.Iam.Lifecycle
