import Verif.Device.AttachLemmas

/-!
# C123: the switch for the basestation attach

`nabto_device_set_basestation_attach` is documented to work before and after the start of the device, and to fail only when the
device is closed (`include/nabto/nabto_device.h:509-522`).
-/

namespace Verif.Device.Attach.Props

open Spec
open Core.Attacher (Obs)

def cfg0 : Cfg := ⟨"host", 443⟩

/-- **Off is off.** When the attach was switched off, with success and not while the device was starting, then the device does not
turn to the basestation until it is switched on: no name is resolved, no connection is opened, and the device is not attached.
This holds whatever was going on before, and whatever happens later. -/
theorem C123_off_partial {cfg : Cfg} {pre post : List Op} {op : Op} {s t : St}
    (hop : (∃ m b, op = .setAttach false m b) ∨ op = .disableRemote) (hw : starting pre = false)
    (hr : returns cfg pre op = some .ok) (hs : run cfg pre = some s) (ht : run cfg (pre ++ op :: post) = some t)
    (hn : ∀ o ∈ post, enables o = false) : contacts t = contacts s := by
  have hb := base hs
  have hbind : s.binding = false := hb.binding.trans hw
  unfold run at ht
  rw [runFrom_append, show runFrom cfg St.init pre = some s from hs] at ht
  simp only [Option.bind_some, runFrom] at ht
  unfold returns at hr
  rw [hs] at hr
  simp only [Option.bind_some] at hr
  rcases hop with ⟨m, b, rfl⟩ | rfl
  · cases hst : s.state with
    | setup =>
      simp only [step, St.setAttach, hst, Option.bind_some] at ht
      have := Off.run (s := { s with state := .setup, enable := false }) ⟨by dsimp only; rw [(hb.setup hst).1]; decide, hb.fresh, fun _ => ⟨rfl, (hb.setup hst).1⟩,
        fun _ _ => rfl⟩ hn ht
      exact this.2
    | running =>
      simp only [step, St.setAttach, hst, Option.bind_some] at ht
      have := Off.run (s := { s with state := .running, att := attClose s.att disabledCb b })
        ⟨by dsimp only; rw [close_mod]; split <;> decide, fresh_close hb.fresh _ _, fun hc => (nomatch hc),
          fun hc => (nomatch hbind.symm.trans hc)⟩ hn ht
      exact this.2.trans (close_contacts _ _ _)
    | stopped => simp [step, St.setAttach, hst] at hr
  · by_cases hst : s.state = .setup
    · simp only [step, St.disableRemote, hst, ne_eq, not_true_eq_false, if_false, Option.bind_some] at ht
      have := Off.run (s := { s with state := .setup, enable := false }) ⟨by dsimp only; rw [(hb.setup hst).1]; decide, hb.fresh, fun _ => ⟨rfl, (hb.setup hst).1⟩,
        fun _ _ => rfl⟩ hn ht
      exact this.2
    · simp [step, St.disableRemote, hst] at hr

/-- A device which is attached; the attach is switched off; the connection is closed and the event of the close runs. -/
def attached : List Op :=
  [.start, .bound true true] ++ ([.resolved (some ["192.0.2.1"]) {}, .connected 0 {}, .sent 0, .startResponse .attached {},
    .endResponse (some true) {}] : List Core.Attacher.Act).map .env

example : (run cfg0 attached).map (fun s => (s.att.state, s.started, contacts s)) = some (.attached, [.ok], 3) := by decide
example : (run cfg0 (attached ++ .setAttach false true true :: [.env (.sent 0), .env .closeEvent])).map
    (fun s => (s.att.state, contacts s)) = some (.closed, 3) := by decide
example : starting attached = false ∧ returns cfg0 attached (.setAttach false true true) = some .ok := by decide

/-- **The attacher follows the switch**: in a device which has been started, the attacher is running exactly when the last call
wanted the attach — if the switch was not used while the device was starting, and there was memory. What a running attacher does
is C38. -/
theorem C123_follows_partial {cfg : Cfg} {ops : List Op} {s : St} (hw : Settled ops) (hm : Memory ops) (hs : run cfg ops = some s)
    (hr : s.state = .running) (hb : starting ops = false) : s.att.mod = .running ↔ wish ops = true :=
  ((follows hw hm hs) hr ((inv hw hs).binding.trans hb)).2.symm

/-- **Switching on** a device whose attach is off succeeds, and, if the close which switching off began is complete, the name of
the server is resolved at once. -/
theorem C123_on_partial {cfg : Cfg} {ops : List Op} {s : St} (hw : Settled ops) (hm : Memory ops) (hs : run cfg ops = some s)
    (hr : s.state = .running) (hb : starting ops = false) (hf : wish ops = false) (b : Bool) :
    ∃ t, step cfg s (.setAttach true true b) = some (t, .ok) ∧
      (s.att.mod = .setup ∨ s.att.state = .closed → t.att.out = s.att.out ++ [.resolve (some cfg.host), .notify .dns]) := by
  have hi := inv hw hs
  obtain ⟨f1, f2⟩ := follows hw hm hs hr (hi.binding.trans hb)
  have hnr : s.att.mod ≠ .running := fun hc => by rw [f2.2 hc] at hf; cases hf
  simp only [step, St.setAttach, hr]
  by_cases he : s.enable = false
  · rw [if_pos (by rw [he]; rfl)]
    have hsu := f1.1 he
    refine ⟨_, by simp only [attStart, hsu, ne_eq, not_true_eq_false, if_false, if_true]; rfl, ?_⟩
    intro _
    simp [Core.Attacher.St.start, hsu, Core.Attacher.St.enter, Core.Attacher.St.startResolve, Core.Attacher.St.notify, Core.Attacher.St.emit]
  · rw [if_neg (by simpa using he)]
    have hsu : s.att.mod ≠ .setup := fun hc => he (f1.2 hc)
    have hcl : s.att.mod = .closed := by cases hq : s.att.mod <;> simp_all
    refine ⟨_, by simp only [attRestart, hcl, ne_eq, not_true_eq_false, if_false]; rfl, ?_⟩
    intro hc
    rcases hc with hc | hc
    · exact absurd hc hsu
    · simp [Core.Attacher.St.restart, hcl, hc, Core.Attacher.St.reattach, Core.Attacher.St.enter, Core.Attacher.St.startResolve,
        Core.Attacher.St.notify, Core.Attacher.St.emit, hi.host hsu]

/-- Off before the start and on after it; and off, with the close complete, and on again. -/
example : (run cfg0 [.setAttach false true true, .start, .bound true true]).map (fun s => (s.state, s.att.mod)) = some (.running, .setup) ∧
    wish [.setAttach false true true, .start, .bound true true] = false := by decide
example : (run cfg0 (attached ++ [.setAttach false true true, .env (.sent 0), .env .closeEvent])).map (fun s => (s.state, s.att.mod, s.att.state)) =
    some (.running, .closed, .closed) ∧ wish (attached ++ [.setAttach false true true, .env (.sent 0), .env .closeEvent]) = false := by decide
example : Settled (attached ++ [.setAttach false true true]) ∧ Memory (attached ++ [.setAttach false true true]) := by
  exact ⟨settled_snoc (settled_quiet (by decide)) (by decide), by simp [attached, Memory]⟩

/-- **A closed device**: after `nabto_device_close` or `nabto_device_stop` the switch returns `NABTO_DEVICE_EC_INVALID_STATE` and
changes nothing. -/
theorem C123_closed {cfg : Cfg} {pre post : List Op} {op : Op} {t : St} (hop : op = .close ∨ ∃ b, op = .stop b)
    (hr : returns cfg pre op = some .ok) (ht : run cfg (pre ++ op :: post) = some t) (e m b : Bool) :
    step cfg t (.setAttach e m b) = some (t, .invalidState) := by
  unfold run at ht
  unfold returns run at hr
  rw [runFrom_append] at ht
  cases hs : runFrom cfg St.init pre with
  | none => rw [hs] at ht; cases ht
  | some s =>
    rw [hs] at ht hr
    simp only [Option.bind_some, runFrom] at ht hr
    have hst : t.state = .stopped := by
      rcases hop with rfl | ⟨b, rfl⟩
      · simp only [step] at ht hr
        split at ht
        · exact Stopped.run (s := { s with state := .stopped, closing := true }) rfl ht
        · rename_i hc; rw [if_neg hc] at hr; cases hr
      · simp only [step, Option.bind_some] at ht
        exact Stopped.run (s := { s with state := .stopped, att := { s.att with keepAlive := false }.doClose b }) rfl ht
    cases e <;> simp [step, St.setAttach, hst]

example : returns cfg0 attached .close = some .ok ∧ (run cfg0 (attached ++ .close :: [.clientsClosed true, .env (.sent 0)])).isSome = true := by decide

/-- **The callback of `nabto_device_close`** cannot be replaced by the switch: it waits in the attacher, or it was called exactly
once, whatever is called and happens after the close was handed to the attacher. -/
theorem C123_close_callback {cfg : Cfg} {pre post : List Op} {b : Bool} {s t : St} (hs : run cfg pre = some s)
    (h0 : Obs.closedCb closedCb ∉ s.att.out) (ht : run cfg (pre ++ .clientsClosed b :: post) = some t) :
    (t.att.closedCb = some closedCb ∧ t.att.out.countP (· == .closedCb closedCb) = 0) ∨
    (t.att.closedCb = none ∧ t.att.out.countP (· == .closedCb closedCb) = 1) := by
  have hb := base hs
  unfold run at ht
  rw [runFrom_append, show runFrom cfg St.init pre = some s from hs] at ht
  simp only [Option.bind_some, runFrom, step] at ht
  split at ht
  · rename_i hc
    have hk : Kept { s with closing := false, att := attClose s.att closedCb b } := by
      refine ⟨hb.closing hc, rfl, .inl ⟨Core.Attacher.step_closedCb (s := s.att) (a := .close closedCb b) rfl, ?_⟩⟩
      have := Core.Attacher.step_calls (s := s.att) (a := .close closedCb b) rfl closedCb
      show Core.Attacher.calls closedCb (attClose s.att closedCb b) = 0
      refine this.trans ?_
      have h0 : Core.Attacher.calls closedCb s.att = 0 := by
        unfold Core.Attacher.calls
        rw [List.countP_eq_zero]
        intro o ho hq
        have : o = .closedCb closedCb := by simpa using hq
        subst this
        exact h0 ho
      rw [h0]
      rfl
    exact (hk.run ht).cb
  · cases ht

/-- The attach is switched off, the device is closed before the connection is, and the switch is tried again. -/
example : (run cfg0 (attached ++ [.setAttach false true true, .close] ++ .clientsClosed true ::
    [.setAttach false true true, .env (.sent 0), .env .closeEvent])).map (fun s => (s.att.closedCb, s.att.out.countP (· == .closedCb closedCb))) =
    some (none, 1) := by decide

/-! ## What does not hold -/

/-- **Violated while the device is starting.** `nabto_device_set_basestation_attach(device, false)` between `nabto_device_start`
and the resolution of its future returns OK, but `enableAttach` keeps its value: when the sockets are bound the device turns to
the basestation all the same. -/
theorem C123_off_starting_violated (cfg : Cfg) (m b : Bool) :
    ∃ s t, run cfg [.start] = some s ∧ returns cfg [.start] (.setAttach false m b) = some .ok ∧
      run cfg [.start, .setAttach false m b, .bound true true] = some t ∧ wish [.start, .setAttach false m b, .bound true true] = false ∧
      contacts s = 0 ∧ .resolve (some cfg.host) ∈ t.att.out ∧ t.att.mod = .running := by
  refine ⟨_, _, rfl, rfl, rfl, rfl, rfl, ?_, rfl⟩
  simp [step, St.setAttach, St.bound, attStart, attClose, Core.Attacher.St.start, Core.Attacher.St.doClose, Core.Attacher.init,
    Core.Attacher.St.enter, Core.Attacher.St.startResolve, Core.Attacher.St.notify, Core.Attacher.St.emit, St.init]

/-- **Violated while the device is starting**, the other way round: switching the attach on starts the attacher before the
sockets are bound, with success; when they are bound the attacher is started again, which fails, and the start of the device is
reported to have failed with `NABTO_DEVICE_EC_INVALID_STATE` (`nc_device.c:350-356`). -/
theorem C123_on_starting_violated (cfg : Cfg) (m b c : Bool) :
    returns cfg [.setAttach false m b, .start] (.setAttach true true c) = some .ok ∧
    (run cfg [.setAttach false m b, .start, .setAttach true true c, .bound true true]).map (·.started) = some [.invalidState] :=
  ⟨rfl, rfl⟩

/-- **Violated: switching on what is on.** In every started device whose attach is wanted the call returns
`NABTO_DEVICE_EC_INVALID_STATE`, although the device is not closed. -/
theorem C123_again_violated {cfg : Cfg} {ops : List Op} {s : St} (hw : Settled ops) (hm : Memory ops) (hs : run cfg ops = some s)
    (hr : s.state = .running) (hb : starting ops = false) (hf : wish ops = true) (m b : Bool) :
    returns cfg ops (.setAttach true m b) = some .invalidState := by
  have hi := inv hw hs
  obtain ⟨f1, f2⟩ := follows hw hm hs hr (hi.binding.trans hb)
  have hrn := f2.1 hf
  have he : s.enable = true := by
    cases he : s.enable with
    | true => rfl
    | false => rw [f1.1 he] at hrn; cases hrn
  unfold returns
  rw [hs]
  simp [step, St.setAttach, hr, he, attRestart, hrn]

example : (run cfg0 attached).map (·.state) = some .running ∧ starting attached = false ∧ wish attached = true ∧
    returns cfg0 attached (.setAttach true true true) = some .invalidState := by decide

/-- **Violated when there is no memory.** The attach is off at the start; when it is switched on there is no memory for the name of
the server, and the call says so. From then on the device takes the attacher for started: whatever happens, every further try
returns `NABTO_DEVICE_EC_INVALID_STATE` and the device never turns to the basestation. -/
theorem C123_memory_violated (cfg : Cfg) (m b c : Bool) :
    returns cfg [.setAttach false m b, .start, .bound true true] (.setAttach true false c) = some .outOfMemory ∧
    ∀ post t, run cfg ([.setAttach false m b, .start, .bound true true, .setAttach true false c] ++ post) = some t →
      contacts t = 0 ∧ ∀ m' b', ∃ u, step cfg t (.setAttach true m' b') = some (u, .invalidState) := by
  refine ⟨rfl, ?_⟩
  intro post t ht
  unfold run at ht
  rw [runFrom_append] at ht
  obtain ⟨s, hs⟩ : ∃ s, runFrom cfg St.init [.setAttach false m b, .start, .bound true true, .setAttach true false c] = some s := ⟨_, rfl⟩
  have hk : Stuck s ∧ contacts s = 0 := by
    cases hs
    exact ⟨⟨fun hc => (nomatch hc), rfl, rfl, rfl, fun _ => ⟨rfl, rfl, rfl, rfl, rfl, rfl⟩⟩, rfl⟩
  rw [hs] at ht
  obtain ⟨h1, h2⟩ := hk.1.run ht
  refine ⟨h2.trans hk.2, ?_⟩
  intro m' b'
  cases hp : step cfg t (.setAttach true m' b') with
  | none => cases hp
  | some r => exact ⟨r.1, by rw [← (h1.step (t := r.1) (ec := r.2) hp).2.2 rfl]⟩

end Verif.Device.Attach.Props
