import Verif.Core.AttacherSct
import Verif.Core.AttacherNames

/-!
# Attacher: properties

C38 (progress), C39 (close, attached and detached events), C40 (server connect tokens), C67 (the name for the
certificate) and C68 (redirects).
-/

namespace Verif.Core.Attacher.Props

open Spec

/-! ## Executions for the examples -/

/-- A device which attaches: the name is resolved, the handshake completes, both requests are answered. -/
def attach (id : Nat) : List Act :=
  [.resolved (some ["192.0.2.1"]) {}, .connected id {}, .sent id, .startResponse .attached {}, .endResponse (some true) {}]

def cb0 : Cb := { id := 0, disable := false }
def cb1 : Cb := { id := 1, disable := false }
def dis : Cb := { id := 7, disable := true }

/-- The observations after some actions. -/
def outOf (as : List Act) : Option (List Obs) := (run init as).map (·.out)

/-- `Regular` is decidable. -/
instance (s : St) (a : Act) : Decidable (Regular s a) := by
  cases a <;> unfold Regular <;> infer_instance

/-- A checker for regular executions. -/
def regular (s : St) : List Act → Bool
  | [] => true
  | a :: as =>
    decide (Regular s a) && match step s a with
      | some t => regular t as
      | none => false

theorem regular_run {s as t} (h : regular s as = true) (hr : run s as = some t) : Run s as t := by
  induction as generalizing s with
  | nil => cases hr; exact .nil _
  | cons a as ih =>
    simp only [regular, Bool.and_eq_true, decide_eq_true_eq] at h
    simp only [run] at hr
    cases hs : step s a with
    | none => rw [hs] at hr; cases hr
    | some u =>
      rw [hs] at hr
      have h2 := h.2
      simp only [hs] at h2
      exact .cons h.1 hs (ih h2 hr)

/-! ## C38: progress -/

/-- In every regular execution, a running attacher which is not attached has something pending: a name being
resolved, a timer, or a connection which is connecting, waits for an answer or waits for its last datagram. -/
theorem C38_pending_partial {as s} (h : Run init as s) (hm : s.mod = .running) (hs : s.state ≠ .attached) : Pending s := by
  have hi := Inv.init.run h
  have h1 := hi.sched
  unfold Pending
  cases hst : s.state with
  | dns => exact .inl (h1.resolving.2 ⟨hst, by rw [hm]; simp⟩)
  | retryWait => exact .inr (.inl (h1.timer.2 (.inl hst)))
  | deniedWait => exact .inr (.inl (h1.timer.2 (.inr hst)))
  | closed => exact absurd hst (h1.running hm)
  | attached => exact absurd hst hs
  | request =>
    have hd : s.dtls ≠ none := by
      intro hd
      have := h1.idle.1 hd
      unfold Idle Waits at this
      simp [hst] at this
    obtain ⟨i, hd⟩ := Option.ne_none_iff_exists'.1 hd
    obtain ⟨c, hc⟩ := hi.conns.cur i hd
    have hcur : s.cur = some c := by simp [St.cur, hd, hc]
    refine .inr (.inr ⟨c, hcur, ?_⟩)
    have hl := hi.link c hcur
    cases hp : c.phase with
    | connecting => exact .inl rfl
    | closing => exact .inr (.inr ⟨rfl, hl.1 hp⟩)
    | data =>
      refine .inr (.inl ⟨rfl, ?_⟩)
      rcases hl.2.2.2 hp with ⟨_, ho⟩ | ⟨ha, _⟩
      · unfold OneReq at ho
        unfold Requested
        grind
      · exact absurd ha hs
  | redirect =>
    have hd : s.dtls ≠ none := by
      intro hd
      have := h1.idle.1 hd
      unfold Idle Waits at this
      simp [hst] at this
    obtain ⟨i, hd⟩ := Option.ne_none_iff_exists'.1 hd
    obtain ⟨c, hc⟩ := hi.conns.cur i hd
    have hcur : s.cur = some c := by simp [St.cur, hd, hc]
    have hl := hi.link c hcur
    have hp := hl.2.1 (.inl hst)
    exact .inr (.inr ⟨c, hcur, .inr (.inr ⟨hp, hl.1 hp⟩)⟩)

/-- A running attacher which is not attached, in the middle of a redirect. -/
example : ∃ as s, Run init as s ∧ s.mod = .running ∧ s.state = .redirect := by
  have : run init ([.start "h" 443 true, .resolved (some ["192.0.2.1"]) {}, .connected 0 {}, .startResponse (.redirect "r" 443 true) {}] : List Act) ≠ none := by
    decide +kernel
  obtain ⟨s, hs⟩ := Option.ne_none_iff_exists'.1 this
  have hr := regular_run (by decide +kernel) hs
  have h2 : (run init ([.start "h" 443 true, .resolved (some ["192.0.2.1"]) {}, .connected 0 {}, .startResponse (.redirect "r" 443 true) {}] : List Act)).map
      (fun s => (s.mod, s.state)) = some (.running, .redirect) := by decide +kernel
  rw [hs] at h2
  simp only [Option.map_some, Option.some.injEq, Prod.mk.injEq] at h2
  exact ⟨_, s, hr, h2⟩

/-- An attached device has a connection: it is up and its keep alive timer runs, or it is being closed and its
last datagram is being sent. -/
theorem C38_attached_partial {as s} (h : Run init as s) (hs : s.state = .attached) :
    ∃ c, s.cur = some c ∧ ((c.phase = .data ∧ s.keepAlive = true) ∨ (c.phase = .closing ∧ c.sending = true)) := by
  have hi := Inv.init.run h
  have hd : s.dtls ≠ none := by
    intro hd
    have := hi.sched.idle.1 hd
    unfold Idle Waits at this
    simp [hs] at this
  obtain ⟨i, hd⟩ := Option.ne_none_iff_exists'.1 hd
  obtain ⟨c, hc⟩ := hi.conns.cur i hd
  have hcur : s.cur = some c := by simp [St.cur, hd, hc]
  have hl := hi.link c hcur
  refine ⟨c, hcur, ?_⟩
  cases hp : c.phase with
  | connecting => have := (hl.2.2.1 hp).1; rw [hs] at this; cases this
  | closing => exact .inr ⟨rfl, hl.1 hp⟩
  | data =>
    rcases hl.2.2.2 hp with ⟨ha, _⟩ | ⟨_, hk, _⟩
    · rw [hs] at ha; cases ha
    · exact .inl ⟨rfl, hk⟩

/-- In every regular execution, eight completions of pending operations after any point lead to a new attempt,
whatever their results are: a name is given to the resolver again, or the device is attached. -/
theorem C38_progress_partial {pre s as t} (h : Run init pre s) (hm : s.mod = .running) (hr : Run s as t)
    (he : ∀ a ∈ as, env a = true) (hc : 7 < completions s as) : s.out.countP attempt < t.out.countP attempt := by
  have := rank_le s
  rcases Advance.run (Inv.init.run h) hm hr he with h1 | ⟨_, h2⟩
  · exact h1
  · omega

/-- A lost connection, a failed resolution and an expired timer: eight completions and more. -/
example : ∃ s t as, Run init [.start "h" 443 true] s ∧ Run s as t ∧ s.mod = .running ∧ (∀ a ∈ as, env a = true) ∧ 7 < completions s as := by
  let as : List Act :=
    [.resolved none {}, .timer true, .resolved (some ["192.0.2.1"]) {}, .fail 0 .closed false, .sent 0, .timer true,
     .resolved (some ["192.0.2.1"]) {}, .connected 1 {}, .sent 1, .startResponse .error { sending := false }, .timer true, .resolved none {}]
  have : run init (.start "h" 443 true :: as) ≠ none := by decide +kernel
  obtain ⟨t, ht⟩ := Option.ne_none_iff_exists'.1 this
  obtain ⟨s, hs, hst⟩ : ∃ s, step init (.start "h" 443 true) = some s ∧ run s as = some t := ⟨_, rfl, ht⟩
  refine ⟨s, t, as, .cons rfl hs (.nil _), regular_run ?_ hst, ?_, by decide +kernel, ?_⟩ <;>
    (cases hs; decide +kernel)

/-- Nothing which is pending leads to a new attempt. -/
structure Stuck (s : St) : Prop where
  mod : s.mod = .running
  state : s.state = .retryWait
  resolving : s.resolving = false
  conns : s.conns = []
  dtls : s.dtls = none
  timer : s.timer = none
  closeEv : s.closeEv = false
  keepAlive : s.keepAlive = false
  startReq : s.startReq = none
  endReq : s.endReq = none
  sct : s.sct.callback = none

theorem Stuck.step {s a t} (h : Stuck s) (he : env a = true) (hst : step s a = some t) :
    Stuck t ∧ t.out.countP attempt = s.out.countP attempt := by
  have hcn : ∀ i, s.conn? i = none := by intro i; simp [St.conn?, h.conns]
  cases a with
  | start | close | stop | restart => cases he
  | addToken x m e =>
    cases hst
    unfold St.addToken
    simp only
    split
    · exact ⟨⟨h.mod, h.state, h.resolving, h.conns, h.dtls, h.timer, h.closeEv, h.keepAlive, h.startReq, h.endReq, h.sct⟩, rfl⟩
    · split
      · next h' => rw [show _ = s.state from rfl, h.state] at h'; cases h'
      · refine ⟨⟨h.mod, h.state, h.resolving, h.conns, h.dtls, h.timer, h.closeEv, h.keepAlive, h.startReq, h.endReq, h.sct⟩, ?_⟩
        simp [St.emit, List.countP_append, attempt]
  | resolved ips e => simp [Attacher.step, h.resolving] at hst
  | connected id e => simp [Attacher.step, hcn] at hst
  | fail id d b => simp [Attacher.step, hcn] at hst
  | send id => simp [Attacher.step, hcn] at hst
  | sent id => simp [Attacher.step, hcn] at hst
  | startResponse r e => simp [Attacher.step, h.startReq] at hst
  | sctResponse r e => simp [Attacher.step, h.sct] at hst
  | endResponse r e => simp [Attacher.step, h.endReq] at hst
  | keepAliveTimeout b => simp [Attacher.step, h.keepAlive] at hst
  | timer m => simp [Attacher.step, h.timer] at hst
  | closeEvent => simp [Attacher.step, h.closeEv] at hst
  | deferred =>
    simp only [Attacher.step] at hst
    split at hst
    · cases hst; exact ⟨h, rfl⟩
    · cases hst

theorem Stuck.run {s as t} (h : Stuck s) (he : ∀ a ∈ as, env a = true) (hr : run s as = some t) :
    t.out.countP attempt = s.out.countP attempt := by
  induction as generalizing s with
  | nil => cases hr; rfl
  | cons a as ih =>
    simp only [Attacher.run] at hr
    cases hs : Attacher.step s a with
    | none => rw [hs] at hr; cases hr
    | some u =>
      rw [hs] at hr
      obtain ⟨h1, h2⟩ := h.step (he a (List.mem_cons_self ..)) hs
      rw [ih h1 (fun x hx => he x (List.mem_cons_of_mem _ hx)) hr, h2]

/-- C38 is violated: when a DTLS connection cannot be created, the attacher waits for ever. The state becomes
`RETRY_WAIT`, but no timer is started: the event which should start it runs a function which only posts the
event again (`nc_attacher.c:417-420` and 445-449). Only the application can end this. -/
theorem C38_violated_create : ∃ as s, run init as = some s ∧ s.mod = .running ∧ s.state ≠ .attached ∧
    ∀ bs t, (∀ a ∈ bs, env a = true) → run s bs = some t → t.out.countP attempt = s.out.countP attempt := by
  refine ⟨[.start "h" 443 true, .resolved (some ["192.0.2.1"]) { create := false }], _, rfl, rfl, by decide, ?_⟩
  intro bs t he hr
  exact Stuck.run ⟨rfl, rfl, rfl, rfl, rfl, rfl, rfl, rfl, rfl, rfl, rfl⟩ he hr

/-- A second violation: the device is closed and attached again before the close is complete, and there is no
memory for the name. Then the close event cancels the retry timer (`nc_attacher.c:386-395`). -/
theorem C38_violated_restart : ∃ as s, run init as = some s ∧ s.mod = .running ∧ s.state ≠ .attached ∧
    ∀ bs t, (∀ a ∈ bs, env a = true) → run s bs = some t → t.out.countP attempt = s.out.countP attempt := by
  refine ⟨[.start "h" 443 true, .close dis true, .resolved none {}, .restart false, .closeEvent], _, rfl, rfl, by decide, ?_⟩
  intro bs t he hr
  exact Stuck.run ⟨rfl, rfl, rfl, rfl, rfl, rfl, rfl, rfl, rfl, rfl, rfl⟩ he hr

/-! ## C39: close -/

/-- In every execution a callback is called at most as often as it was given to a close. -/
theorem C39_at_most_once {as s} (h : run init as = some s) (cb : Cb) :
    s.out.countP (· == .closedCb cb) ≤ as.countP (isClose cb) := by
  have := calls_le h cb
  unfold calls closes at this
  omega

example : (outOf [.start "h" 443 true, .close cb0 true, .resolved none {}, .closeEvent]).map (·.countP (· == .closedCb cb0)) = some 1 := by
  decide +kernel

/-- After a close in a regular execution, as long as the application neither starts, restarts nor closes the
attacher: until the callback is called, a close event is posted, a name is being resolved, or the last datagram
of the connection is being sent. -/
theorem C39_close_pending_partial {pre s cb b t as u} (h : Run init pre s) (hc : step s (.close cb b) = some t) (hr : Run t as u)
    (ha : ∀ a ∈ as, interferes a = false) (hn : u.out.countP (· == .closedCb cb) = t.out.countP (· == .closedCb cb)) :
    u.closeEv = true ∨ u.resolving = true ∨ ∃ c, u.cur = some c ∧ c.phase = .closing ∧ c.sending = true := by
  have hi := Inv.init.run h
  have ht : Inv t := hi.step (a := .close cb b) trivial hc
  have hcb : t.closedCb = some cb := step_closedCb hc
  have hu := ht.run hr
  rcases close_run ht hcb hr ha with ⟨h1, _, _⟩ | ⟨_, h2⟩
  · have hs := hu.sched.closedCb (by rw [h1]; rfl)
    by_cases hx : u.mod = .setup ∨ u.state = .closed
    · exact .inl (hs.2 hx)
    · right
      have hm : u.mod = .closed := by
        cases hm : u.mod with
        | setup => exact absurd (.inl hm) hx
        | running => exact absurd hm hs.1
        | closed => rfl
      by_cases hd : u.state = .dns
      · exact .inl (hu.sched.resolving.2 ⟨hd, by rw [hm]; simp⟩)
      · right
        have hnd : u.dtls ≠ none := by
          intro h
          have h1 := hu.sched.idle.1 h
          have h2 := hu.sched.closedM hm
          unfold Idle Waits at h1
          grind
        obtain ⟨i, hd⟩ := Option.ne_none_iff_exists'.1 hnd
        obtain ⟨c, hc⟩ := hu.conns.cur i hd
        have hcur : u.cur = some c := by simp [St.cur, hd, hc]
        have hl := hu.link c hcur
        have hp := hl.2.1 (.inr hm)
        exact ⟨c, hcur, hp, hl.1 hp⟩
  · unfold calls at h2
    omega

/-- After a close in a regular execution, two completions of what it waits for lead to exactly one call of the
callback. -/
theorem C39_close_completes_partial {pre s cb b t as u} (h : Run init pre s) (hc : step s (.close cb b) = some t) (hr : Run t as u)
    (ha : ∀ a ∈ as, interferes a = false) (hn : 1 < endings t as) :
    u.out.countP (· == .closedCb cb) = t.out.countP (· == .closedCb cb) + 1 := by
  have ht : Inv t := (Inv.init.run h).step (a := .close cb b) trivial hc
  have hcb : t.closedCb = some cb := step_closedCb hc
  rcases close_run ht hcb hr ha with ⟨_, _, h3⟩ | ⟨_, h2⟩
  · unfold crank at h3
    split at h3 <;> split at h3 <;> omega
  · exact h2

/-- An attached device is closed: the close notify is sent, the close event runs. -/
example : ∃ s t u as, Run init (.start "h" 443 true :: attach 0) s ∧ s.state = .attached ∧ step s (.close cb0 true) = some t ∧
    Run t as u ∧ (∀ a ∈ as, interferes a = false) ∧ 1 < endings t as := by
  let as : List Act := [.sent 0, .addToken "t" true {}, .closeEvent]
  obtain ⟨s, hs⟩ := Option.ne_none_iff_exists'.1 (show run init (.start "h" 443 true :: attach 0) ≠ none by decide +kernel)
  have hs' : s = (run init (.start "h" 443 true :: attach 0)).get (by decide +kernel) := by simp [hs]
  obtain ⟨t, ht⟩ : ∃ t, step s (.close cb0 true) = some t := ⟨_, rfl⟩
  have ht' : t = (run init ((.start "h" 443 true :: attach 0) ++ [.close cb0 true])).get (by decide +kernel) := by
    cases ht; subst hs'; decide +kernel
  obtain ⟨u, hu⟩ := Option.ne_none_iff_exists'.1 (show run t as ≠ none by subst ht'; decide +kernel)
  refine ⟨s, t, u, as, regular_run (by decide +kernel) hs, by subst hs'; decide +kernel, ht, regular_run ?_ hu, by decide, ?_⟩
  · subst ht'; decide +kernel
  · subst ht'; decide +kernel

/-- After the callback of a close in a regular execution, until the attacher is started again: no name is
resolved, no connection opened, no request sent and no event reported, as long as `nc_device_attach_disabled_cb`
is not given to another close. -/
theorem C39_quiet_partial {pre s t as u} (h : Run init pre s) (hc : step s .closeEvent = some t) (hr : Run t as u)
    (hs : ∀ ho p m, .start ho p m ∉ as) (hrs : ∀ m, .restart m ∉ as) (hd : ∀ cb b, .close cb b ∈ as → cb.disable = false) :
    ∃ l, u.out = t.out ++ l ∧ ∀ o ∈ l, quiet o = true := by
  have hi := Inv.init.run h
  have ht : Inv t := hi.step (a := .closeEvent) trivial hc
  have hcb : t.closedCb = none := step_closedCb hc
  have hce : s.closeEv = true := by
    simp only [step] at hc
    split at hc
    · assumption
    · cases hc
  have hst : t.mod = s.mod ∧ t.state = s.state := by
    simp only [step, hce, if_true, Option.some.injEq] at hc
    subst hc
    unfold St.resolveClose
    simp only
    split
    · exact ⟨rfl, rfl⟩
    · split <;> exact ⟨rfl, rfl⟩
  have hrest : Rest t := by
    unfold Rest
    rw [hst.1, hst.2]
    have h1 := hi.sched.closeEv hce
    have h2 := hi.sched.running
    grind
  exact hrest.run ht (by intro cb h; rw [hcb] at h; cases h) hr hs hrs hd

/-- A second close and an added token after the first close. -/
example : ∃ s t u as, Run init [.start "h" 443 true, .close cb0 true, .resolved none {}] s ∧ step s .closeEvent = some t ∧
    Run t as u ∧ as.length = 4 := by
  refine ⟨_, _, _, [.addToken "t" true {}, .close cb1 true, .closeEvent, .stop true], regular_run (by decide +kernel) rfl, rfl, regular_run (by decide +kernel) rfl, rfl⟩

/-- Attached and detached events alternate in every regular execution in which attach is never disabled, and
the last one tells whether the device is attached. -/
theorem C39_alternate_partial {as s} (h : Run init as s) (hd : ∀ cb b, .close cb b ∈ as → cb.disable = false) :
    alternate false s.out = some (decide (s.state = .attached)) :=
  Alt.run Inv.init (by unfold Alt init; rfl) (by intro cb h; cases h) h hd

/-- A device which attaches, loses its connection, attaches again and is closed. -/
example : (outOf (.start "h" 443 true :: attach 0 ++ [.keepAliveTimeout true, .sent 0, .timer true] ++ attach 1 ++
    [.close cb0 true, .sent 1, .closeEvent])).map (fun l => (alternate false l, l.countP (· == .event .attached))) = some (some false, 2) ∧
    regular init (.start "h" 443 true :: attach 0 ++ [.keepAliveTimeout true, .sent 0, .timer true] ++ attach 1 ++
      [.close cb0 true, .sent 1, .closeEvent]) = true := by
  constructor <;> decide +kernel

/-- C39 is violated: disabling attach on an attached device reports two detached events, one when the
connection is reset and one from `nc_device_attach_disabled_cb` (`nc_device.c:653-655`). -/
theorem C39_violated_detached_twice : ∃ as s, Run init as s ∧ alternate false s.out = none ∧
    s.out.countP (· == .event .attached) = 1 ∧ s.out.countP (· == .event .detached) = 2 := by
  let as := .start "h" 443 true :: attach 0 ++ [.close dis true, .sent 0, .closeEvent]
  have h : (run init as).map (fun s => (alternate false s.out, s.out.countP (· == .event .attached), s.out.countP (· == .event .detached))) =
      some (none, 1, 2) := by decide +kernel
  obtain ⟨s, hs, h⟩ := Option.map_eq_some_iff.1 h
  simp only [Prod.mk.injEq] at h
  exact ⟨as, s, regular_run (by decide +kernel) hs, h⟩

/-- The callback of a close is never called when the attacher is closed again before it was called:
`nc_attacher_async_close` overwrites it (`nc_attacher.c:301-308`). Here the attach is disabled and then the device is closed:
the callback which reports that the attach is disabled is lost. The other way round cannot happen, see
`C123_close_callback`: a closed device refuses to disable the attach. -/
theorem C39_violated_lost : ∃ as s, Run init as s ∧ (∃ b, .close dis b ∈ as) ∧ .closedCb dis ∉ s.out ∧
    s.closedCb = none ∧ s.closeEv = false ∧ s.resolving = false ∧ s.conns = [] := by
  refine ⟨[.start "h" 443 true, .close dis true, .close cb0 true, .resolved none {}, .closeEvent], _, regular_run (by decide +kernel) rfl,
    ⟨true, by decide⟩, by decide, rfl, rfl, rfl, rfl⟩

/-- The callback of a close is not called either when attach is enabled again before the close is complete. -/
theorem C39_violated_restart : ∃ as s, run init as = some s ∧ (∃ b, .close dis b ∈ as) ∧ .closedCb dis ∉ s.out ∧
    s.state = .attached ∧ s.closeEv = false := by
  let as := [.start "h" 443 true, .close dis true, .restart true] ++ attach 0
  have h : (run init as).map (fun s => (s.out.contains (.closedCb dis), s.state, s.closeEv)) = some (false, .attached, false) := by decide +kernel
  obtain ⟨s, hs, h⟩ := Option.map_eq_some_iff.1 h
  simp only [Prod.mk.injEq] at h
  exact ⟨as, s, hs, ⟨true, by decide⟩, by simpa using h.1, h.2⟩

/-- A callback is called too early when attach is enabled while a close event is posted: the event then
completes the next close, while the device still resolves a name. -/
theorem C39_violated_early : ∃ as s, run init as = some s ∧ .closedCb cb0 ∈ s.out ∧ s.resolving = true := by
  refine ⟨[.start "h" 443 true, .close dis true, .resolved none {}, .restart true, .close cb0 true, .closeEvent], _, rfl, by decide, rfl⟩

/-! ## C40: server connect tokens -/

/-- In every execution: when an attached device says that its server connect tokens are synchronized, the server
has acknowledged, on the connection the device is attached with, an upload with every token added so far. -/
theorem C40_synchronized {as s} (h : run init as = some s) (ha : s.state = .attached) (hs : s.synchronized = true)
    {tok} (ht : .added tok ∈ s.out) : ∃ body, tok ∈ body ∧ .acked s.dtls body ∈ s.out := by
  have hi := SctInv.init.run h
  have hsync : s.sct.synced = s.sct.version := by
    unfold St.synchronized at hs
    rw [if_pos ha] at hs
    simpa using hs
  rcases hi.att ha with h0 | ⟨b, h1, h2⟩
  · have hv : s.sct.version = 0 := by omega
    have := hi.added _ ht
    rw [hi.version hv] at this
    cases this
  · exact ⟨b, by rw [h2 hsync]; exact hi.added _ ht, h1⟩

/-- A token added during the upload of another: only after the second upload the tokens are synchronized. -/
example :
    let as := [.addToken "a" true {}, .start "h" 443 true, .resolved (some ["192.0.2.1"]) {}, .connected 0 {}, .startResponse .attached {},
      .addToken "b" true {}, .sctResponse (some true) {}, .endResponse (some true) {}]
    (run init as).map (fun s => (s.state, s.synchronized)) = some (.attached, false) ∧
    (run init (as ++ [.sctResponse (some true) {}])).map (fun s => (s.state, s.synchronized)) = some (.attached, true) := by
  constructor <;> decide +kernel

/-! ## C67: the name for the certificate -/

/-- In every execution: whatever redirects and answers of the resolver there are, a connection is opened with the
host name which the application configured, so the certificate is checked against this name. -/
theorem C67_certificate_name {as s} (h : run init as = some s) {i eps sni} (hc : .connect i eps sni ∈ s.out) :
    configured as = some sni := connects h i eps sni hc

/-- The connection after a redirect. -/
example : (outOf [.start "h" 443 true, .resolved (some ["192.0.2.1"]) {}, .connected 0 {}, .sent 0,
    .startResponse (.redirect "evil" 4433 true) { sending := false }, .resolved (some ["198.51.100.7"]) {}]).map (fun l => decide
      (.resolve (some "evil") ∈ l ∧ .connect 1 [("198.51.100.7", 4433)] "h" ∈ l)) = some true := by decide +kernel

/-! ## C68: redirects -/

/-- In every execution, a name which is resolved is the configured one, or a server redirected the device to it. -/
theorem C68_names {as s} (h : run init as = some s) {n} (hn : .resolve (some n) ∈ s.out) :
    configured as = some n ∨ redirectedTo as n := (names h).2 n hn

/-- In regular executions there always is a name. -/
theorem C68_name_present_partial {as s} (h : Run init as s) : .resolve none ∉ s.out :=
  never_null Inv.init (by intro h; cases h) (by simp [init]) h

/-- In every execution, from any state on, at most five names are resolved between two actions which begin a series of attempts: a
start, a restart or the expiry of the timer. So a server which redirects the device for ever only makes it try five
times per retry interval. -/
theorem C68_redirects_bounded {s as t} (hr : run s as = some t) (hb : ∀ a ∈ as, begins a = false) :
    t.out.countP isResolve ≤ s.out.countP isResolve + 5 := by
  have h1 := Desc.run hb hr
  have h2 := left_le s
  unfold Desc lookups at h1
  omega

/-- A server which redirects the device again and again. -/
def redirects (n : Nat) : List Act :=
  (List.range n).flatMap (fun i => [.resolved (some ["192.0.2.1"]) {}, .connected i {}, .sent i, .startResponse (.redirect "r" 443 true) { sending := false }])

/-- It succeeds four times; after the fifth redirect the device waits. -/
example : (run init (.start "h" 443 true :: redirects 4)).map (fun s => (s.state, s.out.countP isResolve)) = some (.dns, 5) ∧
    (run init (.start "h" 443 true :: redirects 5)).map (fun s => (s.state, s.timer, s.out.countP isResolve)) = some (.retryWait, some 10000, 5) := by
  constructor <;> decide +kernel

end Verif.Core.Attacher.Props
