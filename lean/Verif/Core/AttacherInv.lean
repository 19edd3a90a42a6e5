import Verif.Core.AttacherSpec

/-!
# Attacher: the invariant of regular executions
-/

namespace Verif.Core.Attacher

open Spec

def Waits (x : AState) : Prop := x = .retryWait ∨ x = .deniedWait ∨ x = .closed

/-- The states without a connection. -/
def Idle (x : AState) : Prop := x = .dns ∨ Waits x

/-- No request, or exactly one, is outstanding on a connection. -/
def NoReq (s : St) (i : Nat) : Prop := ¬ Requested s i

def OneReq (s : St) (i : Nat) : Prop :=
  (s.startReq = some (some i) ∧ ¬ (s.sct.callback = some true ∧ s.sct.conn = some i) ∧ s.endReq ≠ some (some i)) ∨
  (s.startReq ≠ some (some i) ∧ (s.sct.callback = some true ∧ s.sct.conn = some i) ∧ s.endReq ≠ some (some i)) ∨
  (s.startReq ≠ some (some i) ∧ ¬ (s.sct.callback = some true ∧ s.sct.conn = some i) ∧ s.endReq = some (some i))

/-- The connections: the current one, and destroyed ones whose last datagram is being sent. The latter are
there only while the attacher waits, except for `ex`. -/
structure Conns (ex : Option Nat) (s : St) : Prop where
  conn : ∀ i c, s.conn? i = some c → c.id = i ∧ i < s.nextId ∧
    ((s.dtls = some i ∧ c.destroyed = false) ∨
      (c.destroyed = true ∧ c.phase = .closing ∧ c.sending = true ∧ s.dtls ≠ some i ∧ (ex = some i ∨ Waits s.state)))
  cur : ∀ i, s.dtls = some i → ∃ c, s.conn? i = some c
  start : ∀ k, s.startReq = some (some k) → k < s.nextId
  sct : ∀ k, s.sct.callback.isSome → s.sct.conn = some k → k < s.nextId
  end_ : ∀ k, s.endReq = some (some k) → k < s.nextId

/-- What is pending in which state. -/
structure Sched (s : St) : Prop where
  idle : s.dtls = none ↔ Idle s.state
  resolving : s.resolving = true ↔ s.state = .dns ∧ s.mod ≠ .setup
  timer : s.timer.isSome ↔ s.state = .retryWait ∨ s.state = .deniedWait
  setup : s.mod = .setup → s.state = .dns
  running : s.mod = .running → s.state ≠ .closed
  closedM : s.mod = .closed → s.state ≠ .retryWait ∧ s.state ≠ .deniedWait
  closeEv : s.closeEv = true → s.state = .closed ∨ s.mod = .setup
  closedCb : s.closedCb.isSome → s.mod ≠ .running ∧ ((s.mod = .setup ∨ s.state = .closed) → s.closeEv = true)
  deferred : s.deferred = false
  ka : s.keepAlive = true → s.state = .attached

/-- The current connection and the requests on it. -/
def Link (s : St) (c : Conn) : Prop :=
  (c.phase = .closing → c.sending = true) ∧
  (s.state = .redirect ∨ s.mod = .closed → c.phase = .closing) ∧
  (c.phase = .connecting → s.state = .request ∧ NoReq s c.id) ∧
  (c.phase = .data → (s.state = .request ∧ OneReq s c.id) ∨ (s.state = .attached ∧ s.keepAlive = true ∧ NoReq s c.id))

structure Inv (s : St) : Prop where
  conns : Conns none s
  sched : Sched s
  link : ∀ c, s.cur = some c → Link s c

theorem conn?_setConn (s : St) (c : Conn) (i : Nat) :
    (s.setConn c).conn? i = if i = c.id then (s.conn? i).map (fun _ => c) else s.conn? i := by
  simp only [St.conn?, St.setConn]
  induction s.conns with
  | nil => simp
  | cons x l ih => grind [List.find?_cons]

theorem conn?_dropConn (s : St) (j i : Nat) : (s.dropConn j).conn? i = if i = j then none else s.conn? i := by
  simp only [St.conn?, St.dropConn]
  induction s.conns with
  | nil => simp
  | cons x l ih => grind [List.find?_cons, List.filter_cons]

theorem conn?_id {s : St} {i : Nat} {c : Conn} (h : s.conn? i = some c) : c.id = i := by
  have := List.find?_some h
  simpa using this

theorem conn?_destroy (s : St) (c : Conn) (i : Nat) :
    (s.destroy c).conn? i =
      if i = c.id then (if c.sending then (s.conn? i).map (fun _ => { c with phase := .closing, destroyed := true }) else none)
      else s.conn? i := by
  unfold St.destroy
  split
  · rw [conn?_setConn]
  · rw [conn?_dropConn]

theorem conn?_append (s : St) (c : Conn) (t : St) (ht : t.conns = s.conns ++ [c]) (hn : s.conn? c.id = none) (i : Nat) :
    t.conn? i = if i = c.id then some c else s.conn? i := by
  simp only [St.conn?, ht, List.find?_append] at hn ⊢
  by_cases hi : i = c.id
  · subst hi; rw [hn]; simp
  · have : (c.id == i) = false := by simpa using fun h : c.id = i => hi h.symm
    simp [hi, List.find?_cons, this]

theorem conn?_reset (s : St) (i : Nat) :
    s.reset.conn? i =
      match s.cur with
      | some c => (s.destroy c).conn? i
      | none => s.conn? i := by
  unfold St.reset St.conn?
  cases s.cur <;> rfl

theorem conn?_enter (s : St) (i : Nat) : s.enter.conn? i = s.conn? i := by
  unfold St.enter
  cases s.state <;> rfl

theorem conn?_emit (s : St) (o : Obs) (i : Nat) : (s.emit o).conn? i = s.conn? i := rfl

theorem conn?_down (s : St) (e : Down) (i : Nat) : (s.down e).conn? i = s.reset.conn? i := by
  unfold St.down
  split
  · rw [conn?_enter]; rfl
  · cases e
    · simp only
      split
      · rw [conn?_enter]; rfl
      · rfl
      · rw [conn?_enter]; rfl
    · simp only; rw [conn?_enter]; rfl
    · simp only; rw [conn?_enter]; rfl

/-- The state after a connection ended. -/
def downState (s : St) (e : Down) : AState :=
  if s.mod = .closed then .closed
  else match e with
    | .closed =>
      match s.state with
      | .redirect => if s.redirects ≥ 5 then .retryWait else .dns
      | .deniedWait => .deniedWait
      | _ => .retryWait
    | .denied => .deniedWait
    | .certificate => .retryWait

theorem down_fields (s : St) (e : Down) :
    (s.down e).state = downState s e ∧ (s.down e).mod = s.mod ∧ (s.down e).dtls = none ∧
    (s.down e).keepAlive = false ∧ (s.down e).closedCb = s.closedCb ∧ (s.down e).deferred = s.deferred ∧
    (s.down e).startReq = s.startReq ∧ (s.down e).endReq = s.endReq ∧ (s.down e).sct = s.sct ∧
    (s.down e).nextId = s.nextId ∧
    (s.down e).resolving = (s.resolving || decide (downState s e = .dns)) ∧
    (s.down e).timer.isSome = (s.timer.isSome || decide (downState s e = .retryWait ∨
      (downState s e = .deniedWait ∧ (s.state ≠ .deniedWait ∨ e ≠ .closed)))) ∧
    (s.down e).closeEv = (s.closeEv || decide (downState s e = .closed)) := by
  unfold St.down downState
  by_cases hm : s.mod = .closed
  · simp [hm, St.enter, St.reset, St.notify, St.emit]
  · simp only [hm, if_false]
    cases e
    · have hr : s.reset.state = s.state := rfl
      have hr' : s.reset.redirects = s.redirects := rfl
      simp only [hr, hr']
      cases hs : s.state <;> simp only
      case redirect =>
        by_cases h5 : s.redirects ≥ 5 <;>
          simp [h5, St.enter, St.reset, St.notify, St.emit, St.startResolve]
      all_goals simp [St.enter, St.reset, St.notify, St.emit, hs]
    · simp [St.enter, St.reset, St.notify, St.emit]
    · simp [St.enter, St.reset, St.notify, St.emit]

theorem downState_cases (s : St) (e : Down) :
    (s.mod = .closed ∧ downState s e = .closed) ∨
    (s.mod ≠ .closed ∧ e = .closed ∧ s.state = .redirect ∧ (downState s e = .dns ∨ downState s e = .retryWait)) ∨
    (s.mod ≠ .closed ∧ (e = .denied ∨ (e = .closed ∧ s.state = .deniedWait)) ∧ downState s e = .deniedWait) ∨
    (s.mod ≠ .closed ∧ (e = .certificate ∨ (e = .closed ∧ s.state ≠ .redirect ∧ s.state ≠ .deniedWait)) ∧ downState s e = .retryWait) := by
  unfold downState
  by_cases hm : s.mod = .closed
  · simp [hm]
  · simp only [hm, if_false]
    cases e
    · cases hs : s.state <;> simp [hm]
      by_cases h5 : 5 ≤ s.redirects
      · simp [h5]
      · simp [h5]; omega
    · simp [hm]
    · simp [hm]

theorem cur_eq {s : St} {c : Conn} (h : s.cur = some c) : ∃ i, s.dtls = some i ∧ s.conn? i = some c := by
  unfold St.cur at h
  cases hd : s.dtls with
  | none => rw [hd] at h; cases h
  | some i => rw [hd] at h; exact ⟨i, rfl, h⟩

theorem Conns.cur_none {ex s} (hc : Conns ex s) (h : s.cur = none) : s.dtls = none := by
  cases hd : s.dtls with
  | none => rfl
  | some i =>
    obtain ⟨c, hi⟩ := hc.cur i hd
    simp [St.cur, hd, hi] at h

theorem Conns.reset {s} (hc : Conns none s) (i c) (h : s.reset.conn? i = some c) :
    c.id = i ∧ i < s.nextId ∧ c.destroyed = true ∧ c.phase = .closing ∧ c.sending = true ∧
      (Waits s.state ∨ (s.dtls = some i ∧ ∃ c, s.cur = some c ∧ c.sending = true)) := by
  rw [conn?_reset] at h
  cases hk : s.cur with
  | none =>
    rw [hk] at h
    have := hc.conn i c h
    have := hc.cur_none hk
    grind
  | some d =>
    rw [hk] at h
    obtain ⟨j, hj, hd⟩ := cur_eq hk
    have h1 := hc.conn j d hd
    simp only [conn?_destroy] at h
    split at h
    · next hi =>
      split at h
      · next hs =>
        have : j = i := by grind
        subst this
        rw [hd] at h
        simp only [Option.map_some, Option.some.injEq] at h
        subst h
        exact ⟨h1.1, h1.2.1, rfl, rfl, hs, .inr ⟨hj, d, rfl, hs⟩⟩
      · cases h
    · next hi =>
      have := hc.conn i c h
      grind

theorem Conns.down {s e} (hc : Conns none s) (hn : Waits s.state → s.state ≠ .closed ∨ s.mod = .closed)
    (hz : s.dtls = none → Waits s.state ∧ e = .closed) (hw : s.dtls ≠ none → ¬ Waits s.state) :
    Conns s.dtls (s.down e) ∧
      ((e ≠ .closed ∨ s.mod = .closed ∨ s.state ≠ .redirect ∨ (∀ c, s.cur = some c → c.sending = false)) → Conns none (s.down e)) := by
  have hf := down_fields s e
  have key : ∀ ex, (ex = s.dtls ∨ (e ≠ .closed ∨ s.mod = .closed ∨ s.state ≠ .redirect ∨ (∀ c, s.cur = some c → c.sending = false))) →
      Conns ex (s.down e) := by
    intro ex hex
    refine ⟨?_, ?_, ?_, ?_, ?_⟩
    · intro i c h
      rw [conn?_down] at h
      obtain ⟨h1, h2, h3, h4, h5, h6⟩ := hc.reset i c h
      refine ⟨h1, by rw [hf.2.2.2.2.2.2.2.2.2.1]; exact h2, .inr ⟨h3, h4, h5, by rw [hf.2.2.1]; simp, ?_⟩⟩
      rw [hf.1]
      have := downState_cases s e
      unfold Waits at *
      grind
    · intro i h; rw [hf.2.2.1] at h; cases h
    · intro k h; have := hc.start k; grind
    · intro k h1 h2; have := hc.sct k; grind
    · intro k h; have := hc.end_ k; grind
  exact ⟨key _ (.inl rfl), fun h => key _ (.inr h)⟩

theorem Sched.down {s e} (hs : Sched s) (hm : s.mod ≠ .setup) (hz : s.dtls = none → Waits s.state ∧ e = .closed) :
    Sched (s.down e) := by
  have hf := down_fields s e
  obtain ⟨a1, a2, a3, a4, a5, a6, a7, a8, a9, a10⟩ := hs
  unfold Idle Waits at *
  have hd := downState_cases s e
  have hm' : s.mod = .running ∨ s.mod = .closed := by cases h : s.mod <;> simp_all
  refine ⟨?_, ?_, ?_, ?_, ?_, ?_, ?_, ?_, ?_, ?_⟩ <;> (try unfold Idle Waits) <;> grind

theorem Conns.setConn {s c c'} (hc : Conns none s) (h : s.cur = some c) (hid : c'.id = c.id) (hd : c'.destroyed = false) :
    Conns none (s.setConn c') := by
  obtain ⟨j, hj, hk⟩ := cur_eq h
  have hcj := conn?_id hk
  refine ⟨?_, ?_, hc.start, hc.sct, hc.end_⟩
  · intro i d hi
    rw [conn?_setConn] at hi
    have h0 := hc.conn i
    have e1 : (s.setConn c').dtls = s.dtls := rfl
    have e2 : (s.setConn c').nextId = s.nextId := rfl
    have e3 : (s.setConn c').state = s.state := rfl
    rw [e1, e2, e3]
    split at hi
    · next h1 =>
      have : i = j := by grind
      subst this
      rw [hk] at hi
      cases hi
      have := h0 _ hk
      exact ⟨h1.symm, this.2.1, .inl ⟨hj, hd⟩⟩
    · exact h0 d hi
  · intro i hi
    have : i = j := by have : s.dtls = some i := hi; grind
    subst this
    rw [conn?_setConn, hk]
    split <;> simp

theorem cur_setConn {s : St} {c c' : Conn} (h : s.cur = some c) (hid : c'.id = c.id) : (s.setConn c').cur = some c' := by
  obtain ⟨j, hj, hk⟩ := cur_eq h
  have hcj := conn?_id hk
  have : (s.setConn c').cur = (s.setConn c').conn? j := by simp [St.cur, St.setConn, hj]
  rw [this, conn?_setConn, hk]
  simp [hid, hcj]

theorem Sched.setConn {s c} (hs : Sched s) : Sched (s.setConn c) :=
  ⟨hs.idle, hs.resolving, hs.timer, hs.setup, hs.running, hs.closedM, hs.closeEv, hs.closedCb, hs.deferred, hs.ka⟩

theorem Sched.not_setup {s c} (hs : Sched s) (h : s.cur = some c) : s.mod ≠ .setup ∧ ¬ Waits s.state := by
  obtain ⟨j, hj, hk⟩ := cur_eq h
  have h1 := hs.idle
  have h2 := hs.setup
  unfold Idle at h1
  grind

theorem cur_of_dtls {s : St} (h : s.dtls = none) : s.cur = none := by simp [St.cur, h]

/-- A connection which is current ends. -/
theorem down_current {s c e} (hc : Conns none s) (hs : Sched s) (h : s.cur = some c)
    (hr : s.state = .redirect → e = .closed → c.sending = false) : Inv (s.down e) := by
  have hn := hs.not_setup h
  obtain ⟨j, hj, hk⟩ := cur_eq h
  have hd : s.dtls = none → Waits s.state ∧ e = .closed := by intro h; rw [hj] at h; cases h
  refine ⟨?_, hs.down hn.1 hd, ?_⟩
  · refine (hc.down (fun h => absurd h hn.2) hd (fun _ => hn.2)).2 ?_
    by_cases he : e = .closed
    · by_cases hst : s.state = .redirect
      · refine .inr (.inr (.inr ?_))
        intro c' h'
        rw [h] at h'; cases h'
        exact hr hst he
      · exact .inr (.inr (.inl hst))
    · exact .inl he
  · intro d hd'
    rw [cur_of_dtls (down_fields s e).2.2.1] at hd'
    cases hd'

theorem asyncClose_inv {s b} (hc : Conns none s) (hs : Sched s)
    (hcl : ∀ c, s.cur = some c → c.phase = .closing → c.sending = true) : Inv (s.asyncClose b) := by
  unfold St.asyncClose
  cases hk : s.cur with
  | none => exact ⟨hc, hs, fun c h => by rw [hk] at h; cases h⟩
  | some c =>
    simp only
    split
    · next hp =>
      refine ⟨hc, hs, fun d h => ?_⟩
      rw [hk] at h; cases h
      exact ⟨fun _ => hcl _ hk hp, fun _ => hp, fun h => (by rw [hp] at h; cases h), fun h => (by rw [hp] at h; cases h)⟩
    · have hnd : c.destroyed = false := by
        obtain ⟨j, hj, hk'⟩ := cur_eq hk
        have := hc.conn j c hk'
        grind
      have h1 : Conns none (s.setConn { c with phase := .closing, sending := c.sending || b }) := hc.setConn hk rfl hnd
      have h2 : (s.setConn { c with phase := .closing, sending := c.sending || b }).cur = some { c with phase := .closing, sending := c.sending || b } :=
        cur_setConn hk rfl
      split
      · next hse =>
        refine ⟨h1, hs.setConn, fun d h => ?_⟩
        rw [h2] at h; cases h
        exact ⟨fun _ => hse, fun _ => rfl, fun h => (by cases h), fun h => (by cases h)⟩
      · next hse =>
        exact down_current h1 hs.setConn h2 (fun _ _ => (by simpa using hse))

/-- What a change of the requests, the outputs and the like leaves alone. -/
structure Same (s t : St) : Prop where
  conns : t.conns = s.conns
  nextId : t.nextId = s.nextId
  dtls : t.dtls = s.dtls
  state : t.state = s.state
  mod : t.mod = s.mod
  resolving : t.resolving = s.resolving
  timer : t.timer = s.timer
  closeEv : t.closeEv = s.closeEv
  closedCb : t.closedCb = s.closedCb
  deferred : t.deferred = s.deferred

theorem Same.conn? {s t} (h : Same s t) (i : Nat) : t.conn? i = s.conn? i := by simp [St.conn?, h.conns]

theorem Same.cur {s t} (h : Same s t) : t.cur = s.cur := by
  simp only [St.cur, h.dtls]
  cases s.dtls with
  | none => rfl
  | some i => exact h.conn? i

theorem Conns.same {s t} (hc : Conns none s) (h : Same s t)
    (h1 : ∀ k, t.startReq = some (some k) → k < s.nextId)
    (h2 : ∀ k, t.sct.callback.isSome → t.sct.conn = some k → k < s.nextId)
    (h3 : ∀ k, t.endReq = some (some k) → k < s.nextId) : Conns none t := by
  refine ⟨?_, ?_, by rw [h.nextId]; exact h1, by rw [h.nextId]; exact h2, by rw [h.nextId]; exact h3⟩
  · intro i c hi
    rw [h.conn?] at hi
    rw [h.nextId, h.dtls, h.state]
    exact hc.conn i c hi
  · intro i hi
    rw [h.dtls] at hi
    rw [h.conn?]
    exact hc.cur i hi

theorem Sched.same {s t} (hs : Sched s) (h : Same s t) (hk : t.keepAlive = true → s.state = .attached) : Sched t := by
  obtain ⟨a1, a2, a3, a4, a5, a6, a7, a8, a9, a10⟩ := h
  refine ⟨?_, ?_, ?_, ?_, ?_, ?_, ?_, ?_, ?_, ?_⟩
  · rw [a3, a4]; exact hs.idle
  · rw [a6, a4, a5]; exact hs.resolving
  · rw [a7, a4]; exact hs.timer
  · rw [a5, a4]; exact hs.setup
  · rw [a5, a4]; exact hs.running
  · rw [a5, a4]; exact hs.closedM
  · rw [a8, a4, a5]; exact hs.closeEv
  · rw [a9, a5, a4, a8]; exact hs.closedCb
  · rw [a10]; exact hs.deferred
  · rw [a4]; exact hk

theorem Inv.closing {s} (h : Inv s) : ∀ c, s.cur = some c → c.phase = .closing → c.sending = true :=
  fun c hc hp => (h.link c hc).1 hp

/-- Closing the connection after such a change. -/
theorem Inv.failed {s t b} (h : Inv s) (hst : Same s t)
    (h1 : ∀ k, t.startReq = some (some k) → k < s.nextId)
    (h2 : ∀ k, t.sct.callback.isSome → t.sct.conn = some k → k < s.nextId)
    (h3 : ∀ k, t.endReq = some (some k) → k < s.nextId)
    (hk : t.keepAlive = true → s.state = .attached) : Inv (t.asyncClose b) := by
  refine asyncClose_inv (h.conns.same hst h1 h2 h3) (h.sched.same hst hk) ?_
  rw [hst.cur]
  exact h.closing

theorem cur_dtls {s : St} {c : Conn} (h : s.cur = some c) : s.dtls = some c.id := by
  obtain ⟨j, hj, hk⟩ := cur_eq h
  rw [hj, conn?_id hk]

theorem Conns.bound {s c} (hc : Conns none s) (h : s.cur = some c) : c.id < s.nextId := by
  obtain ⟨j, hj, hk⟩ := cur_eq h
  have := hc.conn j c hk
  grind

/-- The connection is up, and nothing is outstanding on it: what the functions which send the next request
rely on. -/
structure Free (s : St) (c : Conn) : Prop where
  conns : Conns none s
  sched : Sched s
  cur : s.cur = some c
  data : c.phase = .data
  state : s.state = .request
  mod : s.mod ≠ .closed
  req : NoReq s c.id

theorem Free.closing {s c} (h : Free s c) : ∀ d, s.cur = some d → d.phase = .closing → d.sending = true := by
  intro d hd hp
  rw [h.cur] at hd; cases hd
  rw [h.data] at hp; cases hp

theorem Free.failed {s c e} (h : Free s c) : Inv (s.failed e) := asyncClose_inv h.conns h.sched h.closing

/-- A request is sent on the free connection. -/
theorem Free.sent {s c t} (h : Free s c) (hst : Same s t) (ho : OneReq t c.id)
    (h1 : ∀ k, t.startReq = some (some k) → k < s.nextId)
    (h2 : ∀ k, t.sct.callback.isSome → t.sct.conn = some k → k < s.nextId)
    (h3 : ∀ k, t.endReq = some (some k) → k < s.nextId)
    (hk : t.keepAlive = s.keepAlive) : Inv t := by
  refine ⟨h.conns.same hst h1 h2 h3, h.sched.same hst (by rw [hk]; exact h.sched.ka), fun d hd => ?_⟩
  rw [hst.cur, h.cur] at hd
  cases hd
  have hp := h.data
  refine ⟨fun h => (by rw [hp] at h; cases h), ?_, fun h => (by rw [hp] at h; cases h), fun _ => .inl ⟨by rw [hst.state]; exact h.state, ho⟩⟩
  rw [hst.state, hst.mod, h.state]
  intro h'
  rcases h' with h' | h'
  · cases h'
  · exact absurd h' h.mod

theorem sendStart_inv {s c e} (h : Free s c) : Inv (s.sendStart e) := by
  unfold St.sendStart
  split
  · exact h.failed
  · have hr := h.req
    have hd := cur_dtls h.cur
    have hb := h.conns.bound h.cur
    refine h.sent ⟨rfl, rfl, rfl, rfl, rfl, rfl, rfl, rfl, rfl, rfl⟩ ?_ ?_ h.conns.sct h.conns.end_ rfl
    · unfold NoReq Requested at hr
      simp only [OneReq, St.emit]
      rw [hd]
      refine .inl ⟨rfl, fun h => hr (.inr (.inl h)), fun h => hr (.inr (.inr h))⟩
    · simp only [St.emit, hd]
      intro k hk
      cases hk
      exact hb

theorem sendEnd_inv {s c e} (h : Free s c) : Inv (s.sendEnd e) := by
  unfold St.sendEnd
  split
  · exact h.failed
  · have hr := h.req
    have hd := cur_dtls h.cur
    have hb := h.conns.bound h.cur
    refine h.sent ⟨rfl, rfl, rfl, rfl, rfl, rfl, rfl, rfl, rfl, rfl⟩ ?_ h.conns.start h.conns.sct ?_ rfl
    · unfold NoReq Requested at hr
      simp only [OneReq, St.emit]
      rw [hd]
      refine .inr (.inr ⟨fun h => hr (.inl h), fun h => hr (.inr (.inl h)), rfl⟩)
    · simp only [St.emit, hd]
      intro k hk
      cases hk
      exact hb

/-- A change of the versions and tokens only. -/
theorem Free.sct {s c t} (h : Free s c) (hst : Same s t) (h1 : t.startReq = s.startReq) (h2 : t.endReq = s.endReq)
    (h3 : t.sct.callback = s.sct.callback) (h4 : t.sct.conn = s.sct.conn) (h5 : t.keepAlive = s.keepAlive) : Free t c := by
  refine ⟨h.conns.same hst (by rw [h1]; exact h.conns.start) (by rw [h3, h4]; exact h.conns.sct) (by rw [h2]; exact h.conns.end_),
    h.sched.same hst (by rw [h5]; exact h.sched.ka), by rw [hst.cur]; exact h.cur, h.data, by rw [hst.state]; exact h.state,
    by rw [hst.mod]; exact h.mod, ?_⟩
  have := h.req
  unfold NoReq Requested at *
  rw [h1, h2, h3, h4]
  exact this

theorem sendAttachSct_inv {s c e} (h : Free s c) : Inv (s.sendAttachSct e) := by
  unfold St.sendAttachSct
  have h' : Free { s with sct := { s.sct with synced := 0 } } c :=
    h.sct ⟨rfl, rfl, rfl, rfl, rfl, rfl, rfl, rfl, rfl, rfl⟩ rfl rfl rfl rfl rfl
  generalize ({ s with sct := { s.sct with synced := 0 } } : St) = s' at h'
  unfold St.upload
  by_cases h1 : s'.sct.version = s'.sct.synced
  · simp only [h1, if_true]
    exact sendEnd_inv h'
  · by_cases h2 : (s'.sct.callback.isSome || !e.upload) = true
    · simp only [h1, h2, if_true, if_false]
      exact h'.failed
    · simp only [h1, h2, if_false]
      have hr := h'.req
      have hd := cur_dtls h'.cur
      have hb := h'.conns.bound h'.cur
      refine h'.sent ⟨rfl, rfl, rfl, rfl, rfl, rfl, rfl, rfl, rfl, rfl⟩ ?_ h'.conns.start ?_ h'.conns.end_ rfl
      · unfold NoReq Requested at hr
        simp only [OneReq, St.emit]
        rw [hd]
        refine .inr (.inl ⟨fun h => hr (.inl h), ⟨rfl, rfl⟩, fun h => hr (.inr (.inr h))⟩)
      · simp only [St.emit, hd]
        intro k _ hk
        cases hk
        exact hb

/-- An upload of tokens which is not part of the attach. -/
theorem sendSct_inv {s e} (h : Inv s) : Inv (s.sendSct e) := by
  unfold St.sendSct St.upload
  by_cases h1 : s.sct.version = s.sct.synced
  · simp only [h1, if_true]; exact h
  · by_cases h2 : (s.sct.callback.isSome || !e.upload) = true
    · simp only [h1, h2, if_true, if_false]; exact h
    · rw [if_neg h1, if_neg h2]
      have hst : Same s ({ s with sct := { s.sct with callback := some false, uploading := s.sct.version, conn := s.dtls, body := s.sct.tokens } }.emit
        (.upload s.dtls s.sct.tokens)) := ⟨rfl, rfl, rfl, rfl, rfl, rfl, rfl, rfl, rfl, rfl⟩
      have hcb : s.sct.callback = none := by
        cases hcb : s.sct.callback with
        | none => rfl
        | some b => simp [hcb] at h2
      refine ⟨h.conns.same hst h.conns.start ?_ h.conns.end_, h.sched.same hst h.sched.ka, fun d hd => ?_⟩
      · intro k _ hk
        have hk : s.dtls = some k := hk
        obtain ⟨c, hc⟩ := h.conns.cur k hk
        exact (h.conns.conn k c hc).2.1
      · obtain ⟨l1, l2, l3, l4⟩ := h.link d (hst.cur.symm.trans hd)
        refine ⟨l1, l2, fun hp => ?_, fun hp => ?_⟩
        · obtain ⟨a, b⟩ := l3 hp
          refine ⟨a, ?_⟩
          unfold NoReq Requested at *
          simpa [St.emit, hcb] using b
        · rcases l4 hp with ⟨a, b⟩ | ⟨a, b, c⟩
          · refine .inl ⟨a, ?_⟩
            unfold OneReq at *
            simpa [St.emit, hcb] using b
          · refine .inr ⟨a, b, ?_⟩
            unfold NoReq Requested at *
            simpa [St.emit, hcb] using c

/-- A change which leaves the requests alone. -/
theorem Inv.same {s t} (h : Inv s) (hst : Same s t) (h1 : t.startReq = s.startReq) (h2 : t.endReq = s.endReq)
    (h3 : t.sct.callback = s.sct.callback) (h4 : t.sct.conn = s.sct.conn) (h5 : t.keepAlive = s.keepAlive) : Inv t := by
  refine ⟨h.conns.same hst (by rw [h1]; exact h.conns.start) (by rw [h3, h4]; exact h.conns.sct) (by rw [h2]; exact h.conns.end_),
    h.sched.same hst (by rw [h5]; exact h.sched.ka), fun d hd => ?_⟩
  have hl := h.link d (hst.cur.symm.trans hd)
  unfold Link NoReq OneReq Requested at *
  rw [hst.state, hst.mod, h1, h2, h3, h4, h5]
  exact hl

theorem storeName_same (s : St) (r) : Same s (s.storeName r) ∧ (s.storeName r).startReq = s.startReq ∧
    (s.storeName r).endReq = s.endReq ∧ (s.storeName r).sct = s.sct ∧ (s.storeName r).keepAlive = s.keepAlive := by
  unfold St.storeName
  split <;> exact ⟨⟨rfl, rfl, rfl, rfl, rfl, rfl, rfl, rfl, rfl, rfl⟩, rfl, rfl, rfl, rfl⟩

theorem answerable_cur {s : St} {conn} (h : s.answerable conn = true) :
    ∃ c, s.cur = some c ∧ c.phase = .data ∧ conn = some c.id := by
  simp only [St.answerable, Bool.and_eq_true, beq_iff_eq] at h
  obtain ⟨h1, h2⟩ := h
  cases hc : s.cur with
  | none => simp [hc] at h2
  | some c =>
    simp only [hc, beq_iff_eq] at h2
    exact ⟨c, rfl, h2, by rw [← h1]; exact cur_dtls hc⟩

theorem addToken_inv {s t m e} (h : Inv s) : Inv (s.addToken t m e) := by
  unfold St.addToken
  simp only
  split
  · exact h.same ⟨rfl, rfl, rfl, rfl, rfl, rfl, rfl, rfl, rfl, rfl⟩ rfl rfl rfl rfl rfl
  · split
    · exact sendSct_inv (h.same ⟨rfl, rfl, rfl, rfl, rfl, rfl, rfl, rfl, rfl, rfl⟩ rfl rfl rfl rfl rfl)
    · exact h.same ⟨rfl, rfl, rfl, rfl, rfl, rfl, rfl, rfl, rfl, rfl⟩ rfl rfl rfl rfl rfl

theorem startCallback_inv {s r e conn} (h : Inv s) (hq : s.startReq = some conn) (ha : r = .none ∨ s.answerable conn = true) :
    Inv (s.startCallback r e) := by
  unfold St.startCallback
  have hst := storeName_same { s with startReq := none } r
  generalize hg : ({ s with startReq := none } : St).storeName r = s' at hst
  obtain ⟨hst', h1, h2, h3, h4⟩ := hst
  have hst : Same s s' := ⟨hst'.1, hst'.2, hst'.3, hst'.4, hst'.5, hst'.6, hst'.7, hst'.8, hst'.9, hst'.10⟩
  have h2 : s'.endReq = s.endReq := h2
  have h3 : s'.sct = s.sct := h3
  have h4 : s'.keepAlive = s.keepAlive := h4
  have hc' : Conns none s' := h.conns.same hst (by rw [h1]; intro k hk; cases hk) (by rw [h3]; exact h.conns.sct) (by rw [h2]; exact h.conns.end_)
  have hs' : Sched s' := h.sched.same hst (by rw [h4]; exact h.sched.ka)
  have hcl : ∀ c, s'.cur = some c → c.phase = .closing → c.sending = true := by rw [hst.cur]; exact h.closing
  have hfail : ∀ b, Inv (s'.asyncClose b) := fun b => asyncClose_inv hc' hs' hcl
  have hfail' : ∀ b o, Inv ((s'.emit o).asyncClose b) := fun b o =>
    asyncClose_inv (hc'.same ⟨rfl, rfl, rfl, rfl, rfl, rfl, rfl, rfl, rfl, rfl⟩ hc'.start hc'.sct hc'.end_)
      (hs'.same ⟨rfl, rfl, rfl, rfl, rfl, rfl, rfl, rfl, rfl, rfl⟩ hs'.ka) hcl
  have hfree : r ≠ .none → s'.mod ≠ .closed → ∃ c, Free s' c := by
    intro hr hm
    obtain ⟨c, hc, hp, hcc⟩ := answerable_cur (ha.resolve_left hr)
    have hl := (h.link c hc).2.2.2 hp
    subst hcc
    refine ⟨c, hc', hs', by rw [hst.cur]; exact hc, hp, ?_, hm, ?_⟩
    · rw [hst.state]
      rcases hl with ⟨a, _⟩ | ⟨_, _, b⟩
      · exact a
      · exact absurd (.inl hq) b
    · rcases hl with ⟨_, b⟩ | ⟨_, _, b⟩
      · unfold NoReq Requested
        rw [h1, h2, h3]
        unfold OneReq at b
        grind
      · exact absurd (.inl hq) b
  simp only
  split
  · exact hfail _
  · next hm =>
    split
    · obtain ⟨c, hf⟩ := hfree (by intro h; cases h) hm
      exact sendAttachSct_inv hf
    · obtain ⟨c, hf⟩ := hfree (by intro h; cases h) hm
      have hd := cur_dtls hf.cur
      refine asyncClose_inv ?_ ?_ hcl
      · refine ⟨?_, hc'.cur, hc'.start, hc'.sct, hc'.end_⟩
        intro i d hi
        have := hc'.conn i d hi
        have hst := hf.state
        unfold Waits at *
        simp only
        grind
      · have hst := hf.state
        have hmod := hf.mod
        obtain ⟨a1, a2, a3, a4, a5, a6, a7, a8, a9, a10⟩ := hs'
        refine ⟨?_, ?_, ?_, ?_, ?_, ?_, ?_, ?_, ?_, ?_⟩ <;> unfold Idle Waits at * <;> simp only <;> grind
    · exact hfail' _ _
    · exact hfail' _ _
    · exact hfail' _ _
    · exact hfail _
    · exact hfail _
    · exact hfail _

theorem sctCallback_inv {s a r e} (h : Inv s) (hq : s.sct.callback = some a) (ha : r = none ∨ s.answerable s.sct.conn = true) :
    Inv (s.sctCallback a (r == some true) e) := by
  unfold St.sctCallback
  have hg : ∃ s', ({ (if (r == some true) = true then { s with sct := { s.sct with synced := s.sct.uploading } }.emit (.acked s.sct.conn s.sct.body) else s) with
      sct := { (if (r == some true) = true then { s with sct := { s.sct with synced := s.sct.uploading } }.emit (.acked s.sct.conn s.sct.body) else s).sct with callback := none } } : St) = s' ∧
      Same s s' ∧ s'.startReq = s.startReq ∧ s'.endReq = s.endReq ∧ s'.sct.callback = none ∧ s'.keepAlive = s.keepAlive := by
    refine ⟨_, rfl, ?_⟩
    split <;> exact ⟨⟨rfl, rfl, rfl, rfl, rfl, rfl, rfl, rfl, rfl, rfl⟩, rfl, rfl, rfl, rfl⟩
  obtain ⟨s', hg, hst, h1, h2, h3, h4⟩ := hg
  have hm2 : (if (r == some true) = true then ({ s with sct := { s.sct with synced := s.sct.uploading } } : St).emit (.acked s.sct.conn s.sct.body) else s).mod = s'.mod := by
    rw [hst.mod]; split <;> rfl
  simp only [hg]
  simp only [hm2]
  have hc' : Conns none s' := h.conns.same hst (by rw [h1]; exact h.conns.start) (by rw [h3]; intro k hk; cases hk) (by rw [h2]; exact h.conns.end_)
  have hs' : Sched s' := h.sched.same hst (by rw [h4]; exact h.sched.ka)
  have hcl : ∀ c, s'.cur = some c → c.phase = .closing → c.sending = true := by rw [hst.cur]; exact h.closing
  have hfail : ∀ b, Inv (s'.asyncClose b) := fun b => asyncClose_inv hc' hs' hcl
  cases a with
  | true =>
    simp only [if_true]
    split
    · exact hfail _
    · next hm =>
      split
      · next hr =>
        have hr : r = some true := by simpa using hr
        have hrn : r ≠ none := by rw [hr]; intro h; cases h
        obtain ⟨c, hc, hp, hcc⟩ := answerable_cur (ha.resolve_left hrn)
        have hl := (h.link c hc).2.2.2 hp
        have hreq : Requested s c.id := .inr (.inl ⟨hq, hcc⟩)
        refine sendEnd_inv (c := c) ⟨hc', hs', by rw [hst.cur]; exact hc, hp, ?_, hm, ?_⟩
        · rw [hst.state]
          rcases hl with ⟨a, _⟩ | ⟨_, _, b⟩
          · exact a
          · exact absurd hreq b
        · rcases hl with ⟨_, b⟩ | ⟨_, _, b⟩
          · unfold NoReq Requested
            rw [h1, h2, h3]
            unfold OneReq at b
            grind
          · exact absurd hreq b
      · exact hfail _
  | false =>
    have hi : Inv s' := by
      refine ⟨hc', hs', fun d hd => ?_⟩
      have hl := h.link d (hst.cur.symm.trans hd)
      unfold Link NoReq OneReq Requested at *
      rw [hst.state, hst.mod, h1, h2, h3, h4]
      simpa [hq] using hl
    simp only [Bool.false_eq_true, if_false]
    split
    · exact sendSct_inv hi
    · exact hi

theorem endCallback_inv {s r e conn} (h : Inv s) (hq : s.endReq = some conn) (ha : r = none ∨ s.answerable conn = true) :
    Inv (s.endCallback (r == some true) e) := by
  unfold St.endCallback
  have hst : Same s ({ s with endReq := none } : St) := ⟨rfl, rfl, rfl, rfl, rfl, rfl, rfl, rfl, rfl, rfl⟩
  have hc' : Conns none ({ s with endReq := none } : St) := h.conns.same hst h.conns.start h.conns.sct (by intro k hk; cases hk)
  have hs' : Sched ({ s with endReq := none } : St) := h.sched.same hst h.sched.ka
  have hfail : ∀ b, Inv (({ s with endReq := none } : St).asyncClose b) := fun b => asyncClose_inv hc' hs' h.closing
  simp only
  split
  · exact hfail _
  · next hr =>
    split
    · exact hfail _
    · next hm =>
      have hr : r = some true := by simpa using hr
      have hrn : r ≠ none := by rw [hr]; intro h; cases h
      obtain ⟨c, hc, hp, hcc⟩ := answerable_cur (ha.resolve_left hrn)
      have hl := (h.link c hc).2.2.2 hp
      subst hcc
      have hreq : Requested s c.id := .inr (.inr hq)
      have hstate : s.state = .request := by
        rcases hl with ⟨a, _⟩ | ⟨_, _, b⟩
        · exact a
        · exact absurd hreq b
      have hone : OneReq s c.id := by
        rcases hl with ⟨_, b⟩ | ⟨_, _, b⟩
        · exact b
        · exact absurd hreq b
      have hdt := cur_dtls hc
      refine sendSct_inv ⟨?_, ?_, ?_⟩
      · refine ⟨?_, hc'.cur, hc'.start, hc'.sct, hc'.end_⟩
        intro i d hi
        have := hc'.conn i d hi
        unfold Waits at *
        simp only [St.emit, St.enter, St.notify]
        grind
      · obtain ⟨a1, a2, a3, a4, a5, a6, a7, a8, a9, a10⟩ := hs'
        have hm : ¬ s.mod = .closed := hm
        refine ⟨?_, ?_, ?_, ?_, ?_, ?_, ?_, ?_, ?_, ?_⟩ <;> unfold Idle Waits at * <;> simp only [St.emit, St.enter, St.notify] <;> grind
      · intro d hd
        have hd' : s.cur = some d := hd
        rw [hc] at hd'
        cases hd'
        refine ⟨fun h => (by rw [hp] at h; cases h), ?_, fun h => (by rw [hp] at h; cases h), fun _ => .inr ⟨rfl, rfl, ?_⟩⟩
        · intro h'
          rcases h' with h' | h'
          · cases h'
          · exact absurd h' hm
        · unfold OneReq at hone
          simp only [NoReq, Requested, St.emit, St.enter, St.notify]
          grind

theorem enter_fields (s : St) (h : Idle s.state) :
    s.enter.state = s.state ∧ s.enter.mod = s.mod ∧ s.enter.dtls = s.dtls ∧
    s.enter.keepAlive = s.keepAlive ∧ s.enter.closedCb = s.closedCb ∧ s.enter.deferred = s.deferred ∧
    s.enter.startReq = s.startReq ∧ s.enter.endReq = s.endReq ∧ s.enter.sct = s.sct ∧
    s.enter.nextId = s.nextId ∧
    s.enter.resolving = (s.resolving || decide (s.state = .dns)) ∧
    s.enter.timer.isSome = (s.timer.isSome || decide (s.state = .retryWait ∨ s.state = .deniedWait)) ∧
    s.enter.closeEv = (s.closeEv || decide (s.state = .closed)) := by
  unfold St.enter
  unfold Idle Waits at h
  rcases h with h | h | h | h <;> simp [h, St.notify, St.emit, St.startResolve]

theorem Conns.enter {s} (hc : Conns none s) (h : Idle s.state) : Conns none s.enter := by
  have hf := enter_fields s h
  refine ⟨?_, ?_, ?_, ?_, ?_⟩
  · intro i c hi
    rw [conn?_enter] at hi
    have := hc.conn i c hi
    grind
  · intro i hi
    rw [conn?_enter]
    exact hc.cur i (by grind)
  · intro k hk; have := hc.start k; grind
  · intro k hk; have := hc.sct k; grind
  · intro k hk; have := hc.end_ k; grind

/-- Entering a state without a connection. -/
theorem enter_inv {s} (hc : Conns none s) (hd : s.dtls = none) (hi : Idle s.state)
    (hr : s.resolving = true → s.state = .dns) (ht : s.timer.isSome → s.state = .retryWait ∨ s.state = .deniedWait)
    (hcl : s.closeEv = true → s.state = .closed) (hm : s.mod ≠ .setup)
    (hrun : s.mod = .running → s.state ≠ .closed) (hclm : s.mod = .closed → s.state ≠ .retryWait ∧ s.state ≠ .deniedWait)
    (hcb : s.closedCb.isSome → s.mod ≠ .running) (hdf : s.deferred = false) (hk : s.keepAlive = false) : Inv s.enter := by
  have hf := enter_fields s hi
  refine ⟨hc.enter hi, ?_, fun c h => ?_⟩
  · refine ⟨?_, ?_, ?_, ?_, ?_, ?_, ?_, ?_, ?_, ?_⟩ <;> grind
  · rw [cur_of_dtls (hf.2.2.1.trans hd)] at h
    cases h

theorem Conns.state {s x} (hc : Conns none s) (h : Waits s.state → Waits x) : Conns none { s with state := x } := by
  refine ⟨?_, hc.cur, hc.start, hc.sct, hc.end_⟩
  intro i c hi
  have := hc.conn i c hi
  simp only
  grind

theorem Inv.idle_ka {s} (h : Inv s) (hi : Idle s.state) : s.keepAlive = false := by
  have := h.sched.ka
  unfold Idle Waits at hi
  cases hk : s.keepAlive with
  | false => rfl
  | true => have := this hk; rcases hi with h | h | h | h <;> rw [h] at this <;> cases this

/-- No connection is left while a name is being resolved. -/
theorem Inv.dns_conn {s} (h : Inv s) (hd : s.state = .dns) (i : Nat) : s.conn? i = none := by
  cases hc : s.conn? i with
  | none => rfl
  | some c =>
    have h1 := h.conns.conn i c hc
    have h2 := h.sched.idle
    unfold Idle Waits at *
    grind

theorem resolved_inv {s ips e} (h : Inv s) (hr : s.resolving = true) (he : e.create = true) : Inv (s.resolved ips e) := by
  have hst := h.sched.resolving.1 hr
  have hi : Idle s.state := .inl hst.1
  have hdt : s.dtls = none := h.sched.idle.2 hi
  have hka := h.idle_ka hi
  have hnone := h.dns_conn hst.1
  have hw : ¬ Waits s.state := by unfold Waits; rw [hst.1]; simp
  obtain ⟨a1, a2, a3, a4, a5, a6, a7, a8, a9, a10⟩ := h.sched
  have hc : ∀ x, Conns none ({ s with resolving := false, state := x } : St) := fun x => by
    refine ⟨?_, h.conns.cur, h.conns.start, h.conns.sct, h.conns.end_⟩
    intro i c hi
    have := hnone i
    simp only [St.conn?] at this hi
    rw [this] at hi
    cases hi
  unfold St.resolved
  simp only
  split
  · next hm =>
    refine enter_inv (hc .closed) hdt (.inr (.inr (.inr rfl))) ?_ ?_ ?_ ?_ ?_ ?_ ?_ a9 hka <;> simp only <;> grind
  · next hm =>
    cases ips with
    | none =>
      simp only
      refine enter_inv (hc .retryWait) hdt (.inr (.inl rfl)) ?_ ?_ ?_ ?_ ?_ ?_ ?_ a9 hka <;> simp only <;> grind
    | some ips =>
      simp only [St.enterRequest, he]
      have hrun : s.mod = .running := by cases hmm : s.mod <;> simp_all
      generalize hs1 : ({ s with
        resolving := false, state := .request, endpoints := (ips.take 4).map (fun ip => (ip, s.port))
        conns := s.conns ++ [{ id := s.nextId, sending := e.sending }], nextId := s.nextId + 1, dtls := some s.nextId } : St).emit
          (.connect s.nextId ((ips.take 4).map (fun ip => (ip, s.port))) s.host) = s1
      have hcon : ∀ i, s1.conn? i = if i = s.nextId then some { id := s.nextId, sending := e.sending } else none := by
        intro i
        have := conn?_append s { id := s.nextId, sending := e.sending } s1 (by subst hs1; rfl) (hnone _) i
        rw [this, hnone]
      have hcur : s1.cur = some { id := s.nextId, sending := e.sending } := by
        have : s1.cur = s1.conn? s.nextId := by subst hs1; rfl
        rw [this, hcon]; simp
      have hc1 : Conns none s1 := by
        refine ⟨?_, ?_, ?_, ?_, ?_⟩
        · intro i c hi
          rw [hcon] at hi
          split at hi
          · next h =>
            cases hi
            subst h
            refine ⟨rfl, ?_, .inl ⟨?_, rfl⟩⟩
            · subst hs1; exact Nat.lt_succ_self _
            · subst hs1; rfl
          · cases hi
        · intro i hi
          have : i = s.nextId := by subst hs1; cases hi; rfl
          subst this
          exact ⟨_, by rw [hcon, if_pos rfl]⟩
        · intro k hk; subst hs1; exact Nat.lt_succ_of_lt (h.conns.start k hk)
        · intro k hk hk2; subst hs1; exact Nat.lt_succ_of_lt (h.conns.sct k hk hk2)
        · intro k hk; subst hs1; exact Nat.lt_succ_of_lt (h.conns.end_ k hk)
      have hsc1 : Sched s1 := by
        subst hs1
        refine ⟨?_, ?_, ?_, ?_, ?_, ?_, ?_, ?_, ?_, ?_⟩ <;> unfold Idle Waits at * <;> simp only [St.emit] <;> grind
      simp only [Bool.not_true, Bool.false_eq_true, if_false]
      split
      · refine Inv.same (s := s1) ⟨hc1, hsc1, ?_⟩ ⟨rfl, rfl, rfl, rfl, rfl, rfl, rfl, rfl, rfl, rfl⟩ rfl rfl rfl rfl rfl
        intro c hcc
        rw [hcur] at hcc
        cases hcc
        refine ⟨fun h => (by cases h), ?_, fun _ => ⟨by subst hs1; rfl, ?_⟩, fun h => (by cases h)⟩
        · have h1 : s1.state = .request := by subst hs1; rfl
          have h2 : s1.mod = .running := by subst hs1; exact hrun
          rw [h1, h2]
          intro h; rcases h with h | h <;> cases h
        · intro hq
          rcases hq with hq | hq | hq
          · have : s.startReq = some (some s.nextId) := by subst hs1; exact hq
            exact absurd (h.conns.start _ this) (Nat.lt_irrefl _)
          · have h1 : s.sct.callback = some true := by subst hs1; exact hq.1
            have h2 : s.sct.conn = some s.nextId := by subst hs1; exact hq.2
            exact absurd (h.conns.sct _ (by rw [h1]; rfl) h2) (Nat.lt_irrefl _)
          · have : s.endReq = some (some s.nextId) := by subst hs1; exact hq
            exact absurd (h.conns.end_ _ this) (Nat.lt_irrefl _)
      · next d hd =>
        have h1 := hc1.setConn (c' := { id := s.nextId, sending := e.sending, phase := .closing }) hcur rfl rfl
        have h2 := cur_setConn (c' := { id := s.nextId, sending := e.sending, phase := .closing }) hcur rfl
        have hst1 : s1.state = .request := by subst hs1; rfl
        have := down_current (e := d) h1 hsc1.setConn h2 (by
          intro h; have h : s1.state = .redirect := h; rw [hst1] at h; cases h)
        exact this.same ⟨rfl, rfl, rfl, rfl, rfl, rfl, rfl, rfl, rfl, rfl⟩ rfl rfl rfl rfl rfl

theorem Conns.mod {s m} (hc : Conns none s) : Conns none { s with mod := m } :=
  ⟨hc.conn, hc.cur, hc.start, hc.sct, hc.end_⟩

/-- `close` and `stop`: `cb` is the callback to register. -/
theorem doClose_inv {s t : St} {b} (h : Inv s) (ht : t = { s with closedCb := t.closedCb, keepAlive := t.keepAlive })
    (hk : t.keepAlive = true → s.keepAlive = true) (hk' : t.keepAlive = s.keepAlive ∨ t.closedCb = s.closedCb)
    (hc : t.closedCb = s.closedCb ∨ t.closedCb.isSome) : Inv (t.doClose b) := by
  have hcm : Conns none t := by
    rw [ht]; exact ⟨h.conns.conn, h.conns.cur, h.conns.start, h.conns.sct, h.conns.end_⟩
  have hcl : ∀ c, t.cur = some c → c.phase = .closing → c.sending = true := by rw [ht]; exact h.closing
  have e1 : t.mod = s.mod := by rw [ht]
  have e2 : t.state = s.state := by rw [ht]
  have e3 : t.dtls = s.dtls := by rw [ht]
  have e4 : t.resolving = s.resolving := by rw [ht]
  have e5 : t.timer = s.timer := by rw [ht]
  have e6 : t.closeEv = s.closeEv := by rw [ht]
  have e7 : t.deferred = s.deferred := by rw [ht]
  have e8 : t.cur = s.cur := by rw [ht]; rfl
  have e9 : t.startReq = s.startReq := by rw [ht]
  have e10 : t.endReq = s.endReq := by rw [ht]
  have e11 : t.sct = s.sct := by rw [ht]
  have hl := h.link
  obtain ⟨a1, a2, a3, a4, a5, a6, a7, a8, a9, a10⟩ := h.sched
  have hm : s.mod = .setup ∨ s.mod = .running ∨ s.mod = .closed := by cases s.mod <;> simp
  unfold St.doClose
  split
  · next hms =>
    refine ⟨⟨hcm.conn, hcm.cur, hcm.start, hcm.sct, hcm.end_⟩, ?_, ?_⟩
    · refine ⟨?_, ?_, ?_, ?_, ?_, ?_, ?_, ?_, ?_, ?_⟩ <;> unfold Idle Waits at * <;> simp only <;> grind
    · intro c hcc
      have hcc : t.cur = some c := hcc
      rw [e8] at hcc
      exact absurd (e1.symm.trans hms) (h.sched.not_setup hcc).1
  · next hms =>
    split
    · next hst =>
      refine enter_inv (s := { t with mod := .closed, timer := none, state := .closed }) ?_ ?_ (.inr (.inr (.inr rfl))) ?_ ?_ ?_ ?_ ?_ ?_ ?_ ?_ ?_
      · have := hcm.state (x := .closed) (fun _ => .inr (.inr rfl))
        exact ⟨this.conn, this.cur, this.start, this.sct, this.end_⟩
      all_goals (unfold Idle Waits at * <;> simp only <;> grind)
    · next hst =>
      refine enter_inv (s := { t with mod := .closed, timer := none, state := .closed }) ?_ ?_ (.inr (.inr (.inr rfl))) ?_ ?_ ?_ ?_ ?_ ?_ ?_ ?_ ?_
      · have := hcm.state (x := .closed) (fun _ => .inr (.inr rfl))
        exact ⟨this.conn, this.cur, this.start, this.sct, this.end_⟩
      all_goals (unfold Idle Waits at * <;> simp only <;> grind)
    · next hst =>
      refine ⟨⟨hcm.conn, hcm.cur, hcm.start, hcm.sct, hcm.end_⟩, ?_, ?_⟩
      · refine ⟨?_, ?_, ?_, ?_, ?_, ?_, ?_, ?_, ?_, ?_⟩ <;> unfold Idle Waits at * <;> simp only <;> grind
      · intro c hcc
        have hcc : t.cur = some c := hcc
        rw [e8] at hcc
        exact absurd (.inr (.inr (e2.symm.trans hst))) (h.sched.not_setup hcc).2
    · next hst =>
      refine asyncClose_inv hcm.mod ?_ hcl
      refine ⟨?_, ?_, ?_, ?_, ?_, ?_, ?_, ?_, ?_, ?_⟩ <;> unfold Idle Waits at * <;> simp only <;> grind
    · next hst =>
      refine asyncClose_inv hcm.mod ?_ hcl
      refine ⟨?_, ?_, ?_, ?_, ?_, ?_, ?_, ?_, ?_, ?_⟩ <;> unfold Idle Waits at * <;> simp only <;> grind
    · next hst =>
      refine ⟨hcm.mod, ?_, ?_⟩
      · refine ⟨?_, ?_, ?_, ?_, ?_, ?_, ?_, ?_, ?_, ?_⟩ <;> unfold Idle Waits at * <;> simp only <;> grind
      · intro c hcc
        have hcc : t.cur = some c := hcc
        have := cur_dtls hcc
        unfold Idle at *
        grind
    · next hst =>
      refine ⟨hcm.mod, ?_, ?_⟩
      · refine ⟨?_, ?_, ?_, ?_, ?_, ?_, ?_, ?_, ?_, ?_⟩ <;> unfold Idle Waits at * <;> simp only <;> grind
      · intro c hcc
        have hcc : t.cur = some c := hcc
        rw [e8] at hcc
        have := hl c hcc
        have hp : c.phase = .closing := this.2.1 (.inl (e2.symm.trans hst))
        exact ⟨this.1, fun _ => hp, fun h => (by rw [hp] at h; cases h), fun h => (by rw [hp] at h; cases h)⟩

theorem conns_nil {s : St} (h : ∀ c ∈ s.conns, c.destroyed = false) (hc : Conns none s) (hd : s.dtls = none) (i : Nat) :
    s.conn? i = none := by
  cases hcc : s.conn? i with
  | none => rfl
  | some c =>
    have h1 := hc.conn i c hcc
    have h2 := h c (List.mem_of_find?_eq_some hcc)
    grind

theorem Conns.empty {s t} (hc : Conns none s) (h0 : ∀ i, s.conn? i = none) (h1 : t.conns = s.conns) (h2 : t.nextId = s.nextId)
    (h3 : t.startReq = s.startReq) (h4 : t.sct = s.sct) (h5 : t.endReq = s.endReq) (h6 : t.dtls = none) : Conns none t := by
  refine ⟨?_, ?_, ?_, ?_, ?_⟩
  · intro i c hi
    have := h0 i
    simp only [St.conn?, h1] at hi this
    rw [this] at hi; cases hi
  · intro i hi; rw [h6] at hi; cases hi
  · rw [h3, h2]; exact hc.start
  · rw [h4, h2]; exact hc.sct
  · rw [h5, h2]; exact hc.end_

theorem reattach_inv {s m} (hc : Conns none s) (h0 : ∀ i, s.conn? i = none) (hd : s.dtls = none) (hm : s.mod = .running)
    (hr : s.resolving = false) (ht : s.timer = none) (hcl : s.closeEv = false) (hcb : s.closedCb = none)
    (hdf : s.deferred = false) (hk : s.keepAlive = false) : Inv (s.reattach m) := by
  unfold St.reattach
  rw [if_neg (by rw [hm]; intro h; cases h)]
  split
  · refine enter_inv (hc.empty h0 rfl rfl rfl rfl rfl hd) hd (.inr (.inl rfl)) ?_ ?_ ?_ ?_ ?_ ?_ ?_ hdf hk <;> simp [hr, ht, hcl, hm, hcb]
  · refine enter_inv (hc.empty h0 rfl rfl rfl rfl rfl hd) hd (.inl rfl) ?_ ?_ ?_ ?_ ?_ ?_ ?_ hdf hk <;> simp [ht, hcl, hm, hcb]

theorem Inv.closedCb_none {s} (h : Inv s) (hm : s.mod = .running) : s.closedCb = none := by
  have := h.sched.closedCb
  cases hc : s.closedCb with
  | none => rfl
  | some k => exact absurd hm (this (by rw [hc]; rfl)).1

theorem timer_inv {s m} (h : Inv s) (ht : s.timer.isSome) (hz : ∀ c ∈ s.conns, c.destroyed = false) :
    Inv (({ s with timer := none } : St).reattach m) := by
  have hst := h.sched.timer.1 ht
  have hi : Idle s.state := by unfold Idle Waits; grind
  have hd := h.sched.idle.2 hi
  have hm : s.mod = .running := by
    have h1 := h.sched.setup; have h2 := h.sched.closedM
    cases hmm : s.mod <;> grind
  have h0 := conns_nil hz h.conns hd
  refine reattach_inv ((h.conns).empty h0 rfl rfl rfl rfl rfl hd) h0 hd hm ?_ rfl ?_ (h.closedCb_none hm) h.sched.deferred (h.idle_ka hi)
  · have := h.sched.resolving
    cases hr : s.resolving <;> grind
  · have := h.sched.closeEv
    have hc : s.closeEv = false := by cases hr : s.closeEv <;> grind
    exact hc

theorem restart_inv {s m} (h : Inv s) (hr : s.mod = .closed → s.state = .closed ∧ s.closeEv = false ∧ s.conns = []) :
    Inv (s.restart m) := by
  unfold St.restart
  split
  · exact h
  · next hm =>
    have hm : s.mod = .closed := by
      cases hmm : s.mod <;> grind
    obtain ⟨h1, h2, h3⟩ := hr hm
    have hi : Idle s.state := by unfold Idle Waits; grind
    have hd := h.sched.idle.2 hi
    have h0 : ∀ i, s.conn? i = none := by intro i; simp [St.conn?, h3]
    simp only [h1, if_true]
    refine reattach_inv ((h.conns).empty h0 rfl rfl rfl rfl rfl hd) h0 hd rfl ?_ ?_ h2 ?_ h.sched.deferred (h.idle_ka hi)
    · have := h.sched.resolving
      have hc : s.resolving = false := by cases hr : s.resolving <;> grind
      exact hc
    · have := h.sched.timer
      have hc : s.timer = none := by cases hr : s.timer <;> grind
      exact hc
    · have := h.sched.closedCb
      have hc : s.closedCb = none := by cases hr : s.closedCb <;> grind
      exact hc

theorem start_inv {s ho p m} (h : Inv s) (hce : s.closeEv = false) : Inv (s.start ho p m) := by
  unfold St.start
  split
  · exact h
  · next hm =>
    have hm : s.mod = .setup := by cases hmm : s.mod <;> simp_all
    split
    · exact h.same ⟨rfl, rfl, rfl, rfl, rfl, rfl, rfl, rfl, rfl, rfl⟩ rfl rfl rfl rfl rfl
    · have hst := h.sched.setup hm
      have hi : Idle s.state := .inl hst
      have hd := h.sched.idle.2 hi
      have hcb : s.closedCb = none := by
        have := h.sched.closedCb
        cases hr : s.closedCb <;> grind
      have ht := h.sched.timer
      refine enter_inv (h.conns.empty (h.dns_conn hst) rfl rfl rfl rfl rfl hd) hd (.inl rfl) ?_ ?_ ?_ ?_ ?_ ?_ ?_ h.sched.deferred (h.idle_ka hi) <;>
        simp only <;> grind

theorem closeEvent_inv {s} (h : Inv s) (hc : s.closeEv = true) : Inv s.resolveClose := by
  unfold St.resolveClose
  have ht : s.timer = none := by
    have h1 := h.sched.closeEv hc
    have h2 := h.sched.timer
    have h3 := h.sched.setup
    cases hr : s.timer with
    | none => rfl
    | some x => grind
  have key : ∀ t : St, t.closedCb = none → t.closeEv = false → t.timer = none → t.conns = s.conns → t.nextId = s.nextId → t.dtls = s.dtls →
      t.state = s.state → t.mod = s.mod → t.resolving = s.resolving → t.deferred = s.deferred → t.startReq = s.startReq →
      t.endReq = s.endReq → t.sct = s.sct → t.keepAlive = s.keepAlive → Inv t := by
    intro t b1 b2 b3 b4 b5 b6 b7 b8 b9 b10 b11 b12 b13 b14
    have hcn : ∀ i, t.conn? i = s.conn? i := fun i => by simp [St.conn?, b4]
    have hcu : t.cur = s.cur := by simp only [St.cur, b6]; cases s.dtls <;> simp [hcn]
    refine ⟨⟨?_, ?_, ?_, ?_, ?_⟩, ?_, ?_⟩
    · intro i c hi; rw [hcn] at hi; rw [b5, b6, b7]; exact h.conns.conn i c hi
    · intro i hi; rw [b6] at hi; rw [hcn]; exact h.conns.cur i hi
    · rw [b11, b5]; exact h.conns.start
    · rw [b13, b5]; exact h.conns.sct
    · rw [b12, b5]; exact h.conns.end_
    · obtain ⟨a1, a2, a3, a4, a5, a6, a7, a8, a9, a10⟩ := h.sched
      refine ⟨?_, ?_, ?_, ?_, ?_, ?_, ?_, ?_, ?_, ?_⟩ <;> grind
    · intro c hcc
      have hl := h.link c (hcu.symm.trans hcc)
      unfold Link NoReq OneReq Requested at *
      rw [b7, b8, b11, b12, b13, b14]
      exact hl
  simp only
  split
  · next hcb => exact key _ hcb rfl rfl rfl rfl rfl rfl rfl rfl rfl rfl rfl rfl rfl
  · split <;> exact key _ rfl rfl rfl rfl rfl rfl rfl rfl rfl rfl rfl rfl rfl rfl

/-- Connections which are not closing are current. -/
theorem Inv.current {s i c} (h : Inv s) (hc : s.conn? i = some c) (hp : c.phase ≠ .closing) : s.cur = some c := by
  have := h.conns.conn i c hc
  rcases this.2.2 with ⟨h1, _⟩ | ⟨_, h1, _⟩
  · simp [St.cur, h1, hc]
  · exact absurd h1 hp

theorem Conns.drop {s j} (hc : Conns (some j) s) (hd : s.dtls ≠ some j) : Conns none (s.dropConn j) := by
  refine ⟨?_, ?_, hc.start, hc.sct, hc.end_⟩
  · intro i c hi
    rw [conn?_dropConn] at hi
    split at hi
    · cases hi
    · next hij =>
      have := hc.conn i c hi
      have e1 : (s.dropConn j).dtls = s.dtls := rfl
      have e2 : (s.dropConn j).nextId = s.nextId := rfl
      have e3 : (s.dropConn j).state = s.state := rfl
      rw [e1, e2, e3]
      grind
  · intro i hi
    have hi : s.dtls = some i := hi
    rw [conn?_dropConn, if_neg (by intro h; subst h; exact hd hi)]
    exact hc.cur i hi

theorem Conns.weaken {s ex} (hc : Conns none s) : Conns ex s := by
  refine ⟨?_, hc.cur, hc.start, hc.sct, hc.end_⟩
  intro i c hi
  have := hc.conn i c hi
  grind

theorem sent_inv {s i c} (h : Inv s) (hc : s.conn? i = some c) (hs : c.sending = true) : Inv (s.sent c) := by
  have hid := conn?_id hc
  unfold St.sent
  split
  · next hp =>
    have hf := down_fields s .closed
    simp only
    have hcases := h.conns.conn i c hc
    have hdown : Conns (some i) (s.down .closed) ∧ Sched (s.down .closed) := by
      rcases hcases.2.2 with ⟨h1, h2⟩ | ⟨h1, h2, h3, h4, h5⟩
      · have hcur : s.cur = some c := by simp [St.cur, h1, hc]
        have hn := h.sched.not_setup hcur
        have hd : s.dtls = none → Waits s.state ∧ Down.closed = .closed := by intro h; rw [h1] at h; cases h
        have := h.conns.down (fun h => absurd h hn.2) hd (fun _ => hn.2)
        rw [h1] at this
        exact ⟨this.1, h.sched.down hn.1 hd⟩
      · have hw : Waits s.state := by rcases h5 with h5 | h5; cases h5; exact h5
        have hd0 : s.dtls = none := h.sched.idle.2 (.inr hw)
        have hns : s.mod ≠ .setup := by
          have := h.sched.setup
          unfold Waits at hw
          grind
        have hnr : s.state ≠ .redirect := by unfold Waits at hw; grind
        have hcl : Waits s.state → s.state ≠ .closed ∨ s.mod = .closed := by
          intro _
          have h1 := h.sched.running
          have h2 : s.mod = .running ∨ s.mod = .closed := by cases hmm : s.mod <;> simp_all
          grind
        refine ⟨((h.conns.down hcl (fun _ => ⟨hw, rfl⟩) (fun h => absurd hd0 h)).2 (.inr (.inr (.inl hnr)))).weaken,
          h.sched.down hns (fun _ => ⟨hw, rfl⟩)⟩
    have hdt := hf.2.2.1
    cases hcd : (s.down .closed).conn? c.id with
    | none =>
      simp only
      refine ⟨?_, hdown.2, fun d hd => by rw [cur_of_dtls hdt] at hd; cases hd⟩
      refine ⟨?_, hdown.1.cur, hdown.1.start, hdown.1.sct, hdown.1.end_⟩
      intro k d hk
      have := hdown.1.conn k d hk
      grind
    | some d =>
      simp only
      have hd := hdown.1.conn c.id d hcd
      have hdes : d.destroyed = true := by grind
      rw [if_pos hdes]
      have hdi : d.id = i := by grind
      rw [hdi]
      exact ⟨hdown.1.drop (by rw [hdt]; intro h; cases h), ⟨hdown.2.idle, hdown.2.resolving, hdown.2.timer, hdown.2.setup, hdown.2.running,
        hdown.2.closedM, hdown.2.closeEv, hdown.2.closedCb, hdown.2.deferred, hdown.2.ka⟩, fun d hd => by
          have : ((s.down .closed).dropConn i).cur = none := cur_of_dtls hdt
          rw [this] at hd; cases hd⟩
  · next hp =>
    have hcur := h.current hc hp
    have hnd : c.destroyed = false := by
      have := h.conns.conn i c hc
      grind
    refine ⟨h.conns.setConn hcur rfl hnd, h.sched.setConn, fun d hd => ?_⟩
    have hd := (cur_setConn (c' := { c with sending := false }) hcur rfl).symm.trans hd
    cases hd
    obtain ⟨l1, l2, l3, l4⟩ := h.link c hcur
    exact ⟨fun h => absurd h hp, l2, l3, l4⟩

theorem Inv.step {s t a} (h : Inv s) (hg : Regular s a) (hst : step s a = some t) : Inv t := by
  cases a with
  | start ho p m => cases hst; exact start_inv h hg
  | close cb b => cases hst; exact doClose_inv h rfl (fun h => h) (.inl rfl) (.inr rfl)
  | stop b => cases hst; exact doClose_inv h rfl (fun h => by cases h) (.inr rfl) (.inl rfl)
  | restart m => cases hst; exact restart_inv h hg
  | addToken t m e => cases hst; exact addToken_inv h
  | resolved ips e =>
    simp only [Attacher.step] at hst
    split at hst
    · next hr => cases hst; exact resolved_inv h hr hg
    · cases hst
  | connected id e =>
    simp only [Attacher.step] at hst
    split at hst
    · cases hst
    · next c hc =>
      split at hst
      · next hp =>
        have hcur := h.current hc (by rw [hp]; intro h; cases h)
        have hnd : c.destroyed = false := by
          have := h.conns.conn id c hc
          grind
        have h1 := h.conns.setConn (c' := { c with phase := .data }) hcur rfl hnd
        have h2 := cur_setConn (c' := { c with phase := .data }) hcur rfl
        obtain ⟨l1, l2, l3, l4⟩ := h.link c hcur
        split at hst
        · cases hst
          refine asyncClose_inv h1 h.sched.setConn ?_
          intro d hd hdp
          rw [h2] at hd; cases hd; cases hdp
        · next hm =>
          cases hst
          refine sendStart_inv (c := { c with phase := .data }) ⟨h1, h.sched.setConn, h2, rfl, (l3 hp).1, hm, (l3 hp).2⟩
      · cases hst
  | fail id d b =>
    simp only [Attacher.step] at hst
    split at hst
    · cases hst
    · next c hc =>
      split at hst
      · cases hst
      · next hp =>
        have hcur := h.current hc hp
        have hnd : c.destroyed = false := by
          have := h.conns.conn id c hc
          grind
        have hnr : s.state ≠ .redirect := fun hr => hp ((h.link c hcur).2.1 (.inl hr))
        split at hst
        · cases hst
          exact down_current h.conns h.sched hcur (fun h => absurd h hnr)
        · split at hst
          · cases hst
          · cases hst
            exact down_current (h.conns.setConn (c' := { c with phase := .closing, sending := c.sending || b }) hcur rfl hnd) h.sched.setConn (cur_setConn hcur rfl) (fun h => absurd h hnr)
  | send id =>
    simp only [Attacher.step] at hst
    split at hst
    · cases hst
    · next c hc =>
      split at hst
      · cases hst
      · next hp =>
        cases hst
        have hcur := h.current hc hp
        have hnd : c.destroyed = false := by
          have := h.conns.conn id c hc
          grind
        refine ⟨h.conns.setConn hcur rfl hnd, h.sched.setConn, fun d hd => ?_⟩
        have hd := (cur_setConn (c' := { c with sending := true }) hcur rfl).symm.trans hd
        cases hd
        obtain ⟨l1, l2, l3, l4⟩ := h.link c hcur
        exact ⟨fun h => absurd h hp, l2, l3, l4⟩
  | sent id =>
    simp only [Attacher.step] at hst
    split at hst
    · cases hst
    · next c hc =>
      split at hst
      · next hs => cases hst; exact sent_inv h hc hs
      · cases hst
  | startResponse r e =>
    simp only [Attacher.step] at hst
    split at hst
    · cases hst
    · next conn hq =>
      split at hst
      · next ha => cases hst; exact startCallback_inv h hq ha
      · cases hst
  | sctResponse r e =>
    simp only [Attacher.step] at hst
    split at hst
    · cases hst
    · next conn hq =>
      split at hst
      · next ha => cases hst; exact sctCallback_inv h hq ha
      · cases hst
  | endResponse r e =>
    simp only [Attacher.step] at hst
    split at hst
    · cases hst
    · next conn hq =>
      split at hst
      · next ha => cases hst; exact endCallback_inv h hq ha
      · cases hst
  | keepAliveTimeout b =>
    simp only [Attacher.step] at hst
    split at hst
    · cases hst
      exact h.failed ⟨rfl, rfl, rfl, rfl, rfl, rfl, rfl, rfl, rfl, rfl⟩ h.conns.start h.conns.sct h.conns.end_ (fun h => by cases h)
    · cases hst
  | timer m =>
    simp only [Attacher.step] at hst
    split at hst
    · next ht => cases hst; exact timer_inv h ht hg
    · cases hst
  | closeEvent =>
    simp only [Attacher.step] at hst
    split at hst
    · next hc => cases hst; exact closeEvent_inv h hc
    · cases hst
  | deferred =>
    simp only [Attacher.step, h.sched.deferred] at hst
    cases hst

theorem Inv.init : Inv init := by
  refine ⟨⟨fun i c h => (by cases h), fun i h => (by cases h), fun k h => (by cases h), fun k h => (by cases h), fun k h => (by cases h)⟩, ?_, fun c h => (by cases h)⟩
  refine ⟨?_, ?_, ?_, ?_, ?_, ?_, ?_, ?_, ?_, ?_⟩ <;> simp [Attacher.init, Idle]

theorem Inv.run {s as t} (h : Inv s) (hr : Run s as t) : Inv t := by
  induction hr with
  | nil => exact h
  | cons hg hs _ ih => exact ih (h.step hg hs)

end Verif.Core.Attacher
