import Verif.Core.AttacherInv

/-!
# Attacher: what is observed, and the rank which decreases

Helper lemmas for `AttacherProps.lean`.
-/

namespace Verif.Core.Attacher

open Spec

/-- The output of a connection which ends. -/
theorem down_out (s : St) (e : Down) :
    (s.down e).out = s.out ++
      ((if s.state = .attached then [.event .detached] else []) ++
       (if s.mod ≠ .closed ∧ e = .certificate then [.event .certificate] else []) ++
       (if downState s e = .dns then [.resolve s.dns] else []) ++
       (if s.mod ≠ .closed ∧ e = .closed ∧ s.state = .deniedWait then [] else [.notify (downState s e)])) := by
  unfold St.down downState
  by_cases hm : s.mod = .closed
  · by_cases ha : s.state = .attached <;> simp [hm, ha, St.enter, St.reset, St.notify, St.emit]
  · simp only [hm, if_false]
    cases e
    · have hr : s.reset.state = s.state := rfl
      have hr' : s.reset.redirects = s.redirects := rfl
      simp only [hr, hr']
      cases hs : s.state <;> simp only
      case redirect =>
        by_cases h5 : s.redirects ≥ 5 <;>
          simp [h5, St.enter, St.reset, St.notify, St.emit, St.startResolve, hs]
      all_goals simp [St.enter, St.reset, St.notify, St.emit, hs, hm]
    · by_cases ha : s.state = .attached <;> simp [ha, St.enter, St.reset, St.notify, St.emit]
    · by_cases ha : s.state = .attached <;> simp [ha, St.enter, St.reset, St.notify, St.emit, hm]

theorem enter_out (s : St) :
    s.enter.out = s.out ++ ((if s.state = .dns then [.resolve s.dns] else []) ++ [.notify s.state]) := by
  unfold St.enter
  cases h : s.state <;> simp [h, St.notify, St.emit, St.startResolve]

/-- How many attempts there have been. -/
def tries (s : St) : Nat := s.out.countP attempt

theorem tries_append {s t : St} {l : List Obs} (h : t.out = s.out ++ l) : tries t = tries s + l.countP attempt := by
  simp [tries, h]

theorem tries_emit (s : St) (o : Obs) : tries (s.emit o) = tries s + (if attempt o then 1 else 0) := by
  rw [tries_append (s := s) (t := s.emit o) (l := [o]) rfl]
  simp [List.countP_cons]

theorem tries_down (s : St) (e : Down) : tries (s.down e) = tries s + (if downState s e = .dns then 1 else 0) := by
  rw [tries_append (down_out s e)]
  simp only [List.countP_append]
  have a1 : (if s.state = .attached then [Obs.event .detached] else []).countP attempt = 0 := by split <;> rfl
  have a2 : (if s.mod ≠ .closed ∧ e = .certificate then [Obs.event .certificate] else []).countP attempt = 0 := by split <;> rfl
  have a3 : (if downState s e = .dns then [Obs.resolve s.dns] else []).countP attempt = if downState s e = .dns then 1 else 0 := by
    split <;> rfl
  have a4 : (if s.mod ≠ .closed ∧ e = .closed ∧ s.state = .deniedWait then [] else [Obs.notify (downState s e)]).countP attempt = 0 := by
    split <;> rfl
  omega

theorem tries_enter (s : St) : tries s.enter = tries s + (if s.state = .dns then 1 else 0) := by
  rw [tries_append (enter_out s)]
  by_cases h3 : s.state = .dns <;> simp [h3, attempt, List.countP_cons]

/-- How many things have still to be completed before the next attempt. -/
def rank (s : St) : Nat :=
  match s.state with
  | .dns => 7
  | .retryWait | .deniedWait => 1
  | .closed => 0
  | .redirect => 2
  | .attached =>
    match s.cur with
    | some c => if c.phase = .closing then 2 else 3
    | none => 0
  | .request =>
    match s.cur with
    | some c =>
      match c.phase with
      | .closing => 2
      | .connecting => 6
      | .data =>
        if s.startReq = some (some c.id) then 5
        else if s.sct.callback = some true ∧ s.sct.conn = some c.id then 4 else 3
    | none => 0

theorem rank_le (s : St) : rank s ≤ 7 := by
  unfold rank
  repeat' split
  all_goals decide

/-- The relation between the state before and after: a new attempt, or the rank has become at most `n`. -/
def Less (s : St) (n : Nat) (t : St) : Prop := tries s < tries t ∨ (tries t = tries s ∧ rank t ≤ n)

theorem Less.mono {s t n m} (h : Less s n t) (hm : n ≤ m) : Less s m t := by
  rcases h with h | ⟨h, h'⟩
  · exact .inl h
  · exact .inr ⟨h, by omega⟩

theorem Less.of_tries {s s' t n} (h : Less s' n t) (ht : tries s' = tries s) : Less s n t := by
  unfold Less at *; rw [← ht]; exact h

theorem rank_idle {s : St} (h : Waits s.state) : rank s ≤ 1 := by
  unfold Waits at h
  unfold rank
  rcases h with h | h | h <;> simp [h]

theorem less_down (s : St) (e : Down) : Less s 1 (s.down e) := by
  unfold Less
  rw [tries_down]
  have hf := (down_fields s e).1
  have hd := downState_cases s e
  by_cases h : downState s e = .dns
  · left; simp [h]
  · right
    refine ⟨by simp [h], rank_idle ?_⟩
    rw [hf]
    unfold Waits
    grind

theorem rank_closing {s : St} {c : Conn} (h : s.cur = some c) (hp : c.phase = .closing) (hs : Sched s) : rank s ≤ 2 := by
  have hd := cur_dtls h
  have hi := hs.idle
  unfold rank
  unfold Idle Waits at hi
  cases hst : s.state <;> simp_all

theorem less_asyncClose {s : St} {c : Conn} {b} (h : s.cur = some c) (hs : Sched s) : Less s 2 (s.asyncClose b) := by
  unfold St.asyncClose
  simp only [h]
  split
  · next hp => exact .inr ⟨rfl, rank_closing h hp hs⟩
  · split
    · have h2 : (s.setConn { c with phase := .closing, sending := c.sending || b }).cur = some { c with phase := .closing, sending := c.sending || b } :=
        cur_setConn h rfl
      exact .inr ⟨rfl, rank_closing h2 rfl hs.setConn⟩
    · exact ((less_down _ _).mono (m := 2) (by decide)).of_tries rfl

/-- Without a connection, there is nothing to close. -/
theorem asyncClose_none {s : St} {b} (h : s.cur = none) : s.asyncClose b = s := by
  unfold St.asyncClose; simp [h]

theorem less_failed {s t : St} {b} (hs : Sched t) (ht : tries t = tries s) (hr : rank t ≤ rank s) :
    Less s (rank s) (t.asyncClose b) := by
  cases hc : t.cur with
  | none => rw [asyncClose_none hc]; exact .inr ⟨ht, hr⟩
  | some c =>
    rcases less_asyncClose (b := b) hc hs with h | ⟨h, h'⟩
    · exact .inl (by omega)
    · refine .inr ⟨by omega, ?_⟩
      have hd := cur_dtls hc
      have hi := hs.idle
      have : 2 ≤ rank t := by
        unfold rank
        unfold Idle Waits at hi
        cases hst : t.state <;> simp_all
        · cases c.phase <;> simp
          split
          · decide
          · split <;> decide
        · split <;> decide
      omega

theorem rank_same {s t : St} (h : Same s t) (h1 : t.startReq = s.startReq ∨ t.startReq = none)
    (h2 : (t.sct.callback = s.sct.callback ∧ t.sct.conn = s.sct.conn) ∨ t.sct.callback ≠ some true) : rank t ≤ rank s := by
  unfold rank
  rw [h.state, h.cur]
  cases s.state <;> simp only <;> try exact Nat.le_refl _
  cases s.cur with
  | none => exact Nat.le_refl _
  | some c =>
    simp only
    cases c.phase <;> simp only <;> try exact Nat.le_refl _
    split
    · split
      · exact Nat.le_refl _
      · grind
    · split
      · split
        · decide
        · split
          · decide
          · grind
      · repeat' split
        all_goals decide

theorem rank_data {s : St} {c : Conn} (hs : s.state = .request) (hc : s.cur = some c) (hp : c.phase = .data) :
    rank s = if s.startReq = some (some c.id) then 5
      else if s.sct.callback = some true ∧ s.sct.conn = some c.id then 4 else 3 := by
  unfold rank
  simp only [hs, hc, hp]

theorem rank_setConn {s : St} {c c' : Conn} (h : s.cur = some c) (hid : c'.id = c.id) (hp : c'.phase = c.phase) :
    rank (s.setConn c') = rank s := by
  unfold rank
  rw [cur_setConn h hid, h]
  simp only [hid, hp]
  rfl

theorem rank_sendSct (s : St) (e : Env) : rank (s.sendSct e) ≤ rank s ∧ tries (s.sendSct e) = tries s := by
  unfold St.sendSct St.upload
  split
  · exact ⟨Nat.le_refl _, rfl⟩
  · split
    · exact ⟨Nat.le_refl _, rfl⟩
    · refine ⟨rank_same ⟨rfl, rfl, rfl, rfl, rfl, rfl, rfl, rfl, rfl, rfl⟩ (.inl rfl) (.inr (by intro h; cases h)), ?_⟩
      rw [tries_emit]
      rfl

theorem less_sendStart {s c e} (h : Free s c) : Less s 5 (s.sendStart e) := by
  unfold St.sendStart
  split
  · exact (less_asyncClose h.cur h.sched).mono (by decide)
  · refine .inr ⟨tries_emit _ _, ?_⟩
    refine Nat.le_of_eq ((rank_data (s := ({ s with startReq := some s.dtls } : St).emit (.startRequest s.dtls)) (c := c)
      h.state h.cur h.data).trans (if_pos ?_))
    have hd := cur_dtls h.cur
    simp [St.emit, hd]

theorem less_sendEnd {s c e} (h : Free s c) : Less s 3 (s.sendEnd e) := by
  unfold St.sendEnd
  split
  · exact (less_asyncClose h.cur h.sched).mono (by decide)
  · refine .inr ⟨tries_emit _ _, ?_⟩
    refine Nat.le_of_eq ((rank_data (c := c) h.state h.cur h.data).trans ?_)
    have hr := h.req
    unfold NoReq Requested at hr
    rw [if_neg (fun h => hr (.inl h)), if_neg (fun h => hr (.inr (.inl h)))]

theorem less_sendAttachSct {s c e} (h : Free s c) : Less s 4 (s.sendAttachSct e) := by
  unfold St.sendAttachSct
  have h' : Free { s with sct := { s.sct with synced := 0 } } c :=
    h.sct ⟨rfl, rfl, rfl, rfl, rfl, rfl, rfl, rfl, rfl, rfl⟩ rfl rfl rfl rfl rfl
  have ht : tries ({ s with sct := { s.sct with synced := 0 } } : St) = tries s := rfl
  generalize ({ s with sct := { s.sct with synced := 0 } } : St) = s' at h' ht
  refine Less.of_tries (s' := s') ?_ ht
  unfold St.upload
  by_cases h1 : s'.sct.version = s'.sct.synced
  · simp only [h1, if_true]
    exact (less_sendEnd h').mono (by decide)
  · by_cases h2 : (s'.sct.callback.isSome || !e.upload) = true
    · simp only [h1, h2, if_true, if_false]
      exact (less_asyncClose h'.cur h'.sched).mono (by decide)
    · rw [if_neg h1, if_neg h2]
      refine .inr ⟨tries_emit _ _, ?_⟩
      refine Nat.le_of_eq ((rank_data
        (s := ({ s' with sct := { s'.sct with callback := some true, uploading := s'.sct.version, conn := s'.dtls, body := s'.sct.tokens } } : St).emit
          (.upload s'.dtls s'.sct.tokens)) (c := c) h'.state h'.cur h'.data).trans ?_)
      have hr := h'.req
      have hd := cur_dtls h'.cur
      unfold NoReq Requested at hr
      refine (if_neg (fun h => hr (.inl h))).trans (if_pos ?_)
      exact ⟨rfl, hd⟩

theorem answers_cur {s : St} {conn} (h : answers s conn = true) : ∃ c, s.cur = some c ∧ c.phase = .data ∧ conn = some c.id := by
  unfold answers at h
  cases hc : s.cur with
  | none => simp [hc] at h
  | some c => simp only [hc, Bool.and_eq_true, beq_iff_eq] at h; exact ⟨c, rfl, h.1, h.2⟩

/-- The claim about one step. -/
def Advance (s : St) (a : Act) (t : St) : Prop := ∃ n, Less s n t ∧ n ≤ rank s ∧ (completes s a = true → n < rank s)

theorem Advance.start {s r e conn t} (h : Inv s) (hm : s.mod = .running) (hq : s.startReq = some conn)
    (ha : r = .none ∨ s.answerable conn = true) (ht : t = s.startCallback r e) : Advance s (.startResponse r e) t := by
  subst ht
  unfold St.startCallback
  have hst := storeName_same { s with startReq := none } r
  have hto : (({ s with startReq := none } : St).storeName r).out = s.out := by unfold St.storeName; split <;> rfl
  generalize hg : ({ s with startReq := none } : St).storeName r = s' at hst hto
  obtain ⟨hst', h1, h2, h3, h4⟩ := hst
  have hst : Same s s' := ⟨hst'.1, hst'.2, hst'.3, hst'.4, hst'.5, hst'.6, hst'.7, hst'.8, hst'.9, hst'.10⟩
  have h2 : s'.endReq = s.endReq := h2
  have h3 : s'.sct = s.sct := h3
  have h4 : s'.keepAlive = s.keepAlive := h4
  have htr : tries s' = tries s := by simp [tries, hto]
  have hc' : Conns none s' := h.conns.same hst (by rw [h1]; intro k hk; cases hk) (by rw [h3]; exact h.conns.sct) (by rw [h2]; exact h.conns.end_)
  have hs' : Sched s' := h.sched.same hst (by rw [h4]; exact h.sched.ka)
  have hrk : rank s' ≤ rank s := rank_same hst (.inr h1) (.inl ⟨by rw [h3], by rw [h3]⟩)
  -- when the connection has a request outstanding, the rank is 5
  have h5 : ∀ c, s.cur = some c → c.phase = .data → conn = some c.id → rank s = 5 ∧ (∃ c, s'.mod ≠ .closed → Free s' c) := by
    intro c hc hp hcc
    have hl := (h.link c hc).2.2.2 hp
    subst hcc
    have hone : s.state = .request ∧ OneReq s c.id := by
      rcases hl with a | ⟨_, _, b⟩
      · exact a
      · exact absurd (.inl hq) b
    refine ⟨by rw [rank_data hone.1 hc hp, if_pos hq], c, fun hm => ⟨hc', hs', by rw [hst.cur]; exact hc, hp, by rw [hst.state]; exact hone.1, hm, ?_⟩⟩
    unfold NoReq Requested
    rw [h1, h2, h3]
    have := hone.2
    unfold OneReq at this
    grind
  have hcomp : completes s (.startResponse r e) = true → rank s = 5 ∧ ∃ c, s.cur = some c := by
    intro hc
    simp only [completes, hq, Option.getD_some] at hc
    obtain ⟨c, hc, hp, hcc⟩ := answers_cur hc
    exact ⟨(h5 c hc hp hcc).1, c, hc⟩
  have hfail : ∀ b, Advance s (.startResponse r e) (s'.asyncClose b) := by
    intro b
    cases hcc : completes s (.startResponse r e) with
    | false => exact ⟨_, less_failed hs' htr hrk, Nat.le_refl _, fun h => by rw [hcc] at h; cases h⟩
    | true =>
      obtain ⟨hr, c, hc⟩ := hcomp hcc
      exact ⟨2, (less_asyncClose (by rw [hst.cur]; exact hc) hs').of_tries htr, by omega, fun _ => by omega⟩
  have hfail' : ∀ b o, attempt o = false → Advance s (.startResponse r e) ((s'.emit o).asyncClose b) := by
    intro b o ho
    have hse : Same s' (s'.emit o) := ⟨rfl, rfl, rfl, rfl, rfl, rfl, rfl, rfl, rfl, rfl⟩
    have hsd : Sched (s'.emit o) := hs'.same hse hs'.ka
    have htr' : tries (s'.emit o) = tries s := by rw [tries_emit, ho]; exact htr
    cases hcc : completes s (.startResponse r e) with
    | false => exact ⟨_, less_failed hsd htr' hrk, Nat.le_refl _, fun h => by rw [hcc] at h; cases h⟩
    | true =>
      obtain ⟨hr, c, hc⟩ := hcomp hcc
      exact ⟨2, (less_asyncClose (s := s'.emit o) (hse.cur.trans (hst.cur.trans hc)) hsd).of_tries htr', by omega, fun _ => by omega⟩
  have hmr : s'.mod ≠ .closed := by rw [hst.mod, hm]; intro h; cases h
  simp only
  rw [if_neg hmr]
  have hans : r ≠ .none → rank s = 5 ∧ ∃ c, Free s' c := by
    intro hr
    obtain ⟨c, hc, hp, hcc⟩ := answerable_cur (ha.resolve_left hr)
    obtain ⟨a, c, b⟩ := h5 c hc hp hcc
    exact ⟨a, c, b hmr⟩
  split
  · obtain ⟨hr, c, hf⟩ := hans (by intro h; cases h)
    exact ⟨4, (less_sendAttachSct hf).of_tries htr, by omega, fun _ => by omega⟩
  · obtain ⟨hr, c, hf⟩ := hans (by intro h; cases h)
    have hd := cur_dtls hf.cur
    refine ⟨2, (less_asyncClose (s := ({ s' with state := .redirect, redirects := s'.redirects + 1 } : St)) (c := c) hf.cur ?_).of_tries htr, by omega, fun _ => by omega⟩
    have hst := hf.state
    have hmod := hf.mod
    obtain ⟨a1, a2, a3, a4, a5, a6, a7, a8, a9, a10⟩ := hs'
    refine ⟨?_, ?_, ?_, ?_, ?_, ?_, ?_, ?_, ?_, ?_⟩ <;> unfold Idle Waits at * <;> simp only <;> grind
  · exact hfail' _ _ rfl
  · exact hfail' _ _ rfl
  · exact hfail' _ _ rfl
  · exact hfail _
  · exact hfail _
  · exact hfail _

theorem Advance.sct {s a r e t} (h : Inv s) (hm : s.mod = .running) (hq : s.sct.callback = some a)
    (ha : r = none ∨ s.answerable s.sct.conn = true) (ht : t = s.sctCallback a (r == some true) e) : Advance s (.sctResponse r e) t := by
  subst ht
  unfold St.sctCallback
  have hg : ∃ s', ({ (if (r == some true) = true then { s with sct := { s.sct with synced := s.sct.uploading } }.emit (.acked s.sct.conn s.sct.body) else s) with
      sct := { (if (r == some true) = true then { s with sct := { s.sct with synced := s.sct.uploading } }.emit (.acked s.sct.conn s.sct.body) else s).sct with callback := none } } : St) = s' ∧
      Same s s' ∧ s'.startReq = s.startReq ∧ s'.endReq = s.endReq ∧ s'.sct.callback = none ∧ s'.keepAlive = s.keepAlive ∧ tries s' = tries s := by
    refine ⟨_, rfl, ?_⟩
    split
    · exact ⟨⟨rfl, rfl, rfl, rfl, rfl, rfl, rfl, rfl, rfl, rfl⟩, rfl, rfl, rfl, rfl, tries_emit _ _⟩
    · exact ⟨⟨rfl, rfl, rfl, rfl, rfl, rfl, rfl, rfl, rfl, rfl⟩, rfl, rfl, rfl, rfl, rfl⟩
  obtain ⟨s', hg, hst, h1, h2, h3, h4, htr⟩ := hg
  have hm2 : (if (r == some true) = true then ({ s with sct := { s.sct with synced := s.sct.uploading } } : St).emit (.acked s.sct.conn s.sct.body) else s).mod = s'.mod := by
    rw [hst.mod]; split <;> rfl
  simp only [hg]
  simp only [hm2]
  have hc' : Conns none s' := h.conns.same hst (by rw [h1]; exact h.conns.start) (by rw [h3]; intro k hk; cases hk) (by rw [h2]; exact h.conns.end_)
  have hs' : Sched s' := h.sched.same hst (by rw [h4]; exact h.sched.ka)
  have hrk : rank s' ≤ rank s := rank_same hst (.inl h1) (.inr (by rw [h3]; intro h; cases h))
  have hmr : s'.mod ≠ .closed := by rw [hst.mod, hm]; intro h; cases h
  cases a with
  | true =>
    have h5 : ∀ c, s.cur = some c → c.phase = .data → s.sct.conn = some c.id → rank s = 4 ∧ (∃ c, Free s' c) := by
      intro c hc hp hcc
      have hl := (h.link c hc).2.2.2 hp
      have hreq : Requested s c.id := .inr (.inl ⟨hq, hcc⟩)
      have hone : s.state = .request ∧ OneReq s c.id := by
        rcases hl with a | ⟨_, _, b⟩
        · exact a
        · exact absurd hreq b
      have := hone.2
      unfold OneReq at this
      refine ⟨?_, c, hc', hs', by rw [hst.cur]; exact hc, hp, by rw [hst.state]; exact hone.1, hmr, ?_⟩
      · rw [rank_data hone.1 hc hp, if_neg (by grind), if_pos ⟨hq, hcc⟩]
      · unfold NoReq Requested
        rw [h1, h2, h3]
        grind
    have hfail : ∀ b, Advance s (.sctResponse r e) (s'.asyncClose b) := by
      intro b
      cases hcc : completes s (.sctResponse r e) with
      | false => exact ⟨_, less_failed hs' htr hrk, Nat.le_refl _, fun h => by rw [hcc] at h; cases h⟩
      | true =>
        simp only [completes, hq, beq_self_eq_true, Bool.true_and] at hcc
        obtain ⟨c, hc, hp, hcc⟩ := answers_cur hcc
        obtain ⟨hr, _⟩ := h5 c hc hp hcc
        exact ⟨2, (less_asyncClose (by rw [hst.cur]; exact hc) hs').of_tries htr, by omega, fun _ => by omega⟩
    simp only [if_true]
    rw [if_neg hmr]
    split
    · next hr =>
      have hr : r = some true := by simpa using hr
      have hrn : r ≠ none := by rw [hr]; intro h; cases h
      obtain ⟨c, hc, hp, hcc⟩ := answerable_cur (ha.resolve_left hrn)
      obtain ⟨hr, c, hf⟩ := h5 c hc hp hcc
      exact ⟨3, (less_sendEnd hf).of_tries htr, by omega, fun _ => by omega⟩
    · exact hfail _
  | false =>
    have hcc : completes s (.sctResponse r e) = false := by simp [completes, hq]
    simp only [Bool.false_eq_true, if_false]
    refine ⟨rank s, ?_, Nat.le_refl _, fun h => by rw [hcc] at h; cases h⟩
    split
    · have := rank_sendSct s' e
      exact .inr ⟨by omega, by omega⟩
    · exact .inr ⟨htr, hrk⟩

theorem Advance.end_ {s r e conn t} (h : Inv s) (hm : s.mod = .running) (hq : s.endReq = some conn)
    (ht : t = s.endCallback (r == some true) e) : Advance s (.endResponse r e) t := by
  subst ht
  unfold St.endCallback
  have hst : Same s ({ s with endReq := none } : St) := ⟨rfl, rfl, rfl, rfl, rfl, rfl, rfl, rfl, rfl, rfl⟩
  have hs' : Sched ({ s with endReq := none } : St) := h.sched.same hst h.sched.ka
  simp only
  split
  · cases hcc : completes s (.endResponse r e) with
    | false => exact ⟨_, less_failed (s := s) hs' rfl (Nat.le_refl _), Nat.le_refl _, fun h => by rw [hcc] at h; cases h⟩
    | true =>
      simp only [completes, hq, Option.getD_some] at hcc
      obtain ⟨c, hc, hp, hcc⟩ := answers_cur hcc
      have hl := (h.link c hc).2.2.2 hp
      subst hcc
      have hreq : Requested s c.id := .inr (.inr hq)
      have hone : s.state = .request ∧ OneReq s c.id := by
        rcases hl with a | ⟨_, _, b⟩
        · exact a
        · exact absurd hreq b
      have h3 : 3 ≤ rank s := by
        rw [rank_data hone.1 hc hp]
        split
        · decide
        · split <;> decide
      exact ⟨2, (less_asyncClose (s := ({ s with endReq := none } : St)) hc hs').of_tries rfl, by omega, fun _ => by omega⟩
  · rw [if_neg (by rw [hm]; intro h; cases h)]
    refine ⟨0, .inl ?_, Nat.zero_le _, fun hcc => ?_⟩
    · have h1 := (rank_sendSct (({ s with endReq := none, keepAlive := true, state := .attached } : St).enter.emit (.event .attached)) e).2
      rw [tries_emit, tries_enter] at h1
      rw [h1]
      simp [attempt, tries]
    · simp only [completes, hq, Option.getD_some] at hcc
      obtain ⟨c, hc, hp, hcc⟩ := answers_cur hcc
      have hl := (h.link c hc).2.2.2 hp
      subst hcc
      have hreq : Requested s c.id := .inr (.inr hq)
      have hone : s.state = .request ∧ OneReq s c.id := by
        rcases hl with a | ⟨_, _, b⟩
        · exact a
        · exact absurd hreq b
      rw [rank_data hone.1 hc hp]
      split
      · decide
      · split <;> decide

theorem Less.notify {s t n} (h : Less s n t) : Less s n t.notify := by
  unfold Less at *
  have h1 : tries t.notify = tries t := tries_emit _ _
  rw [h1]
  exact h

theorem rank_current {s c} (h : Inv s) (hc : s.cur = some c) : 2 ≤ rank s ∧ (c.phase ≠ .closing → 3 ≤ rank s) := by
  have hd := cur_dtls hc
  have hi := h.sched.idle
  have hl := (h.link c hc).2.1
  unfold rank
  unfold Idle Waits at hi
  cases hst : s.state <;> simp_all
  · cases c.phase <;> simp
    split
    · decide
    · split <;> decide
  · split <;> simp_all

theorem asyncClose_mod (s : St) (b) : (s.asyncClose b).mod = s.mod := by
  unfold St.asyncClose
  split
  · rfl
  · split
    · rfl
    · simp only
      split
      · rfl
      · exact (down_fields _ _).2.1

theorem sendEnd_mod (s : St) (e) : (s.sendEnd e).mod = s.mod := by
  unfold St.sendEnd
  split
  · exact asyncClose_mod _ _
  · rfl

theorem sendStart_mod (s : St) (e) : (s.sendStart e).mod = s.mod := by
  unfold St.sendStart
  split
  · exact asyncClose_mod _ _
  · rfl

theorem upload_mod (s : St) (b e) : (s.upload b e).1.mod = s.mod := by
  unfold St.upload
  split
  · rfl
  · split <;> rfl

theorem sendSct_mod (s : St) (e) : (s.sendSct e).mod = s.mod := upload_mod _ _ _

theorem sendAttachSct_mod (s : St) (e) : (s.sendAttachSct e).mod = s.mod := by
  unfold St.sendAttachSct
  have h := upload_mod { s with sct := { s.sct with synced := 0 } } true e
  split
  · next hu => rw [hu] at h; rw [sendEnd_mod]; exact h
  · next hu => rw [hu] at h; exact h
  · next hu => rw [hu] at h; exact (asyncClose_mod _ _).trans h

theorem startCallback_mod (s : St) (r e) : (s.startCallback r e).mod = s.mod := by
  unfold St.startCallback
  have h := (storeName_same { s with startReq := none } r).1.mod
  simp only
  split
  · exact (asyncClose_mod _ _).trans h
  · split
    · exact (sendAttachSct_mod _ _).trans h
    all_goals exact (asyncClose_mod _ _).trans h

theorem sctCallback_mod (s : St) (a ok e) : (s.sctCallback a ok e).mod = s.mod := by
  unfold St.sctCallback
  cases ok <;> cases a <;> simp only [Bool.false_eq_true, if_false, if_true]
  · split <;> exact asyncClose_mod _ _
  · exact sendSct_mod _ _
  · split
    · exact asyncClose_mod _ _
    · exact sendEnd_mod _ _

theorem endCallback_mod (s : St) (ok e) : (s.endCallback ok e).mod = s.mod := by
  unfold St.endCallback
  simp only
  split
  · exact asyncClose_mod _ _
  · split
    · exact asyncClose_mod _ _
    · exact sendSct_mod _ _

theorem enter_mod (s : St) : s.enter.mod = s.mod := by
  unfold St.enter
  cases s.state <;> rfl

theorem reattach_mod (s : St) (m) : (s.reattach m).mod = s.mod := by
  unfold St.reattach
  split
  · exact enter_mod _
  · split <;> exact enter_mod _

theorem enterRequest_mod (s : St) (e) : (s.enterRequest e).mod = s.mod := by
  unfold St.enterRequest
  split
  · rfl
  · simp only
    split
    · rfl
    · exact (down_fields _ _).2.1

theorem resolved_mod (s : St) (ips e) : (s.resolved ips e).mod = s.mod := by
  unfold St.resolved
  simp only
  split
  · exact enter_mod _
  · split
    · exact enter_mod _
    · exact enterRequest_mod _ _

theorem addToken_mod (s : St) (t m e) : (s.addToken t m e).mod = s.mod := by
  unfold St.addToken
  simp only
  split
  · rfl
  · split
    · exact sendSct_mod _ _
    · rfl

theorem sent_mod (s : St) (c) : (s.sent c).mod = s.mod := by
  unfold St.sent
  split
  · simp only
    split
    · exact (down_fields _ _).2.1
    · split <;> exact (down_fields _ _).2.1
  · rfl

theorem resolveClose_mod (s : St) : s.resolveClose.mod = s.mod := by
  unfold St.resolveClose
  simp only
  split
  · rfl
  · split <;> rfl

/-- The environment does not change whether the attacher runs. -/
theorem step_mod {s a t} (he : env a = true) (hst : step s a = some t) : t.mod = s.mod := by
  cases a with
  | start | close | stop | restart => cases he
  | addToken => cases hst; exact addToken_mod _ _ _ _
  | resolved =>
    simp only [Attacher.step] at hst
    split at hst
    · cases hst; exact resolved_mod _ _ _
    · cases hst
  | connected =>
    simp only [Attacher.step] at hst
    split at hst
    · cases hst
    · split at hst
      · split at hst
        · cases hst; exact asyncClose_mod _ _
        · cases hst; exact sendStart_mod _ _
      · cases hst
  | fail =>
    simp only [Attacher.step] at hst
    split at hst
    · cases hst
    · split at hst
      · cases hst
      · split at hst
        · cases hst; exact (down_fields _ _).2.1
        · split at hst
          · cases hst
          · cases hst; exact (down_fields _ _).2.1
  | send =>
    simp only [Attacher.step] at hst
    split at hst
    · cases hst
    · split at hst
      · cases hst
      · cases hst; rfl
  | sent =>
    simp only [Attacher.step] at hst
    split at hst
    · cases hst
    · split at hst
      · cases hst; exact sent_mod _ _
      · cases hst
  | startResponse =>
    simp only [Attacher.step] at hst
    split at hst
    · cases hst
    · split at hst
      · cases hst; exact startCallback_mod _ _ _
      · cases hst
  | sctResponse =>
    simp only [Attacher.step] at hst
    split at hst
    · cases hst
    · split at hst
      · cases hst; exact sctCallback_mod _ _ _ _
      · cases hst
  | endResponse =>
    simp only [Attacher.step] at hst
    split at hst
    · cases hst
    · split at hst
      · cases hst; exact endCallback_mod _ _ _
      · cases hst
  | keepAliveTimeout =>
    simp only [Attacher.step] at hst
    split at hst
    · cases hst; exact asyncClose_mod _ _
    · cases hst
  | timer =>
    simp only [Attacher.step] at hst
    split at hst
    · cases hst; exact reattach_mod _ _
    · cases hst
  | closeEvent =>
    simp only [Attacher.step] at hst
    split at hst
    · cases hst; exact resolveClose_mod _
    · cases hst
  | deferred =>
    simp only [Attacher.step] at hst
    split at hst
    · cases hst; rfl
    · cases hst

theorem Advance.quiet {s a t} (h1 : tries t = tries s) (h2 : rank t ≤ rank s) (h3 : completes s a = false) : Advance s a t :=
  ⟨rank s, .inr ⟨h1, h2⟩, Nat.le_refl _, fun h => by rw [h3] at h; cases h⟩

theorem Advance.resolved {s ips e} (h : Inv s) (hm : s.mod = .running) (hr : s.resolving = true) (he : e.create = true) :
    Advance s (.resolved ips e) (s.resolved ips e) := by
  have hst := h.sched.resolving.1 hr
  have h7 : rank s = 7 := by unfold rank; rw [hst.1]
  refine ⟨6, ?_, by omega, fun _ => by omega⟩
  unfold St.resolved
  simp only
  rw [if_neg (by rw [hm]; intro h; cases h)]
  cases ips with
  | none =>
    simp only
    refine .inr ⟨tries_enter _, ?_⟩
    have := (enter_fields ({ s with resolving := false, state := .retryWait } : St) (.inr (.inl rfl))).1
    exact Nat.le_trans (rank_idle (.inl this)) (by decide)
  | some ips =>
    simp only [St.enterRequest, he]
    generalize hs1 : ({ s with
      resolving := false, state := .request, endpoints := (ips.take 4).map (fun ip => (ip, s.port))
      conns := s.conns ++ [{ id := s.nextId, sending := e.sending }], nextId := s.nextId + 1, dtls := some s.nextId } : St).emit
        (.connect s.nextId ((ips.take 4).map (fun ip => (ip, s.port))) s.host) = s1
    have htr : tries s1 = tries s := by subst hs1; exact tries_emit _ _
    have hcur : s1.cur = some { id := s.nextId, sending := e.sending } := by
      have : s1.cur = s1.conn? s.nextId := by subst hs1; rfl
      rw [this, conn?_append s { id := s.nextId, sending := e.sending } s1 (by subst hs1; rfl) (h.dns_conn hst.1 _) s.nextId]
      simp
    simp only [Bool.not_true, Bool.false_eq_true, if_false]
    split
    · refine (Less.notify (.inr ⟨htr, ?_⟩))
      unfold rank
      rw [show s1.state = .request by subst hs1; rfl, hcur]
      exact Nat.le_refl _
    · refine Less.notify ?_
      exact ((less_down _ _).mono (m := 6) (by decide)).of_tries htr

theorem Advance.sent {s id c} (h : Inv s) (hm : s.mod = .running) (hc : s.conn? id = some c) (_hs : c.sending = true) :
    Advance s (.sent id) (s.sent c) := by
  unfold St.sent
  split
  · next hp =>
    simp only
    have hl := less_down s .closed
    have key : ∀ t : St, t.state = (s.down .closed).state → t.out = (s.down .closed).out → Less s 1 t := by
      intro t h1 h2
      have htr : tries t = tries (s.down .closed) := by simp [tries, h2]
      have hti : Idle t.state := by
        rw [h1, (down_fields s .closed).1]
        have := downState_cases s .closed
        unfold Idle Waits; grind
      have hrk : rank t = rank (s.down .closed) := by
        unfold rank
        rw [← h1]
        unfold Idle Waits at hti
        rcases hti with h | h | h | h <;> simp [h]
      unfold Less at *
      rw [htr, hrk]
      exact hl
    have hfin : ∀ t : St, Less s 1 t → Advance s (.sent id) t := by
      intro t ht
      rcases (h.conns.conn id c hc).2.2 with ⟨h1, h2⟩ | ⟨h1, h2, h3, h4, h5⟩
      · have hcur : s.cur = some c := by simp [St.cur, h1, hc]
        have := (rank_current h hcur).1
        exact ⟨1, ht, by omega, fun _ => by omega⟩
      · have hw : Waits s.state := by rcases h5 with h5 | h5; cases h5; exact h5
        refine ⟨1, ht, ?_, fun hcc => ?_⟩
        · have := h.sched.running hm
          unfold Waits at hw
          unfold rank
          rcases hw with h | h | h
          · rw [h]; exact Nat.le_refl _
          · rw [h]; exact Nat.le_refl _
          · exact absurd h this
        · simp [completes, h4] at hcc
    split
    · exact hfin _ (key _ rfl rfl)
    · split
      · exact hfin _ (key _ rfl rfl)
      · exact hfin _ (key _ rfl rfl)
  · next hp =>
    have hcur := h.current hc hp
    refine .quiet rfl (Nat.le_of_eq (rank_setConn hcur rfl rfl)) ?_
    simp only [completes, closing, hcur]
    cases hph : c.phase
    · simp
    · simp
    · exact absurd hph hp

theorem Advance.step {s a t} (h : Inv s) (hm : s.mod = .running) (hg : Regular s a) (he : env a = true)
    (hst : step s a = some t) : Advance s a t := by
  cases a with
  | start | close | stop | restart => cases he
  | addToken tok m e =>
    cases hst
    unfold St.addToken
    simp only
    split
    · exact .quiet rfl (Nat.le_refl _) rfl
    · split
      · have := rank_sendSct (({ s with sct := { s.sct with version := s.sct.version + 1, tokens := St.insertToken s.sct.tokens tok } } : St).emit (.added tok)) e
        refine .quiet (this.2.trans (tries_emit _ _)) (Nat.le_trans this.1 (Nat.le_refl _)) rfl
      · exact .quiet (tries_emit _ _) (Nat.le_refl _) rfl
  | resolved ips e =>
    simp only [Attacher.step] at hst
    split at hst
    · next hr => cases hst; exact .resolved h hm hr hg
    · cases hst
  | connected id e =>
    simp only [Attacher.step] at hst
    split at hst
    · cases hst
    · next c hc =>
      split at hst
      · next hp =>
        have hcur := h.current hc (by rw [hp]; intro h; cases h)
        have hnd : c.destroyed = false := by
          have := h.conns.conn id c hc
          grind
        have h1 := h.conns.setConn (c' := { c with phase := .data }) hcur rfl hnd
        have h2 := cur_setConn (c' := { c with phase := .data }) hcur rfl
        obtain ⟨l1, l2, l3, l4⟩ := h.link c hcur
        have hr : rank s = 6 := by unfold rank; rw [(l3 hp).1, hcur]; simp [hp]
        have hm' : (s.setConn { c with phase := .data }).mod ≠ .closed := by
          rw [show (s.setConn { c with phase := .data }).mod = s.mod from rfl, hm]; intro h; cases h
        rw [if_neg hm'] at hst
        cases hst
        exact ⟨5, (less_sendStart (c := { c with phase := .data }) ⟨h1, h.sched.setConn, h2, rfl, (l3 hp).1, hm', (l3 hp).2⟩).of_tries rfl,
          by omega, fun _ => by omega⟩
      · cases hst
  | fail id d b =>
    simp only [Attacher.step] at hst
    split at hst
    · cases hst
    · next c hc =>
      split at hst
      · cases hst
      · next hp =>
        have hcur := h.current hc hp
        have := (rank_current h hcur).2 hp
        split at hst
        · cases hst
          exact ⟨1, less_down _ _, by omega, fun _ => by omega⟩
        · split at hst
          · cases hst
          · cases hst
            exact ⟨1, (less_down _ _).of_tries rfl, by omega, fun _ => by omega⟩
  | send id =>
    simp only [Attacher.step] at hst
    split at hst
    · cases hst
    · next c hc =>
      split at hst
      · cases hst
      · next hp =>
        cases hst
        exact .quiet rfl (Nat.le_of_eq (rank_setConn (h.current hc hp) rfl rfl)) rfl
  | sent id =>
    simp only [Attacher.step] at hst
    split at hst
    · cases hst
    · next c hc =>
      split at hst
      · next hs => cases hst; exact .sent h hm hc hs
      · cases hst
  | startResponse r e =>
    simp only [Attacher.step] at hst
    split at hst
    · cases hst
    · next conn hq =>
      split at hst
      · next ha => cases hst; exact .start h hm hq ha rfl
      · cases hst
  | sctResponse r e =>
    simp only [Attacher.step] at hst
    split at hst
    · cases hst
    · next conn hq =>
      split at hst
      · next ha => cases hst; exact .sct h hm hq ha rfl
      · cases hst
  | endResponse r e =>
    simp only [Attacher.step] at hst
    split at hst
    · cases hst
    · next conn hq =>
      split at hst
      · next ha => cases hst; exact .end_ h hm hq rfl
      · cases hst
  | keepAliveTimeout b =>
    simp only [Attacher.step] at hst
    split at hst
    · next hk =>
      cases hst
      have hatt := h.sched.ka hk
      have hd : s.dtls ≠ none := by
        have := h.sched.idle
        unfold Idle Waits at this
        grind
      cases hcc : s.cur with
      | none => exact absurd (h.conns.cur_none hcc) hd
      | some c =>
        have hr := rank_current h hcc
        have hsd : Sched ({ s with keepAlive := false } : St) := h.sched.same ⟨rfl, rfl, rfl, rfl, rfl, rfl, rfl, rfl, rfl, rfl⟩ (fun h => by cases h)
        cases hph : (c.phase == .closing) with
        | true =>
          have hph : c.phase = .closing := by simpa using hph
          rw [show ({ s with keepAlive := false } : St).asyncClose b = { s with keepAlive := false } by
            simp [St.asyncClose, show ({ s with keepAlive := false } : St).cur = some c from hcc, hph]]
          exact .quiet rfl (Nat.le_refl _) (by simp [completes, closing, hcc, hph])
        | false =>
          have hph : c.phase ≠ .closing := by simpa using hph
          have := hr.2 hph
          exact ⟨2, (less_asyncClose (s := ({ s with keepAlive := false } : St)) hcc hsd).of_tries rfl, by omega, fun _ => by omega⟩
    · cases hst
  | timer m =>
    simp only [Attacher.step] at hst
    split at hst
    · next ht =>
      cases hst
      have hst := h.sched.timer.1 ht
      have h1 : rank s = 1 := by unfold rank; rcases hst with h | h <;> rw [h]
      unfold St.reattach
      rw [if_neg (by rw [show ({ s with timer := none } : St).mod = s.mod from rfl, hm]; intro h; cases h)]
      cases m with
      | false =>
        simp only [Bool.not_false, if_true]
        refine .quiet (tries_enter _) ?_ rfl
        have := (enter_fields ({ s with timer := none, dns := none, state := .retryWait } : St) (.inr (.inl rfl))).1
        exact Nat.le_trans (rank_idle (.inl this)) (by omega)
      | true =>
        simp only [Bool.not_true, Bool.false_eq_true, if_false]
        refine ⟨0, .inl ?_, by omega, fun _ => by omega⟩
        rw [tries_enter]
        simp [tries]
    · cases hst
  | closeEvent =>
    simp only [Attacher.step] at hst
    split at hst
    · next hc =>
      have h1 := h.sched.closeEv hc
      have h2 := h.sched.running hm
      rw [hm] at h1
      rcases h1 with h1 | h1
      · exact absurd h1 h2
      · cases h1
    · cases hst
  | deferred =>
    simp only [Attacher.step, h.sched.deferred] at hst
    cases hst

theorem Advance.run {s as t} (h : Inv s) (hm : s.mod = .running) (hr : Run s as t) (he : ∀ a ∈ as, env a = true) :
    tries s < tries t ∨ (tries t = tries s ∧ rank t + completions s as ≤ rank s) := by
  induction hr with
  | nil => right; simp [completions]
  | cons hg hs _ ih =>
    rename_i s u t a as hr
    obtain ⟨n, hl, hn, hc⟩ := Advance.step h hm hg (he _ (List.mem_cons_self ..)) hs
    have ih := ih (h.step hg hs) ((step_mod (he _ (List.mem_cons_self ..)) hs).trans hm) (fun a ha => he a (List.mem_cons_of_mem _ ha))
    simp only [completions, hs]
    rcases hl with hl | ⟨hl, hl'⟩
    · left; rcases ih with ih | ⟨ih, _⟩ <;> omega
    · rcases ih with ih | ⟨ih, ih'⟩
      · left; omega
      · right
        refine ⟨by omega, ?_⟩
        split
        · next hcc => have := hc hcc; omega
        · omega

end Verif.Core.Attacher
