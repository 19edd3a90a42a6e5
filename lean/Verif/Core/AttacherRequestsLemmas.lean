import Verif.Core.AttacherRequestsSpec

/-! # The requests of an attacher: lemmas -/

namespace Verif.Core.Attacher.Requests
open Verif.Core.Attacher Spec

theorem kind_beq (a b : Kind) : (a == b) = decide (a = b) := by cases a <;> cases b <;> rfl

/-- A request of this kind is outstanding. -/
def waits (k : Kind) (s : St) : Bool :=
  match k with
  | .start => s.startReq.isSome
  | .upload => s.sct.callback.isSome
  | .done => s.endReq.isSome

/-- The requests which were sent and are not outstanding. -/
def over (k : Kind) (s : St) : Int := (sent k s.out : Int) - (waits k s).toNat

theorem over_congr {k} {s t : St} (h1 : t.out = s.out) (h2 : t.startReq = s.startReq) (h3 : t.sct.callback = s.sct.callback)
    (h4 : t.endReq = s.endReq) : over k t = over k s := by
  unfold over waits
  rw [h1, h2, h3, h4]

theorem sent_append (k : Kind) (l : List Obs) (o : Obs) : sent k (l ++ [o]) = sent k l + (seen o == some k).toNat := by
  unfold sent
  rw [List.countP_append]
  cases h : seen o == some k <;> simp [h]

theorem over_emit {k s o} (h : seen o = none) : over k (s.emit o) = over k s := by
  unfold over
  rw [show (s.emit o).out = s.out ++ [o] from rfl, sent_append, h]
  have : waits k (s.emit o) = waits k s := by cases k <;> rfl
  rw [this]
  simp

theorem over_setConn (k s c) : over k (St.setConn s c) = over k s := over_congr rfl rfl rfl rfl
theorem over_dropConn (k s c) : over k (St.dropConn s c) = over k s := over_congr rfl rfl rfl rfl
theorem over_notify (k s) : over k (St.notify s) = over k s := over_emit rfl

theorem over_enter (k s) : over k (St.enter s) = over k s := by
  unfold St.enter
  split
  · rw [over_notify, St.startResolve, over_emit rfl]; exact over_congr rfl rfl rfl rfl
  all_goals rw [over_notify]
  all_goals exact over_congr rfl rfl rfl rfl

/-- A change of the state, then what is done in it. -/
theorem over_enter' {k} {s t : St} (h1 : t.out = s.out) (h2 : t.startReq = s.startReq) (h3 : t.sct.callback = s.sct.callback)
    (h4 : t.endReq = s.endReq) : over k t.enter = over k s := (over_enter k t).trans (over_congr h1 h2 h3 h4)

theorem over_reset (k s) : over k (St.reset s) = over k s := by
  by_cases h : s.state = .attached
  · have h1 : over k (St.reset s) = over k (s.emit (.event .detached)) :=
      over_congr (by simp [St.reset, h, St.emit]) rfl rfl rfl
    rw [h1, over_emit rfl]
  · exact over_congr (by simp [St.reset, h]) rfl rfl rfl

theorem over_down (k s d) : over k (St.down s d) = over k s := by
  unfold St.down
  split
  · rw [over_enter, ← over_reset k s]; exact over_congr rfl rfl rfl rfl
  · cases d with
    | closed =>
      dsimp only
      split
      · rw [over_enter, ← over_reset k s]; exact over_congr rfl rfl rfl rfl
      · exact over_reset k s
      · rw [over_enter, ← over_reset k s]; exact over_congr rfl rfl rfl rfl
    | denied => dsimp only; rw [over_enter, ← over_reset k s]; exact over_congr rfl rfl rfl rfl
    | certificate =>
      dsimp only
      rw [over_enter, ← over_reset k s, ← over_emit (s := s.reset) (o := .event .certificate) rfl]
      exact over_congr rfl rfl rfl rfl

theorem over_asyncClose (k s b) : over k (St.asyncClose s b) = over k s := by
  unfold St.asyncClose
  split
  · rfl
  · split
    · rfl
    · dsimp only
      split
      · exact over_setConn _ _ _
      · rw [over_down, over_setConn]

theorem over_enterRequest (k s e) : over k (St.enterRequest s e) = over k s := by
  unfold St.enterRequest
  split
  · exact over_congr rfl rfl rfl rfl
  · dsimp only
    split
    · rw [over_notify, over_emit rfl]; exact over_congr rfl rfl rfl rfl
    · rw [over_notify, over_down, over_setConn, over_emit rfl]; exact over_congr rfl rfl rfl rfl

theorem over_failed (k s e) : over k (St.failed s e) = over k s := over_asyncClose _ _ _

theorem over_sendStart (k s e) : over k (St.sendStart s e) = over k s := by
  unfold St.sendStart
  split
  · exact over_failed _ _ _
  · rename_i h
    simp only [Bool.or_eq_true, not_or, Bool.not_eq_true] at h
    unfold over
    dsimp only [St.emit]
    rw [sent_append]
    cases k <;> simp [waits, seen, h.1, kind_beq]

theorem over_sendEnd (k s e) : over k (St.sendEnd s e) = over k s := by
  unfold St.sendEnd
  split
  · exact over_failed _ _ _
  · rename_i h
    simp only [Bool.or_eq_true, not_or, Bool.not_eq_true] at h
    unfold over
    dsimp only [St.emit]
    rw [sent_append]
    cases k <;> simp [waits, seen, h.1, kind_beq]

theorem over_upload (k s b e) : over k (St.upload s b e).1 = over k s := by
  unfold St.upload
  split
  · rfl
  · split
    · rfl
    · rename_i h
      simp only [Bool.or_eq_true, not_or, Bool.not_eq_true] at h
      unfold over
      dsimp only [St.emit]
      rw [sent_append]
      cases k <;> simp [waits, seen, h.1, kind_beq]

theorem over_sendAttachSct (k s e) : over k (St.sendAttachSct s e) = over k s := by
  have hu := over_upload k { s with sct := { s.sct with synced := 0 } } true e
  have hs : over k { s with sct := { s.sct with synced := 0 } } = over k s := over_congr rfl rfl rfl rfl
  unfold St.sendAttachSct
  split
  · rename_i h; rw [h] at hu; rw [over_sendEnd]; exact hu.trans hs
  · rename_i h; rw [h] at hu; exact hu.trans hs
  · rename_i h; rw [h] at hu; rw [over_failed]; exact hu.trans hs

theorem over_sendSct (k s e) : over k (St.sendSct s e) = over k s := over_upload _ _ _ _

theorem over_reattach (k s m) : over k (St.reattach s m) = over k s := by
  unfold St.reattach
  split
  · exact over_enter' rfl rfl rfl rfl
  · split <;> exact over_enter' rfl rfl rfl rfl

theorem over_doClose (k s b) : over k (St.doClose s b) = over k s := by
  unfold St.doClose
  split
  · exact over_congr rfl rfl rfl rfl
  · split
    · exact over_enter' rfl rfl rfl rfl
    · exact over_enter' rfl rfl rfl rfl
    · exact over_congr rfl rfl rfl rfl
    · rw [over_asyncClose]; exact over_congr rfl rfl rfl rfl
    · rw [over_asyncClose]; exact over_congr rfl rfl rfl rfl
    · exact over_congr rfl rfl rfl rfl
    · exact over_congr rfl rfl rfl rfl

theorem over_resolveClose (k s) : over k (St.resolveClose s) = over k s := by
  unfold St.resolveClose
  dsimp only
  split
  · exact over_congr rfl rfl rfl rfl
  · split
    · rw [over_emit rfl, over_emit rfl]; exact over_congr rfl rfl rfl rfl
    · rw [over_emit rfl]; exact over_congr rfl rfl rfl rfl

theorem over_resolved (k s i e) : over k (St.resolved s i e) = over k s := by
  unfold St.resolved
  dsimp only
  split
  · exact over_enter' rfl rfl rfl rfl
  · split
    · exact over_enter' rfl rfl rfl rfl
    · rw [over_enterRequest]; exact over_congr rfl rfl rfl rfl

theorem over_storeName (k s r) : over k (St.storeName s r) = over k s := by
  unfold St.storeName
  split <;> exact over_congr rfl rfl rfl rfl

/-- A request is over. -/
theorem over_start {k s c} (h : s.startReq = some c) :
    over k { s with startReq := none } = over k s + (some Kind.start == some k).toNat := by
  unfold over
  cases k <;> simp [waits, h, kind_beq]

theorem over_end {k s c} (h : s.endReq = some c) :
    over k { s with endReq := none } = over k s + (some Kind.done == some k).toNat := by
  unfold over
  cases k <;> simp [waits, h, kind_beq]

theorem over_sct {k s c} (h : s.sct.callback = some c) :
    over k { s with sct := { s.sct with callback := none } } = over k s + (some Kind.upload == some k).toNat := by
  unfold over
  cases k <;> simp [waits, h, kind_beq]

theorem over_startCallback {k s r e c} (h : s.startReq = some c) :
    over k (St.startCallback s r e) = over k s + (some Kind.start == some k).toNat := by
  rw [← over_start h]
  unfold St.startCallback
  dsimp only
  split
  · rw [over_failed, over_storeName]
  · split
    · rw [over_sendAttachSct, over_storeName]
    · rw [over_asyncClose, ← over_storeName k { s with startReq := none }]; exact over_congr rfl rfl rfl rfl
    · rw [over_failed, over_emit rfl, over_storeName]
    · rw [over_failed, over_emit rfl, over_storeName]
    · rw [over_failed, over_emit rfl, over_storeName]
    all_goals rw [over_failed, over_storeName]

theorem over_sctCallback {k s a ok e} (h : s.sct.callback = some a) :
    over k (St.sctCallback s a ok e) = over k s + (some Kind.upload == some k).toNat := by
  have key : ∀ t : St, t.sct.callback = some a → over k t = over k s →
      over k { t with sct := { t.sct with callback := none } } = over k s + (some Kind.upload == some k).toNat := by
    intro t ht ho
    rw [over_sct ht, ho]
  unfold St.sctCallback
  dsimp only
  have hk := key (if ok then { s with sct := { s.sct with synced := s.sct.uploading } }.emit (.acked s.sct.conn s.sct.body) else s)
    (by split <;> exact h)
    (by
      split
      · rw [over_emit rfl]; exact over_congr rfl rfl rfl rfl
      · rfl)
  revert hk
  generalize (if ok = true then ({ s with sct := { s.sct with synced := s.sct.uploading } } : St).emit (.acked s.sct.conn s.sct.body)
    else s) = t
  intro hk
  rw [← hk]
  split
  · split
    · rw [over_failed]
    · split
      · rw [over_sendEnd]
      · rw [over_failed]
  · split
    · rw [over_sendSct]
    · rfl

theorem over_endCallback {k s ok e c} (h : s.endReq = some c) :
    over k (St.endCallback s ok e) = over k s + (some Kind.done == some k).toNat := by
  rw [← over_end h]
  unfold St.endCallback
  dsimp only
  split
  · rw [over_failed]
  · split
    · rw [over_failed]
    · rw [over_sendSct, over_emit rfl]
      exact over_enter' rfl rfl rfl rfl

theorem over_start' (k s h p m) : over k (St.start s h p m) = over k s := by
  unfold St.start
  split
  · rfl
  · split
    · exact over_congr rfl rfl rfl rfl
    · exact over_enter' rfl rfl rfl rfl

theorem over_restart (k s m) : over k (St.restart s m) = over k s := by
  unfold St.restart
  split
  · rfl
  · dsimp only
    split
    · rw [over_reattach]; exact over_congr rfl rfl rfl rfl
    · exact over_congr rfl rfl rfl rfl

theorem over_addToken (k s t m e) : over k (St.addToken s t m e) = over k s := by
  unfold St.addToken
  dsimp only
  split
  · exact over_congr rfl rfl rfl rfl
  · split
    · rw [over_sendSct, over_emit rfl]; exact over_congr rfl rfl rfl rfl
    · rw [over_emit rfl]; exact over_congr rfl rfl rfl rfl

theorem over_sent (k s c) : over k (St.sent s c) = over k s := by
  unfold St.sent
  split
  · dsimp only
    split
    · exact over_down _ _ _
    · split
      · rw [over_dropConn, over_down]
      · rw [over_setConn, over_down]
  · exact over_setConn _ _ _

theorem over_step {k s a t} (h : step s a = some t) : over k t = over k s + (ends a == some k).toNat := by
  have z : ((none : Option Kind) == some k).toNat = 0 := by cases k <;> rfl
  cases a <;> simp only [step, ends, z] at h ⊢
  case start => cases h; simpa using over_start' _ _ _ _ _
  case close => cases h; rw [over_doClose]; rw [Int.natCast_zero, Int.add_zero]; exact over_congr rfl rfl rfl rfl
  case stop => cases h; rw [over_doClose]; rw [Int.natCast_zero, Int.add_zero]; exact over_congr rfl rfl rfl rfl
  case restart => cases h; simpa using over_restart _ _ _
  case addToken => cases h; simpa using over_addToken _ _ _ _ _
  case resolved =>
    split at h
    · cases h; simpa using over_resolved _ _ _ _
    · cases h
  case connected =>
    split at h
    · cases h
    · split at h
      · split at h <;> cases h
        · rw [over_asyncClose, over_setConn]; simp
        · rw [over_sendStart, over_setConn]; simp
      · cases h
  case fail =>
    split at h
    · cases h
    · split at h
      · cases h
      · split at h
        · cases h; rw [over_down]; simp
        · split at h
          · cases h
          · cases h; rw [over_down, over_setConn]; simp
  case send =>
    split at h
    · cases h
    · split at h
      · cases h
      · cases h; rw [over_setConn]; simp
  case sent =>
    split at h
    · cases h
    · split at h
      · cases h; rw [over_sent]; simp
      · cases h
  case startResponse =>
    split at h
    · cases h
    · rename_i hq
      split at h
      · cases h; exact over_startCallback hq
      · cases h
  case sctResponse =>
    split at h
    · cases h
    · rename_i hq
      split at h
      · cases h; exact over_sctCallback hq
      · cases h
  case endResponse =>
    split at h
    · cases h
    · rename_i hq
      split at h
      · cases h; exact over_endCallback hq
      · cases h
  case keepAliveTimeout =>
    split at h
    · cases h; rw [over_asyncClose]; rw [Int.natCast_zero, Int.add_zero]; exact over_congr rfl rfl rfl rfl
    · cases h
  case timer =>
    split at h
    · cases h; rw [over_reattach]; rw [Int.natCast_zero, Int.add_zero]; exact over_congr rfl rfl rfl rfl
    · cases h
  case closeEvent =>
    split at h
    · cases h; simpa using over_resolveClose _ _
    · cases h
  case deferred =>
    split at h
    · cases h; simp
    · cases h

theorem over_run {k as} : ∀ {s t}, run s as = some t → over k t = over k s + ended k as := by
  induction as with
  | nil => intro s t h; cases h; simp [ended]
  | cons a as ih =>
    intro s t h
    rw [run, Option.bind_eq_some_iff] at h
    obtain ⟨u, h1, h2⟩ := h
    rw [ih h2, over_step h1]
    unfold ended
    rw [List.countP_cons]
    cases ends a == some k <;> simp <;> omega

end Verif.Core.Attacher.Requests
