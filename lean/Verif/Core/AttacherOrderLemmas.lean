import Verif.Core.AttacherOrderSpec

/-! # The order of attaching: lemmas -/

namespace Verif.Core.Attacher.Order
open Verif.Core.Attacher Spec

/-- The observations which matter. -/
def keep : Obs → Bool
  | .event .attached => true
  | .endRequest _ => true
  | _ => false

/-- What matters in a state. -/
def view (s : St) : List Obs × Option (Option Nat) × Option Bool × Option Nat :=
  (s.out.filter keep, s.endReq, s.sct.callback, s.sct.conn)

theorem view_congr {s t : St} (h1 : t.out = s.out) (h2 : t.endReq = s.endReq) (h3 : t.sct = s.sct) : view t = view s := by
  unfold view
  rw [h1, h2, h3]

theorem view_emit {s : St} {o} (h : keep o = false) : view (s.emit o) = view s := by
  unfold view
  simp [St.emit, List.filter_append, h]

theorem view_setConn (s c) : view (St.setConn s c) = view s := view_congr rfl rfl rfl
theorem view_dropConn (s c) : view (St.dropConn s c) = view s := view_congr rfl rfl rfl
theorem view_notify (s) : view (St.notify s) = view s := view_emit rfl

theorem view_enter (s) : view (St.enter s) = view s := by
  unfold St.enter
  split
  · rw [view_notify, St.startResolve, view_emit rfl]; exact view_congr rfl rfl rfl
  all_goals rw [view_notify]
  all_goals exact view_congr rfl rfl rfl

/-- A change of the state, then what is done in it. -/
theorem view_enter' {s t : St} (h1 : t.out = s.out) (h2 : t.endReq = s.endReq) (h3 : t.sct = s.sct) : view t.enter = view s := (view_enter t).trans (view_congr h1 h2 h3)

theorem view_reset (s) : view (St.reset s) = view s := by
  by_cases h : s.state = .attached
  · have h1 : view (St.reset s) = view (s.emit (.event .detached)) :=
      view_congr (by simp [St.reset, h, St.emit]) rfl rfl
    rw [h1, view_emit rfl]
  · exact view_congr (by simp [St.reset, h]) rfl rfl

theorem view_down (s d) : view (St.down s d) = view s := by
  unfold St.down
  split
  · rw [view_enter, ← view_reset s]; exact view_congr rfl rfl rfl
  · cases d with
    | closed =>
      dsimp only
      split
      · rw [view_enter, ← view_reset s]; exact view_congr rfl rfl rfl
      · exact view_reset s
      · rw [view_enter, ← view_reset s]; exact view_congr rfl rfl rfl
    | denied => dsimp only; rw [view_enter, ← view_reset s]; exact view_congr rfl rfl rfl
    | certificate =>
      dsimp only
      rw [view_enter, ← view_reset s, ← view_emit (s := s.reset) (o := .event .certificate) rfl]
      exact view_congr rfl rfl rfl

theorem view_asyncClose (s b) : view (St.asyncClose s b) = view s := by
  unfold St.asyncClose
  split
  · rfl
  · split
    · rfl
    · dsimp only
      split
      · exact view_setConn _ _
      · rw [view_down, view_setConn]

theorem view_enterRequest (s e) : view (St.enterRequest s e) = view s := by
  unfold St.enterRequest
  split
  · exact view_congr rfl rfl rfl
  · dsimp only
    split
    · rw [view_notify, view_emit rfl]; exact view_congr rfl rfl rfl
    · rw [view_notify, view_down, view_setConn, view_emit rfl]; exact view_congr rfl rfl rfl

theorem view_failed (s e) : view (St.failed s e) = view s := view_asyncClose _ _

theorem view_reattach (s m) : view (St.reattach s m) = view s := by
  unfold St.reattach
  split
  · exact view_enter' rfl rfl rfl
  · split <;> exact view_enter' rfl rfl rfl

theorem view_doClose (s b) : view (St.doClose s b) = view s := by
  unfold St.doClose
  split
  · exact view_congr rfl rfl rfl
  · split
    · exact view_enter' rfl rfl rfl
    · exact view_enter' rfl rfl rfl
    · exact view_congr rfl rfl rfl
    · rw [view_asyncClose]; exact view_congr rfl rfl rfl
    · rw [view_asyncClose]; exact view_congr rfl rfl rfl
    · exact view_congr rfl rfl rfl
    · exact view_congr rfl rfl rfl

theorem view_resolveClose (s) : view (St.resolveClose s) = view s := by
  unfold St.resolveClose
  dsimp only
  split
  · exact view_congr rfl rfl rfl
  · split
    · rw [view_emit rfl, view_emit rfl]; exact view_congr rfl rfl rfl
    · rw [view_emit rfl]; exact view_congr rfl rfl rfl

theorem view_resolved (s i e) : view (St.resolved s i e) = view s := by
  unfold St.resolved
  dsimp only
  split
  · exact view_enter' rfl rfl rfl
  · split
    · exact view_enter' rfl rfl rfl
    · rw [view_enterRequest]; exact view_congr rfl rfl rfl

theorem view_start' (s h p m) : view (St.start s h p m) = view s := by
  unfold St.start
  split
  · rfl
  · split
    · exact view_congr rfl rfl rfl
    · exact view_enter' rfl rfl rfl

theorem view_restart (s m) : view (St.restart s m) = view s := by
  unfold St.restart
  split
  · rfl
  · dsimp only
    split
    · rw [view_reattach]; exact view_congr rfl rfl rfl
    · exact view_congr rfl rfl rfl

theorem view_sent (s c) : view (St.sent s c) = view s := by
  unfold St.sent
  split
  · dsimp only
    split
    · exact view_down _ _
    · split
      · rw [view_dropConn, view_down]
      · rw [view_setConn, view_down]
  · exact view_setConn _ _


theorem view_sendStart (s e) : view (St.sendStart s e) = view s := by
  unfold St.sendStart
  split
  · exact view_failed _ _
  · rw [view_emit rfl]; exact view_congr rfl rfl rfl

theorem view_storeName (s r) : view (St.storeName s r) = view s := by
  unfold St.storeName
  split <;> exact view_congr rfl rfl rfl

/-- Requests to end the attach are on connections with an accepted start. -/
structure Inv (acc : List (Option Nat)) (s : St) : Prop where
  done : ∀ c, s.endReq = some c → c ∈ acc
  sct : s.sct.callback = some true → s.sct.conn ∈ acc
  seen : ∀ c, .endRequest c ∈ s.out.filter keep → c ∈ acc

theorem Inv.view {acc s t} (h : Inv acc s) (hv : Order.view t = Order.view s) : Inv acc t := by
  unfold Order.view at hv
  simp only [Prod.mk.injEq] at hv
  obtain ⟨h1, h2, h3, h4⟩ := hv
  exact ⟨by rw [h2]; exact h.done, by rw [h3, h4]; exact h.sct, by rw [h1]; exact h.seen⟩

theorem Inv.mono {acc acc' s} (h : Inv acc s) (hs : ∀ c ∈ acc, c ∈ acc') : Inv acc' s :=
  ⟨fun c hc => hs c (h.done c hc), fun hc => hs _ (h.sct hc), fun c hc => hs c (h.seen c hc)⟩

/-- No event of being attached. -/
def Quiet (s t : St) : Prop := (t.out.filter keep).count (.event .attached) = (s.out.filter keep).count (.event .attached)

theorem Quiet.view {s t} (hv : Order.view t = Order.view s) : Quiet s t := by
  unfold Order.view at hv
  simp only [Prod.mk.injEq] at hv
  unfold Quiet
  rw [hv.1]

theorem Quiet.trans {s t u} (h : Quiet s t) (g : Quiet t u) : Quiet s u := Eq.trans g h

theorem sendEnd_inv {acc s e} (h : Inv acc s) (hd : s.dtls ∈ acc) : Inv acc (s.sendEnd e) ∧ Quiet s (s.sendEnd e) := by
  unfold St.sendEnd
  split
  · exact ⟨h.view (view_failed _ _), .view (view_failed _ _)⟩
  · refine ⟨⟨?_, h.sct, ?_⟩, ?_⟩
    · intro c hc
      cases hc
      exact hd
    · intro c hc
      simp only [St.emit, List.filter_append, List.mem_append] at hc
      rcases hc with hc | hc
      · exact h.seen c hc
      · simp [keep] at hc
        rw [hc]; exact hd
    · simp only [Quiet, St.emit, List.filter_append, List.count_append]
      rfl

theorem upload_inv {acc s b e} (h : Inv acc s) (hd : b = true → s.dtls ∈ acc) :
    Inv acc (s.upload b e).1 ∧ Quiet s (s.upload b e).1 ∧ (s.upload b e).1.dtls = s.dtls := by
  unfold St.upload
  split
  · exact ⟨h, rfl, rfl⟩
  · split
    · exact ⟨h, rfl, rfl⟩
    · refine ⟨⟨h.done, ?_, ?_⟩, ?_, rfl⟩
      · intro hc
        simp only [St.emit, Option.some.injEq] at hc
        exact hd hc
      · intro c hc
        exact h.seen c (by simpa [St.emit, List.filter_append, keep] using hc)
      · simp [Quiet, St.emit, List.filter_append, keep]

theorem sendAttachSct_inv {acc s e} (h : Inv acc s) (hd : s.dtls ∈ acc) :
    Inv acc (s.sendAttachSct e) ∧ Quiet s (s.sendAttachSct e) := by
  have h0 : Inv acc { s with sct := { s.sct with synced := 0 } } := ⟨h.done, h.sct, h.seen⟩
  obtain ⟨h1, h2, h3⟩ := upload_inv (b := true) (e := e) h0 (fun _ => hd)
  unfold St.sendAttachSct
  split
  all_goals rename_i hx; rw [hx] at h1 h2 h3
  · obtain ⟨g1, g2⟩ := sendEnd_inv (e := e) h1 (by rw [h3]; exact hd)
    exact ⟨g1, h2.trans g2⟩
  · exact ⟨h1, h2⟩
  · exact ⟨h1.view (view_failed _ _), h2.trans (.view (view_failed _ _))⟩

theorem sendSct_inv {acc s e} (h : Inv acc s) : Inv acc (s.sendSct e) ∧ Quiet s (s.sendSct e) := by
  obtain ⟨h1, h2, _⟩ := upload_inv (b := false) (e := e) h (fun hb => by cases hb)
  exact ⟨h1, h2⟩

theorem answerable_dtls {s : St} {c} (h : s.answerable c = true) : ∃ i, c = some i ∧ s.dtls = some i := by
  unfold St.answerable at h
  simp only [Bool.and_eq_true, beq_iff_eq] at h
  obtain ⟨h1, h2⟩ := h
  cases hd : s.dtls with
  | none => rw [St.cur, hd] at h2; cases h2
  | some i => rw [hd] at h1; exact ⟨i, h1.symm, rfl⟩

theorem startCallback_inv {acc s r e c} (h : Inv acc s) (hq : s.startReq = some c) (ha : r = .none ∨ s.answerable c = true) :
    Inv (acc ++ accepts s (.startResponse r e)) (s.startCallback r e) ∧ Quiet s (s.startCallback r e) := by
  have hv : Order.view ({ s with startReq := none }.storeName r) = Order.view s :=
    (view_storeName _ _).trans (view_congr rfl rfl rfl)
  have hd : ({ s with startReq := none }.storeName r).dtls = s.dtls := by
    unfold St.storeName
    split <;> rfl
  have h' : Inv (acc ++ accepts s (.startResponse r e)) s := h.mono fun c hc => List.mem_append_left _ hc
  have hi := h'.view hv
  have hq' : Quiet s ({ s with startReq := none }.storeName r) := .view hv
  unfold St.startCallback
  dsimp only
  revert hi hq' hd
  generalize hu : ({ s with startReq := none }.storeName r) = u
  intro hd hi hq'
  split
  · exact ⟨hi.view (view_failed _ _), hq'.trans (.view (view_failed _ _))⟩
  · cases r with
    | attached =>
      rcases ha with ha | ha
      · cases ha
      · obtain ⟨i, rfl, hs⟩ := answerable_dtls ha
        have hm : u.dtls ∈ acc ++ accepts s (.startResponse .attached e) := by
          rw [hd, hs]
          simp [accepts, hq]
        obtain ⟨g1, g2⟩ := sendAttachSct_inv (e := e) hi hm
        exact ⟨g1, hq'.trans g2⟩
    | none => exact ⟨hi.view (view_failed _ _), hq'.trans (.view (view_failed _ _))⟩
    | error => exact ⟨hi.view (view_failed _ _), hq'.trans (.view (view_failed _ _))⟩
    | redirect _ _ m =>
      cases m with
      | false => exact ⟨hi.view (view_failed _ _), hq'.trans (.view (view_failed _ _))⟩
      | true =>
        have hw : Order.view ({ u with state := .redirect, redirects := u.redirects + 1 }.asyncClose e.sending) = Order.view u :=
          (view_asyncClose _ _).trans (view_congr rfl rfl rfl)
        exact ⟨hi.view hw, hq'.trans (.view hw)⟩
    | unknownFingerprint | wrongProductId | wrongDeviceId =>
      have hw := fun o (ho : keep o = false) => (view_failed (u.emit o) e).trans (view_emit (s := u) ho)
      exact ⟨hi.view (hw _ rfl), hq'.trans (.view (hw _ rfl))⟩

theorem sctCallback_inv {acc s a r e} (h : Inv acc s) (hq : s.sct.callback = some a)
    (ha : r = none ∨ s.answerable s.sct.conn = true) :
    Inv acc (s.sctCallback a (r == some true) e) ∧ Quiet s (s.sctCallback a (r == some true) e) := by
  have key : ∀ u : St, u.dtls = s.dtls → u.endReq = s.endReq → u.sct.callback = none → u.out.filter keep = s.out.filter keep →
      Inv acc u ∧ Quiet s u := fun u _ h2 h3 h4 =>
    ⟨⟨by rw [h2]; exact h.done, (by rw [h3]; intro hc; cases hc), by rw [h4]; exact h.seen⟩, by unfold Quiet; rw [h4]⟩
  cases hr : r == some true with
  | false =>
    unfold St.sctCallback
    simp only [Bool.false_eq_true, if_false]
    obtain ⟨g1, g2⟩ := key { s with sct := { s.sct with callback := none } } rfl rfl rfl rfl
    split
    · split <;> exact ⟨g1.view (view_failed _ _), g2.trans (.view (view_failed _ _))⟩
    · exact ⟨g1, g2⟩
  | true =>
    unfold St.sctCallback
    simp only [if_true]
    have hs : s.answerable s.sct.conn = true := by
      rcases ha with rfl | ha
      · cases hr
      · exact ha
    obtain ⟨i, hc, hd⟩ := answerable_dtls hs
    have hk := key
      { ({ s with sct := { s.sct with synced := s.sct.uploading } }.emit (.acked s.sct.conn s.sct.body) : St) with
        sct := { ({ s with sct := { s.sct with synced := s.sct.uploading } }.emit (.acked s.sct.conn s.sct.body) : St).sct with
          callback := none } } rfl rfl rfl (by simp [St.emit, List.filter_append, keep])
    obtain ⟨g1, g2⟩ := hk
    split
    · rename_i hat
      split
      · exact ⟨g1.view (view_failed _ _), g2.trans (.view (view_failed _ _))⟩
      · obtain ⟨k1, k2⟩ := sendEnd_inv (e := e) g1 (by
          show s.dtls ∈ acc
          rw [hd, ← hc]
          exact h.sct (by rw [hq, hat]))
        exact ⟨k1, g2.trans k2⟩
    · obtain ⟨k1, k2⟩ := sendSct_inv (e := e) g1
      exact ⟨k1, g2.trans k2⟩

theorem endCallback_inv {acc s ok e} (h : Inv acc s) :
    Inv acc (s.endCallback ok e) ∧ (ok = false → Quiet s (s.endCallback ok e)) := by
  have h0 : Inv acc { s with endReq := none } := ⟨(by intro c hc; cases hc), h.sct, h.seen⟩
  unfold St.endCallback
  dsimp only
  split
  · exact ⟨h0.view (view_failed _ _), fun _ => Quiet.trans (t := { s with endReq := none }) rfl (.view (view_failed _ _))⟩
  · rename_i hk
    split
    · exact ⟨h0.view (view_failed _ _), fun hf => by rw [hf] at hk; exact absurd rfl hk⟩
    · have h1 : Inv acc (St.enter { s with endReq := none, keepAlive := true, state := .attached }) :=
        h0.view (view_enter' rfl rfl rfl)
      have h2 : Inv acc ((St.enter { s with endReq := none, keepAlive := true, state := .attached }).emit (.event .attached)) :=
        ⟨h1.done, h1.sct, fun c hc => h1.seen c (by simpa [St.emit, List.filter_append, keep] using hc)⟩
      exact ⟨(sendSct_inv h2).1, fun hf => by rw [hf] at hk; exact absurd rfl hk⟩

theorem addToken_inv {acc s t m e} (h : Inv acc s) : Inv acc (s.addToken t m e) ∧ Quiet s (s.addToken t m e) := by
  unfold St.addToken
  dsimp only
  split
  · exact ⟨⟨h.done, h.sct, h.seen⟩, rfl⟩
  · have h1 : Inv acc ({ s with sct := { s.sct with version := s.sct.version + 1, tokens := St.insertToken s.sct.tokens t } }.emit (.added t)) :=
      ⟨h.done, h.sct, fun c hc => h.seen c (by simpa [St.emit, List.filter_append, keep] using hc)⟩
    have h2 : Quiet s ({ s with sct := { s.sct with version := s.sct.version + 1, tokens := St.insertToken s.sct.tokens t } }.emit (.added t)) := by
      simp [Quiet, St.emit, List.filter_append, keep]
    split
    · obtain ⟨g1, g2⟩ := sendSct_inv (e := e) h1
      exact ⟨g1, h2.trans g2⟩
    · exact ⟨h1, h2⟩

/-- One step: the invariant, and who is told of being attached. -/
theorem step_inv {acc s a t} (h : Inv acc s) (hst : step s a = some t) :
    Inv (acc ++ accepts s a) t ∧
    (Quiet s t ∨ ∃ e i, a = .endResponse (some true) e ∧ s.endReq = some (some i) ∧ s.dtls = some i) := by
  have keyv : ∀ {u}, accepts s a = [] → Order.view u = Order.view s → Inv (acc ++ accepts s a) u ∧
      (Quiet s u ∨ ∃ e i, a = .endResponse (some true) e ∧ s.endReq = some (some i) ∧ s.dtls = some i) := by
    intro u hn hv
    rw [hn, List.append_nil]
    exact ⟨h.view hv, .inl (.view hv)⟩
  cases a <;> simp only [step] at hst
  case start => cases hst; exact keyv rfl (view_start' _ _ _ _)
  case close => cases hst; exact keyv rfl ((view_doClose _ _).trans (view_congr rfl rfl rfl))
  case stop => cases hst; exact keyv rfl ((view_doClose _ _).trans (view_congr rfl rfl rfl))
  case restart => cases hst; exact keyv rfl (view_restart _ _)
  case addToken =>
    cases hst
    obtain ⟨h1, h2⟩ := addToken_inv h
    exact ⟨h1.mono fun c hc => List.mem_append_left _ hc, .inl h2⟩
  case resolved =>
    split at hst
    · cases hst; exact keyv rfl (view_resolved _ _ _)
    · cases hst
  case connected =>
    split at hst
    · cases hst
    · split at hst
      · split at hst <;> cases hst
        · exact keyv rfl ((view_asyncClose _ _).trans (view_setConn _ _))
        · exact keyv rfl ((view_sendStart _ _).trans (view_setConn _ _))
      · cases hst
  case fail =>
    split at hst
    · cases hst
    · split at hst
      · cases hst
      · split at hst
        · cases hst; exact keyv rfl (view_down _ _)
        · split at hst
          · cases hst
          · cases hst; exact keyv rfl ((view_down _ _).trans (view_setConn _ _))
  case send =>
    split at hst
    · cases hst
    · split at hst
      · cases hst
      · cases hst; exact keyv rfl (view_setConn _ _)
  case sent =>
    split at hst
    · cases hst
    · split at hst
      · cases hst; exact keyv rfl (view_sent _ _)
      · cases hst
  case startResponse =>
    split at hst
    · cases hst
    · rename_i hq
      split at hst
      · rename_i ha
        cases hst
        obtain ⟨h1, h2⟩ := startCallback_inv h hq ha
        exact ⟨h1, .inl h2⟩
      · cases hst
  case sctResponse =>
    split at hst
    · cases hst
    · rename_i hq
      split at hst
      · rename_i ha
        cases hst
        obtain ⟨h1, h2⟩ := sctCallback_inv h hq ha
        exact ⟨h1.mono fun c hc => List.mem_append_left _ hc, .inl h2⟩
      · cases hst
  case endResponse r e =>
    split at hst
    · cases hst
    · rename_i hq
      split at hst
      · rename_i ha
        cases hst
        obtain ⟨h1, h2⟩ := endCallback_inv (ok := r == some true) (e := e) h
        refine ⟨h1.mono fun c hc => List.mem_append_left _ hc, ?_⟩
        cases hr : r == some true with
        | false => rw [hr] at h2; exact .inl (h2 rfl)
        | true =>
          have hr' : r = some true := by simpa using hr
          subst hr'
          rcases ha with ha | ha
          · cases ha
          · obtain ⟨i, hc, hd⟩ := answerable_dtls ha
            exact .inr ⟨e, i, rfl, by rw [hq, hc], hd⟩
      · cases hst
  case keepAliveTimeout =>
    split at hst
    · cases hst; exact keyv rfl ((view_asyncClose _ _).trans (view_congr rfl rfl rfl))
    · cases hst
  case timer =>
    split at hst
    · cases hst; exact keyv rfl ((view_reattach _ _).trans (view_congr rfl rfl rfl))
    · cases hst
  case closeEvent =>
    split at hst
    · cases hst; exact keyv rfl (view_resolveClose _)
    · cases hst
  case deferred =>
    split at hst
    · cases hst; exact keyv rfl rfl
    · cases hst

theorem run_inv {as} : ∀ {acc s t}, Inv acc s → run s as = some t → Inv (acc ++ accepted s as) t := by
  induction as with
  | nil => intro acc s t h hr; cases hr; simpa [accepted] using h
  | cons a as ih =>
    intro acc s t h hr
    rw [run, Option.bind_eq_some_iff] at hr
    obtain ⟨u, h1, h2⟩ := hr
    have := ih (step_inv h h1).1 h2
    rw [accepted, h1]
    simpa [List.append_assoc] using this

theorem count_filter (l : List Obs) : (l.filter keep).count (.event .attached) = attached l := by
  unfold attached
  rw [List.count_filter rfl]

end Verif.Core.Attacher.Order
