import Verif.Core.Attacher

/-!
# Server connect tokens

C40: when `nabto_device_are_server_connect_tokens_synchronized` answers OK while the device is attached, the
server has acknowledged, on the connection the device is attached with, an upload with every token added so
far. This holds in every execution of the model.
-/

namespace Verif.Core.Attacher

/-- What the steps which do not deal with tokens leave alone. -/
structure Frame (s t : St) : Prop where
  sct : t.sct = s.sct
  endReq : t.endReq = s.endReq
  next : s.nextId ≤ t.nextId
  dtls : t.dtls = s.dtls ∨ t.dtls = none ∨ ∃ k, s.nextId ≤ k ∧ k < t.nextId ∧ t.dtls = some k
  att : t.state = .attached → s.state = .attached ∧ t.dtls = s.dtls
  acked : ∀ c b, .acked c b ∈ s.out → Obs.acked c b ∈ t.out
  added : ∀ x, .added x ∈ t.out → Obs.added x ∈ s.out

namespace Frame

theorem refl (s : St) : Frame s s := ⟨rfl, rfl, Nat.le_refl _, .inl rfl, fun h => ⟨h, rfl⟩, fun _ _ h => h, fun _ h => h⟩

theorem trans {s t u : St} (h : Frame s t) (g : Frame t u) : Frame s u where
  sct := g.sct.trans h.sct
  endReq := g.endReq.trans h.endReq
  next := Nat.le_trans h.next g.next
  dtls := by
    have hn := h.next
    have gn := g.next
    rcases g.dtls with e | e | ⟨k, a, b, e⟩
    · rcases h.dtls with e' | e' | ⟨k, a, b, e'⟩
      · exact .inl (e.trans e')
      · exact .inr (.inl (e.trans e'))
      · exact .inr (.inr ⟨k, a, by omega, e.trans e'⟩)
    · exact .inr (.inl e)
    · exact .inr (.inr ⟨k, by omega, b, e⟩)
  att := fun h' => ⟨(h.att (g.att h').1).1, (g.att h').2.trans (h.att (g.att h').1).2⟩
  acked := fun c b h' => g.acked c b (h.acked c b h')
  added := fun x h' => h.added x (g.added x h')

theorem emit (s : St) (o : Obs) (ho : ∀ x, o ≠ .added x) : Frame s (s.emit o) := by
  refine ⟨rfl, rfl, Nat.le_refl _, .inl rfl, fun h => ⟨h, rfl⟩, fun _ _ h => ?_, fun x h => ?_⟩
  · simp only [St.emit, List.mem_append]; exact .inl h
  · simp only [St.emit, List.mem_append, List.mem_singleton] at h
    rcases h with h | h
    · exact h
    · exact absurd h.symm (ho x)

/-- A change of other fields. -/
theorem of_eq {s t : St} (h1 : t.sct = s.sct) (h2 : t.endReq = s.endReq) (h3 : t.nextId = s.nextId)
    (h4 : t.dtls = s.dtls) (h5 : t.state = s.state) (h6 : t.out = s.out) : Frame s t :=
  ⟨h1, h2, by omega, .inl h4, fun h => ⟨h5 ▸ h, h4⟩, fun _ _ h => h6 ▸ h, fun _ h => h6 ▸ h⟩

/-- A change to a state which is not attached. -/
theorem state {s t : St} {x : AState} (h : Frame s t) (hx : x ≠ .attached) : Frame s { t with state := x } :=
  ⟨h.sct, h.endReq, h.next, h.dtls, fun h' => absurd h' hx, h.acked, h.added⟩

theorem setConn (s : St) (c : Conn) : Frame s (s.setConn c) := of_eq rfl rfl rfl rfl rfl rfl

theorem dropConn (s : St) (i : Nat) : Frame s (s.dropConn i) := of_eq rfl rfl rfl rfl rfl rfl

theorem destroy (s : St) (c : Conn) : Frame s (s.destroy c) := by
  unfold St.destroy; split
  · exact setConn _ _
  · exact dropConn _ _

theorem notify (s : St) : Frame s s.notify := emit _ _ (by intro x h; cases h)

theorem enter (s : St) : Frame s s.enter := by
  unfold St.enter
  split
  · exact trans (trans (t := { s with resolving := true }) (of_eq rfl rfl rfl rfl rfl rfl)
      (emit _ (.resolve s.dns) (by intro x h; cases h))) (notify _)
  · exact trans (t := { s with closeEv := true }) (of_eq rfl rfl rfl rfl rfl rfl) (notify _)
  · exact trans (t := { s with timer := some 10000 }) (of_eq rfl rfl rfl rfl rfl rfl) (notify _)
  · exact trans (t := { s with timer := some 3600000 }) (of_eq rfl rfl rfl rfl rfl rfl) (notify _)
  · exact notify _
  · exact notify _
  · exact notify _

theorem reset {s : St} {x : AState} (hx : x ≠ .attached) : Frame s { s.reset with state := x } := by
  refine ⟨rfl, rfl, Nat.le_refl _, .inr (.inl rfl), fun h => absurd h hx, fun c b h => ?_, fun y h => ?_⟩
  · simp only [St.reset]
    split
    · exact List.mem_append_left _ h
    · exact h
  · simp only [St.reset] at h
    split at h
    · simpa using h
    · exact h

/-- `reset` when not attached. -/
theorem reset_idle {s : St} (h : s.state ≠ .attached) : Frame s s.reset := reset (s := s) (x := s.state) h

theorem reset_state (s : St) : s.reset.state = s.state := rfl

theorem down (s : St) (d : Down) : Frame s (s.down d) := by
  unfold St.down
  split
  · exact trans (reset (by decide)) (enter _)
  · cases d with
    | closed =>
      simp only
      split
      · split <;> exact trans (reset (by decide)) (enter _)
      · next h => exact reset_idle (by rw [← reset_state, h]; decide)
      · exact trans (reset (by decide)) (enter _)
    | denied => exact trans (reset (by decide)) (enter _)
    | certificate =>
      refine trans ?_ (enter _)
      have h1 : Frame s { s.reset with state := .retryWait } := reset (by decide)
      exact trans h1 (emit _ (.event .certificate) (by intro x h; cases h))

theorem asyncClose (s : St) (b : Bool) : Frame s (s.asyncClose b) := by
  unfold St.asyncClose
  split
  · exact refl _
  · split
    · exact refl _
    · simp only
      split
      · exact setConn _ _
      · exact trans (setConn _ _) (down _ _)

theorem enterRequest {s : St} (hs : s.state ≠ .attached) (e : Env) : Frame s (s.enterRequest e) := by
  unfold St.enterRequest
  split
  · exact ⟨rfl, rfl, Nat.le_refl _, .inr (.inl rfl), fun h => (by cases h), fun _ _ h => h, fun _ h => h⟩
  · simp only
    have h1 : Frame s { s with conns := s.conns ++ [{ id := s.nextId, sending := e.sending }], nextId := s.nextId + 1, dtls := some s.nextId } :=
      ⟨rfl, rfl, Nat.le_succ _, .inr (.inr ⟨s.nextId, Nat.le_refl _, Nat.lt_succ_self _, rfl⟩), fun h => absurd h hs,
        fun _ _ h => h, fun _ h => h⟩
    have h2 := trans h1 (emit _ (.connect s.nextId s.endpoints s.host) (by intro x h; cases h))
    split
    · exact trans h2 (notify _)
    · exact trans h2 (trans (setConn _ _) (trans (down _ _) (notify _)))

theorem failed (s : St) (e : Env) : Frame s (s.failed e) := asyncClose _ _

theorem sendStart (s : St) (e : Env) : Frame s (s.sendStart e) := by
  unfold St.sendStart
  split
  · exact failed _ _
  · exact trans (t := { s with startReq := some s.dtls }) (of_eq rfl rfl rfl rfl rfl rfl)
      (emit _ _ (by intro x h; cases h))

theorem reattach (s : St) (m : Bool) : Frame s (s.reattach m) := by
  unfold St.reattach
  split
  · exact trans (state (refl s) (by decide)) (enter _)
  · split
    · refine trans (t := { s with dns := none, state := .retryWait }) ?_ (enter _)
      exact state (t := { s with dns := none }) (of_eq rfl rfl rfl rfl rfl rfl) (by decide)
    · refine trans (t := { s with dns := some s.host, port := s.defaultPort, state := .dns, redirects := 0 }) ?_ (enter _)
      exact state (t := { s with dns := some s.host, port := s.defaultPort, redirects := 0 })
        (of_eq rfl rfl rfl rfl rfl rfl) (by decide)

theorem doClose (s : St) (b : Bool) : Frame s (s.doClose b) := by
  unfold St.doClose
  split
  · exact of_eq rfl rfl rfl rfl rfl rfl
  · have hm : Frame s { s with mod := .closed } := of_eq rfl rfl rfl rfl rfl rfl
    have ht : Frame s { s with mod := .closed, timer := none } := of_eq rfl rfl rfl rfl rfl rfl
    split
    all_goals first
      | exact hm
      | exact of_eq rfl rfl rfl rfl rfl rfl
      | exact trans hm (asyncClose _ _)
      | exact trans (state ht (by decide)) (enter _)

theorem resolveClose (s : St) : Frame s s.resolveClose := by
  unfold St.resolveClose
  simp only
  split
  · exact of_eq rfl rfl rfl rfl rfl rfl
  · next cb _ =>
    have h1 : Frame s { s with closeEv := false, timer := none, closedCb := none } := of_eq rfl rfl rfl rfl rfl rfl
    have h2 := trans h1 (emit _ (.closedCb cb) (by intro x h; cases h))
    split
    · exact trans h2 (emit _ _ (by intro x h; cases h))
    · exact h2

theorem resolved (s : St) (ips : Option (List String)) (e : Env) : Frame s (s.resolved ips e) := by
  have h0 : Frame s { s with resolving := false } := of_eq rfl rfl rfl rfl rfl rfl
  unfold St.resolved
  simp only
  split
  · exact trans (state h0 (by decide)) (enter _)
  · split
    · exact trans (state h0 (by decide)) (enter _)
    · next l =>
      have h1 : Frame s { s with resolving := false, endpoints := (l.take 4).map (fun ip => (ip, s.port)) } :=
        of_eq rfl rfl rfl rfl rfl rfl
      exact trans (state h1 (by decide)) (enterRequest (by intro h; cases h) e)

theorem sent (s : St) (c : Conn) : Frame s (s.sent c) := by
  unfold St.sent
  split
  · simp only
    split
    · exact down _ _
    · split
      · exact trans (down _ _) (dropConn _ _)
      · exact trans (down _ _) (setConn _ _)
  · exact setConn _ _

theorem start (s : St) (h : String) (p : Nat) (m : Bool) : Frame s (s.start h p m) := by
  unfold St.start
  split
  · exact refl _
  · split
    · exact of_eq rfl rfl rfl rfl rfl rfl
    · refine trans (t := { s with dns := some h, state := .dns, mod := .running, host := h, defaultPort := p, port := p }) ?_ (enter _)
      exact state (t := { s with dns := some h, mod := .running, host := h, defaultPort := p, port := p })
        (of_eq rfl rfl rfl rfl rfl rfl) (by decide)

theorem restart (s : St) (m : Bool) : Frame s (s.restart m) := by
  unfold St.restart
  split
  · exact refl _
  · simp only
    have h0 : Frame s { s with mod := .running } := of_eq rfl rfl rfl rfl rfl rfl
    split
    · exact trans h0 (reattach _ _)
    · exact h0

end Frame

/-- The tokens acknowledged on the current connection are those of version `synced`. -/
def Synced (s : St) : Prop :=
  s.sct.synced = 0 ∨ ∃ b, Obs.acked s.dtls b ∈ s.out ∧ (s.sct.synced = s.sct.version → b = s.sct.tokens)

/-- The invariant of tokens, versions and acknowledgements. -/
structure SctInv (s : St) : Prop where
  version : s.sct.version = 0 → s.sct.tokens = []
  synced : s.sct.synced ≤ s.sct.version
  uploading : s.sct.uploading ≤ s.sct.version
  body : s.sct.callback.isSome → s.sct.uploading = s.sct.version → s.sct.body = s.sct.tokens
  added : ∀ x, Obs.added x ∈ s.out → x ∈ s.sct.tokens
  dtls : ∀ k, s.dtls = some k → k < s.nextId
  endReq : ∀ k, s.endReq = some (some k) → k < s.nextId
  att : s.state = .attached → Synced s
  ending : ∀ k, s.endReq = some (some k) → s.dtls = some k → Synced s

theorem SctInv.frame {s t : St} (h : SctInv s) (f : Frame s t) : SctInv t := by
  have hs : t.dtls = s.dtls → Synced s → Synced t := by
    intro hd hs
    unfold Synced at *
    rw [f.sct, hd]
    rcases hs with hs | ⟨b, hb, hv⟩
    · exact .inl hs
    · exact .inr ⟨b, f.acked _ _ hb, hv⟩
  refine ⟨f.sct ▸ h.version, f.sct ▸ h.synced, f.sct ▸ h.uploading, f.sct ▸ h.body, ?_, ?_, ?_, ?_, ?_⟩
  · intro x hx; rw [f.sct]; exact h.added x (f.added x hx)
  · intro k hk
    have hn := f.next
    rcases f.dtls with e | e | ⟨j, a, b, e⟩
    · have := h.dtls k (e ▸ hk); omega
    · rw [e] at hk; cases hk
    · rw [e] at hk; cases hk; exact b
  · intro k hk
    have hn := f.next
    have := h.endReq k (f.endReq ▸ hk); omega
  · intro ha
    exact hs (f.att ha).2 (h.att (f.att ha).1)
  · intro k hk hd
    rw [f.endReq] at hk
    rcases f.dtls with e | e | ⟨j, a, b, e⟩
    · exact hs e (h.ending k hk (e ▸ hd))
    · rw [e] at hd; cases hd
    · rw [e] at hd; cases hd
      have := h.endReq _ hk; omega

/-- An attach end request. -/
theorem SctInv.sendEnd {s : St} (h : SctInv s) (hs : Synced s) (e : Env) : SctInv (s.sendEnd e) := by
  unfold St.sendEnd
  split
  · exact h.frame (Frame.failed _ _)
  · refine SctInv.frame (s := { s with endReq := some s.dtls }) ?_ (Frame.emit _ _ (by intro x h; cases h))
    refine ⟨h.version, h.synced, h.uploading, h.body, h.added, h.dtls, ?_, h.att, fun _ _ _ => hs⟩
    intro k hk
    exact h.dtls k (by injection hk)

/-- An upload. -/
theorem SctInv.upload {s : St} (h : SctInv s) (a : Bool) (e : Env) : SctInv (s.upload a e).1 := by
  unfold St.upload
  split
  · exact h
  · split
    · exact h
    · simp only
      refine SctInv.frame (s := { s with sct := { s.sct with callback := some a, uploading := s.sct.version, conn := s.dtls, body := s.sct.tokens } })
        ?_ (Frame.emit _ _ (by intro x h; cases h))
      exact ⟨h.version, h.synced, Nat.le_refl _, fun _ _ => rfl, h.added, h.dtls, h.endReq, h.att, h.ending⟩

theorem SctInv.sendSct {s : St} (h : SctInv s) (e : Env) : SctInv (s.sendSct e) := h.upload false e

/-- Forgetting what was synchronised. -/
theorem SctInv.zero {s : St} (h : SctInv s) : SctInv { s with sct := { s.sct with synced := 0 } } :=
  ⟨h.version, Nat.zero_le _, h.uploading, h.body, h.added, h.dtls, h.endReq, fun _ => .inl rfl, fun _ _ _ => .inl rfl⟩

theorem SctInv.sendAttachSct {s : St} (h : SctInv s) (e : Env) : SctInv (s.sendAttachSct e) := by
  unfold St.sendAttachSct
  have h0 := h.zero
  have h1 := h0.upload true e
  have hn : ∀ u r, ({ s with sct := { s.sct with synced := 0 } } : St).upload true e = (u, r) → r = .noOperation → Synced u := by
    intro u r hu hr
    unfold St.upload at hu
    split at hu
    · cases hu; exact .inl rfl
    · split at hu <;> (cases hu; cases hr)
  split
  · next u hu => rw [hu] at h1; exact h1.sendEnd (hn _ _ hu rfl) e
  · next u hu => rw [hu] at h1; exact h1
  · next u hu => rw [hu] at h1; exact h1.frame (Frame.failed _ _)

theorem Frame.storeName (s : St) (r : StartResponse) : Frame s (s.storeName r) := by
  unfold St.storeName
  split <;> exact .of_eq rfl rfl rfl rfl rfl rfl

theorem SctInv.startCallback {s : St} (h : SctInv s) (r : StartResponse) (e : Env) : SctInv (s.startCallback r e) := by
  unfold St.startCallback
  simp only
  have h0 : SctInv (({ s with startReq := none } : St).storeName r) :=
    h.frame (.trans (t := { s with startReq := none }) (.of_eq rfl rfl rfl rfl rfl rfl) (.storeName _ _))
  revert h0
  generalize ({ s with startReq := none } : St).storeName r = u
  intro h0
  split
  · exact h0.frame (.failed _ _)
  · split
    · exact h0.sendAttachSct e
    · refine h0.frame (.trans (t := { u with state := .redirect, redirects := u.redirects + 1 }) ?_ (.asyncClose _ _))
      exact Frame.state (t := { u with redirects := u.redirects + 1 }) (.of_eq rfl rfl rfl rfl rfl rfl) (by decide)
    · exact h0.frame (.trans (.emit _ (.event .unknownFingerprint) (by intro x h; cases h)) (.failed _ _))
    · exact h0.frame (.trans (.emit _ (.event .wrongProductId) (by intro x h; cases h)) (.failed _ _))
    · exact h0.frame (.trans (.emit _ (.event .wrongDeviceId) (by intro x h; cases h)) (.failed _ _))
    · exact h0.frame (.failed _ _)
    · exact h0.frame (.failed _ _)
    · exact h0.frame (.failed _ _)

/-- An acknowledged upload on the current connection. -/
theorem SctInv.ack {s : St} (h : SctInv s) (hc : s.sct.callback.isSome) (hd : s.dtls = s.sct.conn) :
    SctInv (({ s with sct := { s.sct with synced := s.sct.uploading } } : St).emit (.acked s.sct.conn s.sct.body)) ∧
    Synced (({ s with sct := { s.sct with synced := s.sct.uploading } } : St).emit (.acked s.sct.conn s.sct.body)) := by
  have hs : Synced (({ s with sct := { s.sct with synced := s.sct.uploading } } : St).emit (.acked s.sct.conn s.sct.body)) := by
    refine .inr ⟨s.sct.body, ?_, h.body hc⟩
    simp only [St.emit, List.mem_append, List.mem_singleton]
    exact .inr (by rw [hd])
  refine ⟨⟨h.version, h.uploading, h.uploading, h.body, ?_, h.dtls, h.endReq, fun _ => hs, fun _ _ _ => hs⟩, hs⟩
  intro x hx
  simp only [St.emit, List.mem_append, List.mem_singleton] at hx
  rcases hx with hx | hx
  · exact h.added x hx
  · cases hx

/-- The request has been answered. -/
theorem SctInv.answered {s : St} (h : SctInv s) : SctInv { s with sct := { s.sct with callback := none } } :=
  ⟨h.version, h.synced, h.uploading, fun h => (by cases h), h.added, h.dtls, h.endReq, h.att, h.ending⟩

theorem SctInv.sctCallback {s : St} (h : SctInv s) (attach ok : Bool) (e : Env) (hc : s.sct.callback.isSome)
    (hd : ok = true → s.dtls = s.sct.conn) : SctInv (s.sctCallback attach ok e) := by
  unfold St.sctCallback
  simp only
  cases ok with
  | false =>
    simp only [Bool.false_eq_true, ↓reduceIte]
    have h1 := h.answered
    split
    · split
      · exact h1.frame (.failed _ _)
      · exact h1.frame (.failed _ _)
    · exact h1
  | true =>
    simp only [↓reduceIte]
    obtain ⟨h1, hs⟩ := h.ack hc (hd rfl)
    have h2 := h1.answered
    split
    · split
      · exact h2.frame (.failed _ _)
      · exact h2.sendEnd hs e
    · exact h2.sendSct e

theorem SctInv.endCallback {s : St} (h : SctInv s) (ok : Bool) (e : Env) {k : Nat} (hk : ok = true → s.endReq = some (some k) ∧ s.dtls = some k) :
    SctInv (s.endCallback ok e) := by
  unfold St.endCallback
  simp only
  have h1 : SctInv { s with endReq := none } :=
    ⟨h.version, h.synced, h.uploading, h.body, h.added, h.dtls, (by intro k hk; cases hk), h.att, (by intro k hk; cases hk)⟩
  cases ok with
  | false => exact h1.frame (.failed _ _)
  | true =>
    simp only [Bool.not_true, Bool.false_eq_true, ↓reduceIte]
    split
    · exact h1.frame (.failed _ _)
    · refine SctInv.sendSct (SctInv.frame (s := { s with endReq := none, keepAlive := true, state := .attached }) ?_
        (.trans (.enter _) (.emit _ _ (by intro x h; cases h)))) e
      have hs := h.ending k (hk rfl).1 (hk rfl).2
      exact ⟨h.version, h.synced, h.uploading, h.body, h.added, h.dtls, (by intro k hk; cases hk), fun _ => hs, (by intro k hk; cases hk)⟩

theorem SctInv.addToken {s : St} (h : SctInv s) (t : String) (m : Bool) (e : Env) : SctInv (s.addToken t m e) := by
  unfold St.addToken
  simp only
  have hu := h.uploading
  have hsy := h.synced
  have hS : ∀ {l : List String}, Synced s → Synced { s with sct := { s.sct with version := s.sct.version + 1, tokens := l } } := by
    intro l hs
    rcases hs with hs | ⟨b, hb, _⟩
    · exact .inl hs
    · exact .inr ⟨b, hb, fun hv => by simp only at hv; omega⟩
  split
  · exact ⟨fun hv => by simp at hv, by simp only; omega, by simp only; omega, fun _ hv => by simp only at hv; omega, h.added,
      h.dtls, h.endReq, fun ha => hS (h.att ha), fun k a b => hS (h.ending k a b)⟩
  · have h1 : SctInv (({ s with sct := { s.sct with version := s.sct.version + 1, tokens := St.insertToken s.sct.tokens t } } : St).emit (.added t)) := by
      refine ⟨fun hv => by simp [St.emit] at hv, by simp only [St.emit]; omega, by simp only [St.emit]; omega,
        fun _ hv => by simp only [St.emit] at hv; omega, ?_, h.dtls, h.endReq, ?_, ?_⟩
      · intro x hx
        simp only [St.emit, List.mem_append, List.mem_singleton] at hx ⊢
        unfold St.insertToken
        split
        · rcases hx with hx | hx
          · exact h.added x hx
          · cases hx; assumption
        · rcases hx with hx | hx
          · exact List.mem_append_left _ (h.added x hx)
          · cases hx; simp
      · intro ha
        rcases h.att ha with hs | ⟨b, hb, _⟩
        · exact .inl hs
        · exact .inr ⟨b, List.mem_append_left _ hb, fun hv => by simp only [St.emit] at hv; omega⟩
      · intro k a b
        rcases h.ending k a b with hs | ⟨b, hb, _⟩
        · exact .inl hs
        · exact .inr ⟨b, List.mem_append_left _ hb, fun hv => by simp only [St.emit] at hv; omega⟩
    split
    · exact h1.sendSct e
    · exact h1

theorem answerable_dtls {s : St} {c : Option Nat} (h : s.answerable c = true) : s.dtls = c ∧ ∃ k, s.dtls = some k := by
  unfold St.answerable St.cur at h
  simp only [Bool.and_eq_true, beq_iff_eq] at h
  refine ⟨h.1, ?_⟩
  cases hd : s.dtls with
  | none => rw [hd] at h; simp at h
  | some k => exact ⟨k, rfl⟩

theorem SctInv.step {s t : St} {a : Act} (h : SctInv s) (hst : step s a = some t) : SctInv t := by
  cases a with
  | start hh p m => simp only [Attacher.step] at hst; cases hst; exact h.frame (.start ..)
  | close cb b =>
    simp only [Attacher.step] at hst; cases hst
    exact h.frame (.trans (t := { s with closedCb := some cb }) (.of_eq rfl rfl rfl rfl rfl rfl) (.doClose ..))
  | stop b =>
    simp only [Attacher.step] at hst; cases hst
    exact h.frame (.trans (t := { s with keepAlive := false }) (.of_eq rfl rfl rfl rfl rfl rfl) (.doClose ..))
  | restart m => simp only [Attacher.step] at hst; cases hst; exact h.frame (.restart ..)
  | addToken x m e => simp only [Attacher.step] at hst; cases hst; exact h.addToken x m e
  | resolved ips e =>
    simp only [Attacher.step] at hst; split at hst
    · cases hst; exact h.frame (.resolved ..)
    · cases hst
  | connected id e =>
    simp only [Attacher.step] at hst
    split at hst
    · cases hst
    · split at hst
      · split at hst
        · cases hst; exact h.frame (.trans (.setConn _ _) (.asyncClose _ _))
        · cases hst; exact h.frame (.trans (.setConn _ _) (.sendStart _ _))
      · cases hst
  | fail id d b =>
    simp only [Attacher.step] at hst
    split at hst
    · cases hst
    · split at hst
      · cases hst
      · split at hst
        · cases hst; exact h.frame (.down _ _)
        · split at hst
          · cases hst
          · cases hst; exact h.frame (.trans (.setConn _ _) (.down _ _))
  | send id =>
    simp only [Attacher.step] at hst
    split at hst
    · cases hst
    · split at hst
      · cases hst
      · cases hst; exact h.frame (.setConn _ _)
  | sent id =>
    simp only [Attacher.step] at hst
    split at hst
    · cases hst
    · split at hst
      · cases hst; exact h.frame (.sent _ _)
      · cases hst
  | startResponse r e =>
    simp only [Attacher.step] at hst
    split at hst
    · cases hst
    · split at hst
      · cases hst; exact h.startCallback r e
      · cases hst
  | sctResponse r e =>
    simp only [Attacher.step] at hst
    split at hst
    · cases hst
    · next attach hc =>
      split at hst
      · next hr =>
        cases hst
        refine h.sctCallback attach _ e (by rw [hc]; rfl) ?_
        intro hok
        rcases hr with hr | hr
        · subst hr; simp at hok
        · exact (answerable_dtls hr).1
      · cases hst
  | endResponse r e =>
    simp only [Attacher.step] at hst
    split at hst
    · cases hst
    · next c hc =>
      split at hst
      · next hr =>
        cases hst
        rcases hr with hr | hr
        · subst hr
          exact h.endCallback (k := 0) _ e (by intro h; simp at h)
        · obtain ⟨hd, k, hk⟩ := answerable_dtls hr
          exact h.endCallback (k := k) _ e (fun _ => ⟨by rw [hc, ← hd, hk], hk⟩)
      · cases hst
  | keepAliveTimeout b =>
    simp only [Attacher.step] at hst
    split at hst
    · cases hst
      exact h.frame (.trans (t := { s with keepAlive := false }) (.of_eq rfl rfl rfl rfl rfl rfl) (.asyncClose _ _))
    · cases hst
  | timer m =>
    simp only [Attacher.step] at hst
    split at hst
    · cases hst
      exact h.frame (.trans (t := { s with timer := none }) (.of_eq rfl rfl rfl rfl rfl rfl) (.reattach _ _))
    · cases hst
  | closeEvent =>
    simp only [Attacher.step] at hst
    split at hst
    · cases hst; exact h.frame (.resolveClose _)
    · cases hst
  | deferred =>
    simp only [Attacher.step] at hst
    split at hst
    · cases hst; exact h
    · cases hst

theorem SctInv.init : SctInv init :=
  ⟨fun _ => rfl, Nat.le_refl _, Nat.le_refl _, fun h => (by cases h), fun _ h => (by cases h), fun _ h => (by cases h),
    fun _ h => (by cases h), fun h => (by cases h), fun _ h => (by cases h)⟩

theorem SctInv.run {s t : St} {as : List Act} (h : SctInv s) (hr : run s as = some t) : SctInv t := by
  induction as generalizing s with
  | nil => cases hr; exact h
  | cons a as ih =>
    simp only [Attacher.run] at hr
    cases hs : Attacher.step s a with
    | none => rw [hs] at hr; cases hr
    | some u => rw [hs] at hr; exact ih (h.step hs) hr

end Verif.Core.Attacher
