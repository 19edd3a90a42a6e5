import Verif.Core.AttacherLog

/-!
# Attacher: steps which only lose a connection or send something

Most functions change the fields that C38, C39 and C67 are about only by calling `down`. `Soft` says so.
-/

namespace Verif.Core.Attacher

open Spec

/-- Observations which are no events of the attach state, no attempts and no callbacks. -/
def harmless : Obs → Bool
  | .startRequest _ | .upload .. | .endRequest _ | .acked .. | .added _ => true
  | .event .unknownFingerprint | .event .wrongProductId | .event .wrongDeviceId => true
  | _ => false

/-- A step which changes only the connections, the requests and the tokens. -/
structure Silent (s t : St) : Prop where
  state : t.state = s.state
  mod : t.mod = s.mod
  out : t.out = s.out
  closedCb : t.closedCb = s.closedCb
  host : t.host = s.host
  dns : t.dns = s.dns
  redirects : t.redirects = s.redirects

/-- Such steps, harmless observations and connections which end. -/
inductive Soft : St → St → Prop
  | refl (s) : Soft s s
  | silent {s t u} : Soft s t → Silent t u → Soft s u
  | emit {s t} (o) : Soft s t → harmless o = true → Soft s (t.emit o)
  | down {s t} (e) : Soft s t → Soft s (t.down e)

namespace Soft

theorem of_silent {s t} (h : Silent s t) : Soft s t := .silent (.refl s) h

theorem trans {s t u} (h : Soft s t) (g : Soft t u) : Soft s u := by
  induction g with
  | refl => exact h
  | silent _ hs ih => exact .silent ih hs
  | emit o _ ho ih => exact .emit o ih ho
  | down e _ ih => exact .down e ih

theorem setConn (s : St) (c) : Soft s (s.setConn c) := of_silent ⟨rfl, rfl, rfl, rfl, rfl, rfl, rfl⟩

theorem asyncClose (s : St) (b) : Soft s (s.asyncClose b) := by
  unfold St.asyncClose
  split
  · exact .refl _
  · split
    · exact .refl _
    · simp only
      split
      · exact setConn _ _
      · exact .down _ (setConn _ _)

theorem sendStart (s : St) (e) : Soft s (s.sendStart e) := by
  unfold St.sendStart
  split
  · exact asyncClose _ _
  · exact .emit _ (of_silent ⟨rfl, rfl, rfl, rfl, rfl, rfl, rfl⟩) rfl

theorem sendEnd (s : St) (e) : Soft s (s.sendEnd e) := by
  unfold St.sendEnd
  split
  · exact asyncClose _ _
  · exact .emit _ (of_silent ⟨rfl, rfl, rfl, rfl, rfl, rfl, rfl⟩) rfl

theorem upload (s : St) (b e) : Soft s (s.upload b e).1 := by
  unfold St.upload
  split
  · exact .refl _
  · split
    · exact .refl _
    · exact .emit _ (of_silent ⟨rfl, rfl, rfl, rfl, rfl, rfl, rfl⟩) rfl

theorem sendSct (s : St) (e) : Soft s (s.sendSct e) := upload _ _ _

theorem sendAttachSct (s : St) (e) : Soft s (s.sendAttachSct e) := by
  unfold St.sendAttachSct
  have h0 : Soft s { s with sct := { s.sct with synced := 0 } } := of_silent ⟨rfl, rfl, rfl, rfl, rfl, rfl, rfl⟩
  have h := h0.trans (upload { s with sct := { s.sct with synced := 0 } } true e)
  split
  · next hu => rw [hu] at h; exact h.trans (sendEnd _ _)
  · next hu => rw [hu] at h; exact h
  · next hu => rw [hu] at h; exact h.trans (asyncClose _ _)

theorem sctCallback (s : St) (a ok e) : Soft s (s.sctCallback a ok e) := by
  unfold St.sctCallback
  have h1 : Soft s (if ok then { s with sct := { s.sct with synced := s.sct.uploading } }.emit (.acked s.sct.conn s.sct.body) else s) := by
    split
    · exact .emit _ (of_silent ⟨rfl, rfl, rfl, rfl, rfl, rfl, rfl⟩) rfl
    · exact .refl _
  generalize (if ok then { s with sct := { s.sct with synced := s.sct.uploading } }.emit (.acked s.sct.conn s.sct.body) else s : St) = s1 at h1
  have h2 : Soft s { s1 with sct := { s1.sct with callback := none } } := .silent h1 ⟨rfl, rfl, rfl, rfl, rfl, rfl, rfl⟩
  simp only
  split
  · split
    · exact h2.trans (asyncClose _ _)
    · split
      · exact h2.trans (sendEnd _ _)
      · exact h2.trans (asyncClose _ _)
  · split
    · exact h2.trans (sendSct _ _)
    · exact h2

theorem addToken (s : St) (t m e) : Soft s (s.addToken t m e) := by
  unfold St.addToken
  simp only
  split
  · exact of_silent ⟨rfl, rfl, rfl, rfl, rfl, rfl, rfl⟩
  · have h : Soft s (({ s with sct := { s.sct with version := s.sct.version + 1, tokens := St.insertToken s.sct.tokens t } } : St).emit (.added t)) :=
      .emit _ (of_silent ⟨rfl, rfl, rfl, rfl, rfl, rfl, rfl⟩) rfl
    split
    · exact h.trans (sendSct _ _)
    · exact h

theorem sent (s : St) (c) : Soft s (s.sent c) := by
  unfold St.sent
  split
  · simp only
    split
    · exact .down _ (.refl _)
    · split
      · exact .silent (.down _ (.refl _)) ⟨rfl, rfl, rfl, rfl, rfl, rfl, rfl⟩
      · exact .trans (.down _ (.refl _)) (setConn _ _)
  · exact setConn _ _

/-- The actions with a soft step. -/
def act : Act → Bool
  | .addToken .. | .connected .. | .fail .. | .send .. | .sent .. | .sctResponse .. | .keepAliveTimeout .. | .deferred => true
  | _ => false

theorem step {s a t} (ha : act a = true) (hst : step s a = some t) : Soft s t := by
  cases a with
  | start | close | stop | restart | resolved | startResponse | endResponse | timer | closeEvent => cases ha
  | addToken => cases hst; exact addToken _ _ _ _
  | connected =>
    simp only [Attacher.step] at hst
    split at hst
    · cases hst
    · split at hst
      · split at hst
        · cases hst; exact (setConn _ _).trans (asyncClose _ _)
        · cases hst; exact (setConn _ _).trans (sendStart _ _)
      · cases hst
  | fail =>
    simp only [Attacher.step] at hst
    split at hst
    · cases hst
    · split at hst
      · cases hst
      · split at hst
        · cases hst; exact .down _ (.refl _)
        · split at hst
          · cases hst
          · cases hst; exact .down _ (setConn _ _)
  | send =>
    simp only [Attacher.step] at hst
    split at hst
    · cases hst
    · split at hst
      · cases hst
      · cases hst; exact setConn _ _
  | sent =>
    simp only [Attacher.step] at hst
    split at hst
    · cases hst
    · split at hst
      · cases hst; exact sent _ _
      · cases hst
  | sctResponse =>
    simp only [Attacher.step] at hst
    split at hst
    · cases hst
    · split at hst
      · cases hst; exact sctCallback _ _ _ _
      · cases hst
  | keepAliveTimeout =>
    simp only [Attacher.step] at hst
    split at hst
    · cases hst; exact .trans (t := ({ s with keepAlive := false } : St)) (of_silent ⟨rfl, rfl, rfl, rfl, rfl, rfl, rfl⟩) (asyncClose _ _)
    · cases hst
  | deferred =>
    simp only [Attacher.step] at hst
    split at hst
    · cases hst; exact .refl _
    · cases hst

/-- What every soft step leaves alone. -/
theorem keeps {s t} (h : Soft s t) : t.mod = s.mod ∧ t.closedCb = s.closedCb ∧ t.host = s.host ∧ t.dns = s.dns ∧ t.redirects = s.redirects := by
  induction h with
  | refl => exact ⟨rfl, rfl, rfl, rfl, rfl⟩
  | silent _ hs ih => exact ⟨hs.mod.trans ih.1, hs.closedCb.trans ih.2.1, hs.host.trans ih.2.2.1, hs.dns.trans ih.2.2.2.1, hs.redirects.trans ih.2.2.2.2⟩
  | emit o _ _ ih => exact ih
  | down e _ ih =>
    rename_i t _
    have hf := down_fields t e
    have hh : (t.down e).host = t.host ∧ (t.down e).dns = t.dns ∧ (t.down e).redirects = t.redirects := by
      unfold St.down
      split
      · simp [St.enter, St.reset, St.notify, St.emit]
      · cases e
        · simp only
          split
          · split <;> simp [St.enter, St.reset, St.notify, St.emit, St.startResolve]
          · exact ⟨rfl, rfl, rfl⟩
          · simp [St.enter, St.reset, St.notify, St.emit]
        · simp [St.enter, St.reset, St.notify, St.emit]
        · simp [St.enter, St.reset, St.notify, St.emit]
    exact ⟨hf.2.1.trans ih.1, hf.2.2.2.2.1.trans ih.2.1, hh.1.trans ih.2.2.1, hh.2.1.trans ih.2.2.2.1, hh.2.2.trans ih.2.2.2.2⟩

/-- The state stays, or the connection is gone. -/
theorem states {s t} (h : Soft s t) : t.state = s.state ∨ Idle t.state := by
  induction h with
  | refl => exact .inl rfl
  | silent _ hs ih => rw [hs.state]; exact ih
  | emit o _ _ ih => exact ih
  | @down t e _ _ =>
    right
    rw [(down_fields t e).1]
    have := downState_cases t e
    unfold Idle Waits
    grind

/-- What is observed in a soft step. -/
def obs (s : St) : Obs → Prop
  | .event .detached => s.state = .attached
  | .event .certificate => True
  | .resolve n => n = s.dns ∧ s.state = .redirect
  | .notify x => Idle x
  | o => harmless o = true

theorem outs {s t} (h : Soft s t) : ∃ l, t.out = s.out ++ l ∧ ∀ o ∈ l, obs s o := by
  induction h with
  | refl => exact ⟨[], by simp, by simp⟩
  | silent _ hs ih => rw [hs.out]; exact ih
  | emit o _ ho ih =>
    obtain ⟨l, h1, h2⟩ := ih
    refine ⟨l ++ [o], by simp [St.emit, h1], ?_⟩
    intro x hx
    rw [List.mem_append, List.mem_singleton] at hx
    rcases hx with hx | hx
    · exact h2 x hx
    · subst hx
      unfold obs
      split <;> first | trivial | simp_all [harmless]
  | down e hst ih =>
    rename_i t
    obtain ⟨l, h1, h2⟩ := ih
    refine ⟨l ++ _, by rw [down_out, h1, List.append_assoc], ?_⟩
    intro x hx
    have hsx := hst.states
    have hd := downState_cases t e
    rw [List.mem_append] at hx
    rcases hx with hx | hx
    · exact h2 x hx
    · simp only [List.mem_append] at hx
      rcases hx with ((hx | hx) | hx) | hx
      · split at hx
        · simp at hx; subst hx
          show s.state = .attached
          unfold Idle Waits at hsx; grind
        · cases hx
      · split at hx
        · simp at hx; subst hx; trivial
        · cases hx
      · split at hx
        · simp at hx; subst hx
          refine ⟨hst.keeps.2.2.2.1, ?_⟩
          unfold Idle Waits at hsx; grind
        · cases hx
      · split at hx
        · cases hx
        · simp at hx; subst hx
          show Idle _
          unfold Idle Waits; grind

end Soft

end Verif.Core.Attacher
