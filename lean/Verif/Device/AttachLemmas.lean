import Verif.Device.AttachSpec
import Verif.Core.AttacherNames

/-!
# The switch for the basestation attach — lemmas
-/

namespace Verif.Device.Attach

open Spec
open Core.Attacher (Act Cb Obs Mod AState Down)

abbrev A := Core.Attacher.St

/-! ## A closed attacher is silent -/

/-- Nothing of the attacher changes which the theorems below look at. -/
structure Quiet (s t : A) : Prop where
  mod : t.mod = s.mod
  host : t.host = s.host
  defaultPort : t.defaultPort = s.defaultPort
  contacts : t.out.countP contact = s.out.countP contact

theorem Quiet.refl (s : A) : Quiet s s := ⟨rfl, rfl, rfl, rfl⟩

theorem Quiet.trans {s t u : A} (h : Quiet s t) (h' : Quiet t u) : Quiet s u :=
  ⟨h'.mod.trans h.mod, h'.host.trans h.host, h'.defaultPort.trans h.defaultPort, h'.contacts.trans h.contacts⟩

theorem quiet_setConn (s : A) (c) : Quiet s (s.setConn c) := ⟨rfl, rfl, rfl, rfl⟩
theorem quiet_dropConn (s : A) (i) : Quiet s (s.dropConn i) := ⟨rfl, rfl, rfl, rfl⟩

theorem quiet_emit (s : A) {o : Obs} (h : contact o = false) : Quiet s (s.emit o) :=
  ⟨rfl, rfl, rfl, by simp [Core.Attacher.St.emit, List.countP_append, h]⟩

theorem quiet_enter {s : A} (h : s.state ≠ .dns) : Quiet s s.enter := by
  refine ⟨?_, ?_, ?_, ?_⟩ <;>
  · unfold Core.Attacher.St.enter
    cases hs : s.state <;>
      simp_all [Core.Attacher.St.notify, Core.Attacher.St.emit, List.countP_append, contact]

theorem quiet_reset (s : A) : Quiet s s.reset := by
  refine ⟨rfl, rfl, rfl, ?_⟩
  show List.countP contact (if s.state = .attached then s.out ++ [.event .detached] else s.out) = _
  split <;> simp [List.countP_append, contact]

theorem quiet_down {s : A} (h : s.mod = .closed) (e : Down) : Quiet s (s.down e) := by
  unfold Core.Attacher.St.down
  rw [if_pos h]
  refine (quiet_reset s).trans (Quiet.trans (t := { s.reset with state := .closed }) ⟨rfl, rfl, rfl, rfl⟩ (quiet_enter ?_))
  intro hc
  cases hc

theorem quiet_asyncClose {s : A} (h : s.mod = .closed) (b : Bool) : Quiet s (s.asyncClose b) := by
  unfold Core.Attacher.St.asyncClose
  split
  · exact .refl s
  · split
    · exact .refl s
    · dsimp only
      split
      · exact quiet_setConn s _
      · exact (quiet_setConn s _).trans (quiet_down (s := s.setConn _) h _)

theorem quiet_reattach {s : A} (h : s.mod = .closed) (m : Bool) : Quiet s (s.reattach m) := by
  unfold Core.Attacher.St.reattach
  rw [if_pos h]
  exact Quiet.trans (t := { s with state := .closed }) ⟨rfl, rfl, rfl, rfl⟩ (quiet_enter (fun hc => (nomatch hc)))

theorem quiet_resolveClose (s : A) : Quiet s s.resolveClose := by
  refine ⟨?_, ?_, ?_, ?_⟩ <;>
  · unfold Core.Attacher.St.resolveClose
    simp only
    split
    · simp_all
    · split <;> simp [Core.Attacher.St.emit, List.countP_append, contact]

theorem quiet_upload (s : A) (a : Bool) (e) : Quiet s (s.upload a e).1 := by
  unfold Core.Attacher.St.upload
  split
  · exact .refl s
  · split
    · exact .refl s
    · refine ⟨rfl, rfl, rfl, ?_⟩
      simp [Core.Attacher.St.emit, List.countP_append, contact]

theorem quiet_storeName (s : A) (r) : Quiet s (s.storeName r) := by
  unfold Core.Attacher.St.storeName
  split <;> exact ⟨rfl, rfl, rfl, rfl⟩

theorem quiet_addToken (s : A) (t m e) : Quiet s (s.addToken t m e) := by
  unfold Core.Attacher.St.addToken
  simp only
  split
  · exact ⟨rfl, rfl, rfl, rfl⟩
  · split
    · refine Quiet.trans ?_ (quiet_upload _ _ _)
      exact ⟨rfl, rfl, rfl, by simp [Core.Attacher.St.emit, List.countP_append, contact]⟩
    · exact ⟨rfl, rfl, rfl, by simp [Core.Attacher.St.emit, List.countP_append, contact]⟩

theorem quiet_sctCallback {s : A} (h : s.mod = .closed) (a ok : Bool) (e) : Quiet s (s.sctCallback a ok e) := by
  unfold Core.Attacher.St.sctCallback
  have h2 : Quiet s (if ok then { s with sct := { s.sct with synced := s.sct.uploading } }.emit (.acked s.sct.conn s.sct.body) else s) := by
    split
    · exact ⟨rfl, rfl, rfl, by simp [Core.Attacher.St.emit, List.countP_append, contact]⟩
    · exact .refl s
  dsimp only
  generalize (if ok then { s with sct := { s.sct with synced := s.sct.uploading } }.emit (.acked s.sct.conn s.sct.body) else s) = u at *
  have h3 : Quiet s { u with sct := { u.sct with callback := none } } := ⟨h2.mod, h2.host, h2.defaultPort, h2.contacts⟩
  split
  · rw [if_pos (h2.mod.trans h)]
    exact h3.trans (quiet_asyncClose (s := { u with sct := { u.sct with callback := none } }) (h2.mod.trans h) _)
  · split
    · exact h3.trans (quiet_upload _ _ _)
    · exact h3

theorem quiet_doClose {s : A} (b : Bool) (h : s.mod = .closed) : Quiet s (s.doClose b) := by
  unfold Core.Attacher.St.doClose
  rw [if_neg (by rw [h]; decide)]
  have hm : ({ s with mod := .closed } : A) = s := by rw [← h]
  split
  · refine Quiet.trans (t := { s with mod := .closed, timer := none, state := .closed }) ⟨h.symm, rfl, rfl, rfl⟩ (quiet_enter ?_)
    intro hc
    cases hc
  · refine Quiet.trans (t := { s with mod := .closed, timer := none, state := .closed }) ⟨h.symm, rfl, rfl, rfl⟩ (quiet_enter ?_)
    intro hc
    cases hc
  · exact ⟨h.symm, rfl, rfl, rfl⟩
  · rw [hm]; exact quiet_asyncClose h b
  · rw [hm]; exact quiet_asyncClose h b
  · exact ⟨h.symm, rfl, rfl, rfl⟩
  · exact ⟨h.symm, rfl, rfl, rfl⟩

/-- After its close an attacher is silent, whatever happens. -/
theorem quiet_step {s t : A} {a : Act} (h : s.mod = .closed) (he : isEnv a = true) (ht : Core.Attacher.step s a = some t) :
    Quiet s t := by
  cases a with
  | start => cases he
  | close => cases he
  | stop => cases he
  | restart => cases he
  | addToken x m e => simp only [Core.Attacher.step, Option.some.injEq] at ht; subst ht; exact quiet_addToken s x m e
  | resolved ips e =>
    simp only [Core.Attacher.step] at ht
    split at ht
    · cases ht
      unfold Core.Attacher.St.resolved
      simp only
      rw [if_pos h]
      exact Quiet.trans (t := { s with resolving := false, state := .closed }) ⟨rfl, rfl, rfl, rfl⟩ (quiet_enter (fun hc => (nomatch hc)))
    · cases ht
  | connected id e =>
    simp only [Core.Attacher.step] at ht
    split at ht
    · cases ht
    · split at ht
      · rw [if_pos (show ((s.setConn _).mod = .closed) from h)] at ht
        cases ht
        exact (quiet_setConn s _).trans (quiet_asyncClose (s := s.setConn _) h _)
      · cases ht
  | fail id d b =>
    simp only [Core.Attacher.step] at ht
    split at ht
    · cases ht
    · split at ht
      · cases ht
      · split at ht
        · cases ht; exact quiet_down h _
        · split at ht
          · cases ht
          · cases ht; exact (quiet_setConn s _).trans (quiet_down (s := s.setConn _) h _)
  | send id =>
    simp only [Core.Attacher.step] at ht
    split at ht
    · cases ht
    · split at ht
      · cases ht
      · cases ht; exact quiet_setConn s _
  | sent id =>
    simp only [Core.Attacher.step] at ht
    split at ht
    · cases ht
    · split at ht
      · cases ht
        unfold Core.Attacher.St.sent
        split
        · simp only
          split
          · exact quiet_down h _
          · split
            · exact (quiet_down h _).trans (quiet_dropConn _ _)
            · exact (quiet_down h _).trans (quiet_setConn _ _)
        · exact quiet_setConn s _
      · cases ht
  | startResponse r e =>
    simp only [Core.Attacher.step] at ht
    split at ht
    · cases ht
    · split at ht
      · cases ht
        unfold Core.Attacher.St.startCallback
        have h1 : Quiet s ({ s with startReq := none }.storeName r) :=
          Quiet.trans (t := { s with startReq := none }) ⟨rfl, rfl, rfl, rfl⟩ (quiet_storeName _ _)
        simp only
        rw [if_pos (h1.mod.trans h)]
        exact h1.trans (quiet_asyncClose (h1.mod.trans h) _)
      · cases ht
  | sctResponse r e =>
    simp only [Core.Attacher.step] at ht
    split at ht
    · cases ht
    · split at ht
      · cases ht; exact quiet_sctCallback h _ _ _
      · cases ht
  | endResponse r e =>
    simp only [Core.Attacher.step] at ht
    split at ht
    · cases ht
    · split at ht
      · cases ht
        unfold Core.Attacher.St.endCallback
        have h1 : Quiet s { s with endReq := none } := ⟨rfl, rfl, rfl, rfl⟩
        simp only
        rw [if_pos h, ite_self]
        exact h1.trans (quiet_asyncClose (s := { s with endReq := none }) h _)
      · cases ht
  | keepAliveTimeout b =>
    simp only [Core.Attacher.step] at ht
    split at ht
    · cases ht
      exact Quiet.trans (t := { s with keepAlive := false }) ⟨rfl, rfl, rfl, rfl⟩ (quiet_asyncClose (s := { s with keepAlive := false }) h _)
    · cases ht
  | timer m =>
    simp only [Core.Attacher.step] at ht
    split at ht
    · cases ht
      exact Quiet.trans (t := { s with timer := none }) ⟨rfl, rfl, rfl, rfl⟩ (quiet_reattach (s := { s with timer := none }) h _)
    · cases ht
  | closeEvent =>
    simp only [Core.Attacher.step] at ht
    split at ht
    · cases ht; exact quiet_resolveClose s
    · cases ht
  | deferred =>
    simp only [Core.Attacher.step] at ht
    split at ht
    · cases ht; exact .refl _
    · cases ht

theorem conn?_nil {s : A} (h : s.conns = []) (i : Nat) : s.conn? i = none := by
  unfold Core.Attacher.St.conn?
  rw [h]
  rfl

theorem quiet_asyncClose_idle {s : A} (h : s.dtls = none) (b : Bool) : Quiet s (s.asyncClose b) := by
  unfold Core.Attacher.St.asyncClose Core.Attacher.St.cur
  rw [h]
  exact .refl s

theorem not_answerable {s : A} (h : s.dtls = none) (c) : s.answerable c = false := by
  unfold Core.Attacher.St.answerable Core.Attacher.St.cur
  rw [h]
  simp

/-- An attacher which was not started is silent. -/
theorem quiet_fresh {s t : A} {a : Act} (hf : Core.Attacher.Fresh s) (h : s.mod = .setup) (he : isEnv a = true)
    (ht : Core.Attacher.step s a = some t) : Quiet s t := by
  obtain ⟨f1, f2, f3, f4, f5, f6⟩ := hf h
  have hnc : ¬ s.mod = .closed := by rw [h]; decide
  cases a with
  | start => cases he
  | close => cases he
  | stop => cases he
  | restart => cases he
  | addToken x m e => simp only [Core.Attacher.step, Option.some.injEq] at ht; subst ht; exact quiet_addToken s x m e
  | resolved ips e => simp [Core.Attacher.step, f1] at ht
  | connected id e => simp [Core.Attacher.step, conn?_nil f2] at ht
  | fail id d b => simp [Core.Attacher.step, conn?_nil f2] at ht
  | send id => simp [Core.Attacher.step, conn?_nil f2] at ht
  | sent id => simp [Core.Attacher.step, conn?_nil f2] at ht
  | startResponse r e =>
    simp only [Core.Attacher.step, not_answerable f5] at ht
    split at ht
    · cases ht
    · split at ht
      · rename_i hr
        rcases hr with hr | hr
        · subst hr
          cases ht
          unfold Core.Attacher.St.startCallback Core.Attacher.St.storeName
          dsimp only
          rw [if_neg hnc]
          exact Quiet.trans (t := { s with startReq := none }) ⟨rfl, rfl, rfl, rfl⟩
            (quiet_asyncClose_idle (s := { s with startReq := none }) f5 _)
        · cases hr
      · cases ht
  | sctResponse r e =>
    simp only [Core.Attacher.step, not_answerable f5] at ht
    split at ht
    · cases ht
    · split at ht
      · rename_i hr
        rcases hr with hr | hr
        · subst hr
          cases ht
          unfold Core.Attacher.St.sctCallback
          simp only [show ((none : Option Bool) == some true) = false from rfl, Bool.false_eq_true, if_false]
          rw [if_neg hnc]
          have h3 : Quiet s { s with sct := { s.sct with callback := none } } := ⟨rfl, rfl, rfl, rfl⟩
          split
          · exact h3.trans (quiet_asyncClose_idle (s := { s with sct := { s.sct with callback := none } }) f5 _)
          · exact h3
        · cases hr
      · cases ht
  | endResponse r e =>
    simp only [Core.Attacher.step, not_answerable f5] at ht
    split at ht
    · cases ht
    · split at ht
      · rename_i hr
        rcases hr with hr | hr
        · subst hr
          cases ht
          exact Quiet.trans (t := { s with endReq := none }) ⟨rfl, rfl, rfl, rfl⟩
            (quiet_asyncClose_idle (s := { s with endReq := none }) f5 _)
        · cases hr
      · cases ht
  | keepAliveTimeout b => simp [Core.Attacher.step, f6] at ht
  | timer m => simp [Core.Attacher.step, f3] at ht
  | closeEvent =>
    simp only [Core.Attacher.step] at ht
    split at ht
    · cases ht; exact quiet_resolveClose s
    · cases ht
  | deferred =>
    simp only [Core.Attacher.step] at ht
    split at ht
    · cases ht; exact .refl _
    · cases ht

/-! ## Histories -/

theorem runFrom_append (cfg : Cfg) (s : St) (ops ops' : List Op) :
    runFrom cfg s (ops ++ ops') = (runFrom cfg s ops).bind fun t => runFrom cfg t ops' := by
  induction ops generalizing s with
  | nil => rfl
  | cons op ops ih =>
    simp only [List.cons_append, runFrom]
    cases step cfg s op with
    | none => rfl
    | some r => exact ih r.1

theorem run_snoc {cfg : Cfg} {ops : List Op} {op : Op} {t : St} (h : run cfg (ops ++ [op]) = some t) :
    ∃ s ec, run cfg ops = some s ∧ step cfg s op = some (t, ec) := by
  unfold run at h
  rw [runFrom_append] at h
  cases hs : runFrom cfg St.init ops with
  | none => rw [hs] at h; cases h
  | some s =>
    rw [hs] at h
    simp only [Option.bind_some, runFrom] at h
    cases hp : step cfg s op with
    | none => rw [hp] at h; cases h
    | some r =>
      rw [hp] at h
      simp only [Option.bind_some, Option.some.injEq] at h
      exact ⟨s, r.2, hs, by rw [hp, ← h]⟩

theorem snoc_ind {α : Type} {P : List α → Prop} (h0 : P []) (hs : ∀ ops op, P ops → P (ops ++ [op])) : ∀ ops, P ops := by
  intro ops
  have : ∀ r : List α, P r.reverse := by
    intro r
    induction r with
    | nil => exact h0
    | cons x xs ih => rw [List.reverse_cons]; exact hs _ _ ih
  have h := this ops.reverse
  rwa [List.reverse_reverse] at h

theorem starting_snoc (ops : List Op) (op : Op) : starting (ops ++ [op]) =
    (match op with | .start => true | .bound .. => false | _ => starting ops) := by
  cases op <;> simp [starting]

theorem started_snoc (ops : List Op) (op : Op) : started (ops ++ [op]) = (started ops || decide (op = .start)) := by
  cases op <;> simp [started, List.contains_eq_any_beq]

theorem wishFrom_append (b w : Bool) (ops ops' : List Op) :
    wishFrom b w (ops ++ ops') = wishFrom (b || started ops) (wishFrom b w ops) ops' := by
  induction ops generalizing b w with
  | nil => simp [started, wishFrom]
  | cons op ops ih =>
    have h : started (op :: ops) = (decide (op = .start) || started ops) := by
      cases op <;> simp [started, List.contains_eq_any_beq]
    cases op <;> simp [wishFrom, ih, h]

theorem wish_snoc (ops : List Op) (op : Op) : wish (ops ++ [op]) =
    (match op with
      | .setAttach e _ _ => e
      | .disableRemote => started ops && wish ops
      | _ => wish ops) := by
  unfold wish
  rw [wishFrom_append]
  cases op <;> simp [wishFrom]

theorem settled_pre {ops : List Op} {op : Op} (h : Settled (ops ++ [op])) : Settled ops := by
  intro b o a he
  exact h b o (a ++ [op]) (by rw [he]; simp)

theorem settled_quiet {ops : List Op} (h : ∀ o ∈ ops, switch o = false) : Settled ops := by
  intro b o a he ho
  have := h o (by rw [he]; simp)
  rw [this] at ho
  cases ho

theorem settled_snoc {ops : List Op} {op : Op} (h : Settled ops) (ho : switch op = true → starting ops = false) : Settled (ops ++ [op]) := by
  intro b o a he hs
  rcases List.eq_nil_or_concat a with rfl | ⟨a', x, rfl⟩
  · have := List.append_inj' he rfl
    have h2 : op = o := by simpa using this.2
    rw [← this.1]
    exact ho (h2 ▸ hs)
  · rw [List.concat_eq_append, ← List.cons_append, ← List.append_assoc] at he
    exact h b o a' (List.append_inj' he rfl).1 hs

theorem memory_pre {ops : List Op} {op : Op} (h : Memory (ops ++ [op])) : Memory ops :=
  ⟨fun b hm => h.1 b (by simp [hm]), fun b hm => h.2 b (by simp [hm])⟩

/-! ## What the calls into the attacher do -/

open Core.Attacher (Fresh)

theorem fresh_start {a : A} (h : Fresh a) (ho p m) : Fresh (attStart a ho p m).1 := h.step (a := .start ho p m) rfl
theorem fresh_restart {a : A} (h : Fresh a) (m) : Fresh (attRestart a m).1 := h.step (a := .restart m) rfl
theorem fresh_close {a : A} (h : Fresh a) (cb b) : Fresh (attClose a cb b) := h.step (a := .close cb b) rfl
theorem fresh_stop {a : A} (h : Fresh a) (b) : Fresh ({ a with keepAlive := false }.doClose b) := h.step (a := .stop b) rfl

theorem doClose_mod (a : A) (b : Bool) : (a.doClose b).mod = if a.mod = .setup then .setup else .closed := by
  unfold Core.Attacher.St.doClose
  split
  · assumption
  · split <;> simp only [Core.Attacher.enter_mod, Core.Attacher.asyncClose_mod]

theorem close_mod (a : A) (cb b) : (attClose a cb b).mod = if a.mod = .setup then .setup else .closed := doClose_mod _ _

theorem stop_mod (a : A) (b) : ({ a with keepAlive := false }.doClose b).mod = if a.mod = .setup then .setup else .closed :=
  doClose_mod _ _

theorem start_mod (a : A) (ho p m) : (attStart a ho p m).1.mod = if a.mod = .setup ∧ m = true then .running else a.mod := by
  unfold attStart Core.Attacher.St.start
  by_cases h : a.mod = .setup
  · cases m <;> simp [h, Core.Attacher.enter_mod]
  · simp [h]

theorem restart_mod (a : A) (m) : (attRestart a m).1.mod = if a.mod = .closed then .running else a.mod := by
  unfold attRestart Core.Attacher.St.restart
  by_cases h : a.mod = .closed
  · simp only [h, not_true_eq_false, if_false, ne_eq]
    split
    · unfold Core.Attacher.St.reattach
      simp only [reduceCtorEq, if_false]
      split <;> simp [Core.Attacher.enter_mod]
    · rfl
  · simp [h]

theorem doClose_contacts (a : A) (b : Bool) : (a.doClose b).out.countP contact = a.out.countP contact := by
  by_cases hs : a.mod = .setup
  · unfold Core.Attacher.St.doClose
    rw [if_pos hs]
  · have h : a.doClose b = ({ a with mod := .closed } : A).doClose b := by
      unfold Core.Attacher.St.doClose
      rw [if_neg hs, if_neg (by simp)]
    rw [h]
    exact (quiet_doClose (s := { a with mod := .closed }) b rfl).contacts

theorem close_contacts (a : A) (cb b) : (attClose a cb b).out.countP contact = a.out.countP contact := doClose_contacts _ _

theorem stop_contacts (a : A) (b) : ({ a with keepAlive := false }.doClose b).out.countP contact = a.out.countP contact :=
  doClose_contacts _ _

/-! ## The invariant -/

structure Inv (cfg : Cfg) (ops : List Op) (s : St) : Prop where
  fresh : Fresh s.att
  host : s.att.mod ≠ .setup → s.att.host = cfg.host
  binding : s.binding = starting ops
  setup : s.state = .setup → s.att.mod = .setup ∧ s.enable = wish ops ∧ started ops = false ∧ s.binding = false
  running : s.state = .running → started ops = true
  bind : s.binding = true → s.att.mod = .setup ∧ (s.state = .running → s.enable = wish ops)
  closing : s.closing = true → s.state = .stopped

theorem host_start {cfg : Cfg} {a : A} (h : a.mod ≠ .setup → a.host = cfg.host) (m) :
    (attStart a cfg.host cfg.port m).1.mod ≠ .setup → (attStart a cfg.host cfg.port m).1.host = cfg.host := by
  intro hm
  rcases Core.Attacher.step_host (s := a) (a := .start cfg.host cfg.port m) rfl with ⟨h1, h2⟩ | ⟨ho, p, he, h2, h3, h4⟩
  · exact h1.trans (h (fun hs => hm (h2.2 hs)))
  · cases he; exact h3

theorem host_step {cfg : Cfg} {a b : A} {x : Act} (h : a.mod ≠ .setup → a.host = cfg.host) (hx : ∀ ho p m, x ≠ .start ho p m)
    (hs : Core.Attacher.step a x = some b) : b.mod ≠ .setup → b.host = cfg.host := by
  intro hm
  rcases Core.Attacher.step_host hs with ⟨h1, h2⟩ | ⟨ho, p, he, h2, h3, h4⟩
  · exact h1.trans (h (fun hs => hm (h2.2 hs)))
  · exact absurd he (hx _ _ _)

theorem env_mod {a b : A} {x : Act} (he : isEnv x = true) (hs : Core.Attacher.step a x = some b) : b.mod = a.mod :=
  Core.Attacher.step_mod (by revert he; cases x <;> simp [isEnv, Core.Attacher.Spec.env]) hs

theorem Inv.init (cfg : Cfg) : Inv cfg [] St.init where
  fresh := fun _ => ⟨rfl, rfl, rfl, rfl, rfl, rfl⟩
  host := fun h => absurd rfl h
  binding := rfl
  setup := fun _ => ⟨rfl, rfl, rfl, rfl⟩
  running := fun h => by cases h
  bind := fun h => by cases h
  closing := fun h => by cases h

theorem Inv.step {cfg : Cfg} {ops : List Op} {op : Op} {s t : St} {ec : Ec} (h : Inv cfg ops s) (hw : switch op = true → starting ops = false)
    (hs : step cfg s op = some (t, ec)) : Inv cfg (ops ++ [op]) t := by
  cases op with
  | setAttach e m b =>
    have hb : s.binding = false := h.binding.trans (hw rfl)
    simp only [Attach.step, Option.some.injEq, St.setAttach] at hs
    split at hs
    · cases hs
      rename_i hst
      obtain ⟨h1, h2, h3, h4⟩ := h.setup hst
      exact ⟨h.fresh, h.host, by rw [starting_snoc]; exact h.binding, fun _ => ⟨h1, by rw [wish_snoc], by rw [started_snoc]; simp [h3], h4⟩,
        fun hc => (nomatch hst.symm.trans hc), fun hc => (nomatch hb.symm.trans hc), h.closing⟩
    · rename_i hst
      split at hs
      · cases hs
        exact ⟨fresh_start h.fresh _ _ _, host_start h.host m, by rw [starting_snoc]; exact h.binding,
          fun hc => (nomatch hst.symm.trans hc),
          fun _ => by rw [started_snoc, h.running hst]; rfl, fun hc => (nomatch hb.symm.trans hc), h.closing⟩
      · cases hs
        exact ⟨fresh_restart h.fresh _, host_step (x := .restart m) h.host (by simp) rfl, by rw [starting_snoc]; exact h.binding,
          fun hc => (nomatch hst.symm.trans hc),
          fun _ => by rw [started_snoc, h.running hst]; rfl, fun hc => (nomatch hb.symm.trans hc), h.closing⟩
    · rename_i hst
      cases hs
      exact ⟨fresh_close h.fresh _ _, host_step (x := .close disabledCb b) h.host (by simp) rfl, by rw [starting_snoc]; exact h.binding,
        fun hc => (nomatch hst.symm.trans hc),
        fun _ => by rw [started_snoc, h.running hst]; rfl, fun hc => (nomatch hb.symm.trans hc), h.closing⟩
    · rename_i hst
      cases hs
      exact ⟨h.fresh, h.host, by rw [starting_snoc]; exact h.binding, fun hc => (nomatch hst.symm.trans hc),
        fun hc => (nomatch hst.symm.trans hc), fun hc => (nomatch hb.symm.trans hc), h.closing⟩
  | disableRemote =>
    have hb : s.binding = false := h.binding.trans (hw rfl)
    simp only [Attach.step, Option.some.injEq, St.disableRemote] at hs
    split at hs
    · rename_i hst
      cases hs
      exact ⟨h.fresh, h.host, by rw [starting_snoc]; exact h.binding, fun hc => absurd hc hst,
        fun hc => by rw [started_snoc, h.running hc]; rfl, fun hc => (nomatch hb.symm.trans hc), h.closing⟩
    · rename_i hst
      have hst : s.state = .setup := Decidable.byContradiction hst
      cases hs
      obtain ⟨h1, h2, h3, h4⟩ := h.setup hst
      exact ⟨h.fresh, h.host, by rw [starting_snoc]; exact h.binding,
        fun _ => ⟨h1, by rw [wish_snoc]; simp [h3], by rw [started_snoc]; simp [h3], h4⟩,
        fun hc => (nomatch hst.symm.trans hc), fun hc => (nomatch hb.symm.trans hc), h.closing⟩
  | start =>
    simp only [Attach.step] at hs
    split at hs
    · rename_i hst
      cases hs
      obtain ⟨h1, h2, h3, h4⟩ := h.setup hst
      exact ⟨h.fresh, h.host, by rw [starting_snoc], fun hc => (nomatch hc), fun _ => by rw [started_snoc]; simp,
        fun _ => ⟨h1, fun _ => by rw [wish_snoc]; exact h2⟩, fun hc => (nomatch hst.symm.trans (h.closing hc))⟩
    · cases hs
  | bound o m =>
    simp only [Attach.step] at hs
    split at hs
    · rename_i hb
      cases hs
      have hst : s.state ≠ .setup := by
        intro hc
        have := (h.setup hc).2.2.2
        rw [hb] at this
        cases this
      unfold St.bound
      dsimp only
      split
      · rename_i hc
        exact ⟨h.fresh, h.host, by rw [starting_snoc], fun hc' => absurd hc' hst, fun hc' => by rw [started_snoc, h.running hc']; rfl,
          fun hc' => (nomatch hc'), h.closing⟩
      · split
        · exact ⟨h.fresh, h.host, by rw [starting_snoc], fun hc' => (nomatch hc'), fun hc' => (nomatch hc'),
            fun hc' => (nomatch hc'), fun _ => rfl⟩
        · split
          · exact ⟨fresh_start h.fresh _ _ _, host_start h.host m, by rw [starting_snoc], fun hc' => absurd hc' hst,
              fun hc' => by rw [started_snoc, h.running hc']; rfl, fun hc' => (nomatch hc'), h.closing⟩
          · exact ⟨h.fresh, h.host, by rw [starting_snoc], fun hc' => absurd hc' hst,
              fun hc' => by rw [started_snoc, h.running hc']; rfl, fun hc' => (nomatch hc'), h.closing⟩
    · cases hs
  | close =>
    simp only [Attach.step] at hs
    split at hs
    · cases hs
      exact ⟨h.fresh, h.host, by rw [starting_snoc]; exact h.binding, fun hc => (nomatch hc), fun hc => (nomatch hc),
        fun hc => ⟨(h.bind hc).1, fun hc => (nomatch hc)⟩, fun _ => rfl⟩
    · cases hs
      exact ⟨h.fresh, h.host, by rw [starting_snoc]; exact h.binding,
        fun hc => ⟨(h.setup hc).1, by rw [wish_snoc]; exact (h.setup hc).2.1, by rw [started_snoc]; simp [(h.setup hc).2.2.1], (h.setup hc).2.2.2⟩,
        fun hc => by rw [started_snoc, h.running hc]; rfl,
        fun hc => ⟨(h.bind hc).1, fun hc' => by rw [wish_snoc]; exact (h.bind hc).2 hc'⟩, h.closing⟩
  | clientsClosed b =>
    simp only [Attach.step] at hs
    split at hs
    · cases hs
      refine ⟨fresh_close h.fresh _ _, host_step (x := .close closedCb b) h.host (by simp) rfl, by rw [starting_snoc]; exact h.binding, ?_,
        fun hc => by rw [started_snoc, h.running hc]; rfl, ?_, fun hc => (nomatch hc)⟩
      · intro hc
        exact ⟨by show (attClose s.att closedCb b).mod = _; rw [close_mod, if_pos (h.setup hc).1], by rw [wish_snoc]; exact (h.setup hc).2.1,
          by rw [started_snoc]; simp [(h.setup hc).2.2.1], (h.setup hc).2.2.2⟩
      · intro hc
        exact ⟨by show (attClose s.att closedCb b).mod = _; rw [close_mod, if_pos (h.bind hc).1],
          fun hc' => by rw [wish_snoc]; exact (h.bind hc).2 hc'⟩
    · cases hs
  | stop b =>
    simp only [Attach.step] at hs
    cases hs
    refine ⟨fresh_stop h.fresh _, host_step (x := .stop b) h.host (by simp) rfl, by rw [starting_snoc]; exact h.binding, fun hc => (nomatch hc),
      fun hc => (nomatch hc), ?_, fun _ => rfl⟩
    intro hc
    exact ⟨by show ({ s.att with keepAlive := false }.doClose b).mod = _; rw [stop_mod, if_pos (h.bind hc).1], fun hc => (nomatch hc)⟩
  | env a =>
    simp only [Attach.step] at hs
    split at hs
    · rename_i he
      cases ha : Core.Attacher.step s.att a with
      | none => rw [ha] at hs; cases hs
      | some u =>
        rw [ha] at hs
        cases hs
        have hm := env_mod he ha
        refine ⟨h.fresh.step ha, host_step h.host ?_ ha, by rw [starting_snoc]; exact h.binding, ?_,
          fun hc => by rw [started_snoc, h.running hc]; rfl, ?_, h.closing⟩
        · intro ho p m hc
          subst hc
          cases he
        · intro hc
          exact ⟨hm.trans (h.setup hc).1, by rw [wish_snoc]; exact (h.setup hc).2.1, by rw [started_snoc]; simp [(h.setup hc).2.2.1],
            (h.setup hc).2.2.2⟩
        · intro hc
          exact ⟨hm.trans (h.bind hc).1, fun hc' => by rw [wish_snoc]; exact (h.bind hc).2 hc'⟩
    · cases hs

theorem inv {cfg : Cfg} : ∀ {ops : List Op} {s : St}, Settled ops → run cfg ops = some s → Inv cfg ops s := by
  intro ops
  induction ops using snoc_ind with
  | h0 => intro s _ h; cases h; exact Inv.init cfg
  | hs ops op ih =>
    intro t hw h
    obtain ⟨s, ec, h1, h2⟩ := run_snoc h
    exact (ih (settled_pre hw) h1).step (hw ops op [] rfl) h2

/-- The attacher of a running device does what the application wants. -/
def Follows (ops : List Op) (s : St) : Prop :=
  s.state = .running → s.binding = false →
    (s.enable = false ↔ s.att.mod = .setup) ∧ (wish ops = true ↔ s.att.mod = .running)

theorem Follows.step {cfg : Cfg} {ops : List Op} {op : Op} {s t : St} {ec : Ec} (h : Inv cfg ops s) (hf : Follows ops s)
    (hw : switch op = true → starting ops = false) (hm : Memory [op]) (hs : step cfg s op = some (t, ec)) : Follows (ops ++ [op]) t := by
  intro hst hb
  cases op with
  | setAttach e m b =>
    have hsb : s.binding = false := h.binding.trans (hw rfl)
    rw [wish_snoc]
    simp only [Attach.step, Option.some.injEq, St.setAttach] at hs
    split at hs
    · cases hs
      rename_i hc
      rw [show s.state = .setup from hc] at hst
      cases hst
    · rename_i hr
      obtain ⟨f1, f2⟩ := hf hr hsb
      split at hs
      · rename_i he
        cases hs
        have he : s.enable = false := by simpa using he
        have hm : m = true := by
          cases m with
          | true => rfl
          | false => exact absurd (List.mem_singleton.2 rfl) (hm.1 b)
        have : (attStart s.att cfg.host cfg.port m).1.mod = .running := by rw [start_mod, if_pos ⟨f1.1 he, hm⟩]
        dsimp only
        rw [this]
        simp
      · rename_i he
        cases hs
        have he : s.enable = true := by simpa using he
        have hns : s.att.mod ≠ .setup := fun hc => by rw [f1.2 hc] at he; cases he
        have : (attRestart s.att m).1.mod = .running := by
          rw [restart_mod]
          cases hq : s.att.mod <;> simp_all
        dsimp only
        rw [this, he]
        simp
    · rename_i hr
      obtain ⟨f1, f2⟩ := hf hr hsb
      cases hs
      dsimp only
      rw [close_mod, f1]
      split <;> simp_all
    · rename_i hc
      cases hs
      rw [hc] at hst
      cases hst
  | disableRemote =>
    have hsb : s.binding = false := h.binding.trans (hw rfl)
    rw [wish_snoc]
    simp only [Attach.step, Option.some.injEq, St.disableRemote] at hs
    split at hs
    · cases hs
      have := hf hst hb
      rw [h.running hst, Bool.true_and]
      exact this
    · rename_i hc
      have hc : s.state = .setup := Decidable.byContradiction hc
      cases hs
      rw [show s.state = .setup from hc] at hst
      cases hst
  | start =>
    simp only [Attach.step] at hs
    split at hs
    · cases hs; cases hb
    · cases hs
  | bound o m =>
    rw [wish_snoc]
    simp only [Attach.step] at hs
    split at hs
    · rename_i hbind
      cases hs
      obtain ⟨h1, h2⟩ := h.bind hbind
      have hm : m = true := by
        cases m with
        | true => rfl
        | false => exact absurd (List.mem_singleton.2 rfl) (hm.2 o)
      revert hst
      unfold St.bound
      dsimp only
      split
      · rename_i hc; intro hst; rw [show s.state = .stopped from hc] at hst; cases hst
      · split
        · intro hst; cases hst
        · split
          · rename_i he
            intro hst
            have : (attStart s.att cfg.host cfg.port m).1.mod = .running := by rw [start_mod, if_pos ⟨h1, hm⟩]
            dsimp only
            rw [this, ← h2 hst, he]
            simp
          · rename_i he
            intro hst
            have he : s.enable = false := by simpa using he
            dsimp only
            rw [h1, ← h2 hst, he]
            simp
    · cases hs
  | close =>
    rw [wish_snoc]
    simp only [Attach.step] at hs
    split at hs
    · cases hs; cases hst
    · cases hs; exact hf hst hb
  | clientsClosed b =>
    simp only [Attach.step] at hs
    split at hs
    · rename_i hc
      cases hs
      exact nomatch hst.symm.trans (h.closing hc)
    · cases hs
  | stop b => cases hs; cases hst
  | env a =>
    rw [wish_snoc]
    simp only [Attach.step] at hs
    split at hs
    · rename_i he
      cases ha : Core.Attacher.step s.att a with
      | none => rw [ha] at hs; cases hs
      | some u =>
        rw [ha] at hs
        cases hs
        dsimp only
        rw [env_mod he ha]
        exact hf hst hb
    · cases hs

theorem follows {cfg : Cfg} : ∀ {ops : List Op} {s : St}, Settled ops → Memory ops → run cfg ops = some s → Follows ops s := by
  intro ops
  induction ops using snoc_ind with
  | h0 => intro s _ _ h; cases h; intro hc; cases hc
  | hs ops op ih =>
    intro t hw hm h
    obtain ⟨s, ec, h1, h2⟩ := run_snoc h
    refine (ih (settled_pre hw) (memory_pre hm) h1).step (inv (settled_pre hw) h1) (hw ops op [] rfl) ?_ h2
    exact ⟨fun b hb => hm.1 b (by simp [List.mem_singleton.1 hb]), fun b hb => hm.2 b (by simp [List.mem_singleton.1 hb])⟩

/-! ## Without the contract -/

structure Base (ops : List Op) (s : St) : Prop where
  fresh : Fresh s.att
  binding : s.binding = starting ops
  setup : s.state = .setup → s.att.mod = .setup ∧ s.binding = false
  closing : s.closing = true → s.state = .stopped

theorem Base.step {cfg : Cfg} {ops : List Op} {op : Op} {s t : St} {ec : Ec} (h : Base ops s)
    (hs : step cfg s op = some (t, ec)) : Base (ops ++ [op]) t := by
  cases op with
  | setAttach e m b =>
    simp only [Attach.step, Option.some.injEq, St.setAttach] at hs
    split at hs
    · cases hs
      exact ⟨h.fresh, by rw [starting_snoc]; exact h.binding, h.setup, h.closing⟩
    · rename_i hst
      split at hs
      · cases hs
        exact ⟨fresh_start h.fresh _ _ _, by rw [starting_snoc]; exact h.binding, fun hc => (nomatch hst.symm.trans hc), h.closing⟩
      · cases hs
        exact ⟨fresh_restart h.fresh _, by rw [starting_snoc]; exact h.binding, fun hc => (nomatch hst.symm.trans hc), h.closing⟩
    · rename_i hst
      cases hs
      exact ⟨fresh_close h.fresh _ _, by rw [starting_snoc]; exact h.binding, fun hc => (nomatch hst.symm.trans hc), h.closing⟩
    · cases hs
      exact ⟨h.fresh, by rw [starting_snoc]; exact h.binding, h.setup, h.closing⟩
  | disableRemote =>
    simp only [Attach.step, Option.some.injEq, St.disableRemote] at hs
    split at hs <;> cases hs <;> exact ⟨h.fresh, by rw [starting_snoc]; exact h.binding, h.setup, h.closing⟩
  | start =>
    simp only [Attach.step] at hs
    split at hs
    · rename_i hst
      cases hs
      exact ⟨h.fresh, by rw [starting_snoc], fun hc => (nomatch hc), fun hc => (nomatch hst.symm.trans (h.closing hc))⟩
    · cases hs
  | bound o m =>
    simp only [Attach.step] at hs
    split at hs
    · rename_i hb
      cases hs
      have hst : s.state ≠ .setup := fun hc => nomatch hb.symm.trans (h.setup hc).2
      unfold St.bound
      dsimp only
      split
      · exact ⟨h.fresh, by rw [starting_snoc], fun hc => absurd hc hst, h.closing⟩
      · split
        · exact ⟨h.fresh, by rw [starting_snoc], fun hc => (nomatch hc), fun _ => rfl⟩
        · split
          · exact ⟨fresh_start h.fresh _ _ _, by rw [starting_snoc], fun hc => absurd hc hst, h.closing⟩
          · exact ⟨h.fresh, by rw [starting_snoc], fun hc => absurd hc hst, h.closing⟩
    · cases hs
  | close =>
    simp only [Attach.step] at hs
    split at hs
    · cases hs
      exact ⟨h.fresh, by rw [starting_snoc]; exact h.binding, fun hc => (nomatch hc), fun _ => rfl⟩
    · cases hs
      exact ⟨h.fresh, by rw [starting_snoc]; exact h.binding, h.setup, h.closing⟩
  | clientsClosed b =>
    simp only [Attach.step] at hs
    split at hs
    · rename_i hc
      cases hs
      exact ⟨fresh_close h.fresh _ _, by rw [starting_snoc]; exact h.binding, fun hs => (nomatch (h.closing hc).symm.trans hs),
        fun hc => (nomatch hc)⟩
    · cases hs
  | stop b =>
    simp only [Attach.step] at hs
    cases hs
    exact ⟨fresh_stop h.fresh _, by rw [starting_snoc]; exact h.binding, fun hc => (nomatch hc), fun _ => rfl⟩
  | env a =>
    simp only [Attach.step] at hs
    split at hs
    · rename_i he
      cases ha : Core.Attacher.step s.att a with
      | none => rw [ha] at hs; cases hs
      | some u =>
        rw [ha] at hs
        cases hs
        exact ⟨h.fresh.step ha, by rw [starting_snoc]; exact h.binding, fun hc => ⟨(env_mod he ha).trans (h.setup hc).1, (h.setup hc).2⟩, h.closing⟩
    · cases hs

theorem base {cfg : Cfg} : ∀ {ops : List Op} {s : St}, run cfg ops = some s → Base ops s := by
  intro ops
  induction ops using snoc_ind with
  | h0 => intro s h; cases h; exact ⟨fun _ => ⟨rfl, rfl, rfl, rfl, rfl, rfl⟩, rfl, fun _ => ⟨rfl, rfl⟩, fun h => by cases h⟩
  | hs ops op ih =>
    intro t h
    obtain ⟨s, ec, h1, h2⟩ := run_snoc h
    exact (ih h1).step h2

/-! ## The attach is off -/

/-- The attach is off, and will be until it is switched on. -/
structure Off (s : St) : Prop where
  mod : s.att.mod ≠ .running
  fresh : Fresh s.att
  setup : s.state = .setup → s.enable = false ∧ s.att.mod = .setup
  bind : s.binding = true → s.state ≠ .stopped → s.enable = false

theorem Off.step {cfg : Cfg} {op : Op} {s t : St} {ec : Ec} (h : Off s) (hn : enables op = false)
    (hs : Attach.step cfg s op = some (t, ec)) : Off t ∧ contacts t = contacts s := by
  have hcm : ∀ a : A, a.mod ≠ .running → (if a.mod = .setup then Mod.setup else Mod.closed) ≠ .running := by
    intro a _; split <;> decide
  cases op with
  | setAttach e m b =>
    have he : e = false := by cases e with | false => rfl | true => cases hn
    subst he
    simp only [Attach.step, Option.some.injEq, St.setAttach] at hs
    split at hs
    · cases hs
      exact ⟨⟨h.mod, h.fresh, fun hc => ⟨rfl, (h.setup hc).2⟩, fun _ _ => rfl⟩, rfl⟩
    · rename_i hc
      cases hc
    · rename_i hst _
      cases hs
      exact ⟨⟨by rw [close_mod]; exact hcm _ h.mod, fresh_close h.fresh _ _, fun hc => (nomatch hst.symm.trans hc), h.bind⟩, close_contacts _ _ _⟩
    · cases hs
      exact ⟨h, rfl⟩
  | disableRemote =>
    simp only [Attach.step, Option.some.injEq, St.disableRemote] at hs
    split at hs
    · cases hs; exact ⟨h, rfl⟩
    · cases hs; exact ⟨⟨h.mod, h.fresh, fun hc => ⟨rfl, (h.setup hc).2⟩, fun _ _ => rfl⟩, rfl⟩
  | start =>
    simp only [Attach.step] at hs
    split at hs
    · rename_i hst
      cases hs
      exact ⟨⟨h.mod, h.fresh, fun hc => (nomatch hc), fun _ _ => (h.setup hst).1⟩, rfl⟩
    · cases hs
  | bound o m =>
    simp only [Attach.step] at hs
    split at hs
    · rename_i hb
      cases hs
      unfold St.bound
      dsimp only
      split
      · exact ⟨⟨h.mod, h.fresh, h.setup, fun hc => (nomatch hc)⟩, rfl⟩
      · split
        · exact ⟨⟨h.mod, h.fresh, fun hc => (nomatch hc), fun hc => (nomatch hc)⟩, rfl⟩
        · split
          · rename_i hns _ he
            exact absurd (h.bind hb hns) (by rw [show s.enable = true from he]; decide)
          · exact ⟨⟨h.mod, h.fresh, h.setup, fun hc => (nomatch hc)⟩, rfl⟩
    · cases hs
  | close =>
    simp only [Attach.step] at hs
    split at hs
    · cases hs
      exact ⟨⟨h.mod, h.fresh, fun hc => (nomatch hc), fun _ hc => absurd rfl hc⟩, rfl⟩
    · cases hs
      exact ⟨h, rfl⟩
  | clientsClosed b =>
    simp only [Attach.step] at hs
    split at hs
    · cases hs
      refine ⟨⟨by rw [close_mod]; exact hcm _ h.mod, fresh_close h.fresh _ _, fun hc => ⟨(h.setup hc).1, ?_⟩, h.bind⟩, close_contacts _ _ _⟩
      show (attClose s.att closedCb b).mod = _
      rw [close_mod, if_pos (h.setup hc).2]
    · cases hs
  | stop b =>
    simp only [Attach.step] at hs
    cases hs
    exact ⟨⟨by rw [stop_mod]; exact hcm _ h.mod, fresh_stop h.fresh _, fun hc => (nomatch hc), fun _ hc => absurd rfl hc⟩, stop_contacts _ _⟩
  | env a =>
    simp only [Attach.step] at hs
    split at hs
    · rename_i he
      cases ha : Core.Attacher.step s.att a with
      | none => rw [ha] at hs; cases hs
      | some u =>
        rw [ha] at hs
        cases hs
        have hm := env_mod he ha
        refine ⟨⟨by rw [hm]; exact h.mod, h.fresh.step ha, fun hc => ⟨(h.setup hc).1, hm.trans (h.setup hc).2⟩, h.bind⟩, ?_⟩
        by_cases hc : s.att.mod = .closed
        · exact (quiet_step hc he ha).contacts
        · have hsu : s.att.mod = .setup := by
            have := h.mod
            cases hq : s.att.mod <;> simp_all
          exact (quiet_fresh h.fresh hsu he ha).contacts
    · cases hs

theorem Off.run {cfg : Cfg} {ops : List Op} {s t : St} (h : Off s) (hn : ∀ o ∈ ops, enables o = false)
    (hr : runFrom cfg s ops = some t) : Off t ∧ contacts t = contacts s := by
  induction ops generalizing s with
  | nil => cases hr; exact ⟨h, rfl⟩
  | cons op ops ih =>
    simp only [runFrom] at hr
    cases hp : Attach.step cfg s op with
    | none => rw [hp] at hr; cases hr
    | some r =>
      rw [hp] at hr
      obtain ⟨h1, h2⟩ := h.step (hn op (by simp)) (t := r.1) (ec := r.2) hp
      obtain ⟨h3, h4⟩ := ih h1 (fun o ho => hn o (by simp [ho])) hr
      exact ⟨h3, h4.trans h2⟩

/-! ## The callback of a close -/

theorem Stopped.step {cfg : Cfg} {op : Op} {s t : St} {ec : Ec} (h : s.state = .stopped) (hs : Attach.step cfg s op = some (t, ec)) :
    t.state = .stopped := by
  cases op with
  | setAttach e m b =>
    simp only [Attach.step, St.setAttach, h] at hs
    cases e <;> cases hs <;> exact h
  | disableRemote => simp [Attach.step, St.disableRemote, h] at hs; rw [← hs.1]; exact h
  | start => simp [Attach.step, h] at hs
  | bound o m =>
    simp only [Attach.step] at hs
    split at hs
    · cases hs
      unfold St.bound
      dsimp only
      rw [if_pos h]
      exact h
    · cases hs
  | close => simp [Attach.step, h] at hs; rw [← hs.1]; exact h
  | clientsClosed b =>
    simp only [Attach.step] at hs
    split at hs
    · cases hs; exact h
    · cases hs
  | stop b => cases hs; rfl
  | env a =>
    simp only [Attach.step] at hs
    split at hs
    · cases ha : Core.Attacher.step s.att a with
      | none => rw [ha] at hs; cases hs
      | some u => rw [ha] at hs; cases hs; exact h
    · cases hs

theorem Stopped.run {cfg : Cfg} {ops : List Op} {s t : St} (h : s.state = .stopped) (hr : runFrom cfg s ops = some t) :
    t.state = .stopped := by
  induction ops generalizing s with
  | nil => cases hr; exact h
  | cons op ops ih =>
    simp only [runFrom] at hr
    cases hp : Attach.step cfg s op with
    | none => rw [hp] at hr; cases hr
    | some r => rw [hp] at hr; exact ih (Stopped.step (t := r.1) (ec := r.2) h hp) hr

/-- The callback of the close waits in the attacher, or it was called. -/
structure Kept (s : St) : Prop where
  stopped : s.state = .stopped
  closing : s.closing = false
  cb : s.att.closedCb = some closedCb ∧ Core.Attacher.calls closedCb s.att = 0 ∨
    s.att.closedCb = none ∧ Core.Attacher.calls closedCb s.att = 1

theorem Kept.att {s : St} (h : Kept s) {u : A} {x : Act} (hx : ∀ cb b, x ≠ .close cb b) (hu : Core.Attacher.step s.att x = some u) :
    Kept { s with att := u } := by
  refine ⟨h.stopped, h.closing, ?_⟩
  have h1 := Core.Attacher.step_closedCb hu
  have h2 := Core.Attacher.step_calls hu closedCb
  by_cases hc : x = .closeEvent
  · subst hc
    right
    refine ⟨h1, ?_⟩
    dsimp only
    rcases h.cb with ⟨h3, h4⟩ | ⟨h3, h4⟩
    · rw [h2, h3, h4]; rfl
    · rw [h2, h3, h4]; rfl
  · have h1' : u.closedCb = s.att.closedCb := by
      cases x with
      | close cb b => exact absurd rfl (hx cb b)
      | closeEvent => exact absurd rfl hc
      | _ => exact h1
    have h2' : Core.Attacher.calls closedCb u = Core.Attacher.calls closedCb s.att := by simpa [hc] using h2
    dsimp only
    rw [h1', h2']
    exact h.cb

theorem Kept.step {cfg : Cfg} {op : Op} {s t : St} {ec : Ec} (h : Kept s) (hs : Attach.step cfg s op = some (t, ec)) : Kept t := by
  have hst := h.stopped
  have ht := Stopped.step hst hs
  cases op with
  | setAttach e m b =>
    simp only [Attach.step, St.setAttach, hst] at hs
    cases e <;> cases hs <;> exact h
  | disableRemote => simp [Attach.step, St.disableRemote, hst] at hs; rw [← hs.1]; exact h
  | start => simp [Attach.step, hst] at hs
  | bound o m =>
    simp only [Attach.step] at hs
    split at hs
    · cases hs
      unfold St.bound
      dsimp only
      rw [if_pos hst]
      exact ⟨hst, h.closing, h.cb⟩
    · cases hs
  | close => simp [Attach.step, hst] at hs; rw [← hs.1]; exact h
  | clientsClosed b => simp [Attach.step, h.closing] at hs
  | stop b =>
    cases hs
    have := h.att (x := .stop b) (by simp) rfl
    exact ⟨rfl, h.closing, this.cb⟩
  | env a =>
    simp only [Attach.step] at hs
    split at hs
    · rename_i he
      cases ha : Core.Attacher.step s.att a with
      | none => rw [ha] at hs; cases hs
      | some u =>
        rw [ha] at hs
        cases hs
        exact h.att (fun cb b hc => by subst hc; cases he) ha
    · cases hs

theorem Kept.run {cfg : Cfg} {ops : List Op} {s t : St} (h : Kept s) (hr : runFrom cfg s ops = some t) : Kept t := by
  induction ops generalizing s with
  | nil => cases hr; exact h
  | cons op ops ih =>
    simp only [runFrom] at hr
    cases hp : Attach.step cfg s op with
    | none => rw [hp] at hr; cases hr
    | some r => rw [hp] at hr; exact ih (h.step (t := r.1) (ec := r.2) hp) hr

/-! ## The start of the attacher failed -/

/-- The attacher was not started, and the device takes it for started. -/
structure Stuck (s : St) : Prop where
  state : s.state ≠ .setup
  enable : s.enable = true
  binding : s.binding = false
  mod : s.att.mod = .setup
  fresh : Fresh s.att

theorem Stuck.step {cfg : Cfg} {op : Op} {s t : St} {ec : Ec} (h : Stuck s) (hs : Attach.step cfg s op = some (t, ec)) :
    Stuck t ∧ contacts t = contacts s ∧ (enables op = true → ec = .invalidState) := by
  cases op with
  | setAttach e m b =>
    simp only [Attach.step, Option.some.injEq, St.setAttach] at hs
    split at hs
    · rename_i hst; exact absurd hst h.state
    · rename_i hst
      rw [if_neg (by rw [h.enable]; decide)] at hs
      have hr : s.att.restart m = s.att := by
        unfold Core.Attacher.St.restart
        rw [if_pos (by rw [h.mod]; decide)]
      cases hs
      refine ⟨⟨h.state, h.enable, h.binding, ?_, ?_⟩, ?_, ?_⟩
      · show (s.att.restart m).mod = _; rw [hr]; exact h.mod
      · show Fresh (s.att.restart m); rw [hr]; exact h.fresh
      · show (s.att.restart m).out.countP contact = _; rw [hr]; rfl
      · intro _; unfold attRestart; dsimp only; rw [if_pos (by rw [h.mod]; decide)]
    · cases hs
      exact ⟨⟨h.state, h.enable, h.binding, by show (attClose s.att disabledCb b).mod = _; rw [close_mod, if_pos h.mod],
        fresh_close h.fresh _ _⟩, close_contacts _ _ _, fun hc => (nomatch hc)⟩
    · cases hs
      exact ⟨h, rfl, fun _ => rfl⟩
  | disableRemote =>
    simp [Attach.step, St.disableRemote, h.state] at hs
    rw [← hs.1]
    exact ⟨h, rfl, fun hc => (nomatch hc)⟩
  | start => simp [Attach.step, h.state] at hs
  | bound o m => simp [Attach.step, h.binding] at hs
  | close =>
    simp only [Attach.step] at hs
    split at hs <;> cases hs
    · exact ⟨⟨by simp, h.enable, h.binding, h.mod, h.fresh⟩, rfl, fun hc => (nomatch hc)⟩
    · exact ⟨h, rfl, fun hc => (nomatch hc)⟩
  | clientsClosed b =>
    simp only [Attach.step] at hs
    split at hs
    · cases hs
      exact ⟨⟨h.state, h.enable, h.binding, by show (attClose s.att closedCb b).mod = _; rw [close_mod, if_pos h.mod],
        fresh_close h.fresh _ _⟩, close_contacts _ _ _, fun hc => (nomatch hc)⟩
    · cases hs
  | stop b =>
    cases hs
    exact ⟨⟨by simp, h.enable, h.binding, by rw [stop_mod, if_pos h.mod], fresh_stop h.fresh _⟩, stop_contacts _ _, fun hc => (nomatch hc)⟩
  | env a =>
    simp only [Attach.step] at hs
    split at hs
    · rename_i he
      cases ha : Core.Attacher.step s.att a with
      | none => rw [ha] at hs; cases hs
      | some u =>
        rw [ha] at hs
        cases hs
        exact ⟨⟨h.state, h.enable, h.binding, (env_mod he ha).trans h.mod, h.fresh.step ha⟩, (quiet_fresh h.fresh h.mod he ha).contacts,
          fun hc => (nomatch hc)⟩
    · cases hs

theorem Stuck.run {cfg : Cfg} {ops : List Op} {s t : St} (h : Stuck s) (hr : runFrom cfg s ops = some t) :
    Stuck t ∧ contacts t = contacts s := by
  induction ops generalizing s with
  | nil => cases hr; exact ⟨h, rfl⟩
  | cons op ops ih =>
    simp only [runFrom] at hr
    cases hp : Attach.step cfg s op with
    | none => rw [hp] at hr; cases hr
    | some r =>
      rw [hp] at hr
      obtain ⟨h1, h2, _⟩ := h.step (t := r.1) (ec := r.2) hp
      obtain ⟨h3, h4⟩ := ih h1 hr
      exact ⟨h3, h4.trans h2⟩

end Verif.Device.Attach
