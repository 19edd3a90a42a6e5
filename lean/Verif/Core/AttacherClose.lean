import Verif.Core.AttacherEvents

/-!
# Attacher: helper lemmas on closing and on names
-/

namespace Verif.Core.Attacher

open Spec

theorem Run.append {s t u as bs} (h : Run s as t) (g : Run t bs u) : Run s (as ++ bs) u := by
  induction h with
  | nil => exact g
  | cons a b _ ih => exact .cons a b (ih g)

theorem Run.run {s as t} (h : Run s as t) : run s as = some t := by
  induction h with
  | nil => rfl
  | cons _ b _ ih => simp [Attacher.run, b, ih]

theorem run_snoc {s as a u} (h : run s (as ++ [a]) = some u) : ∃ t, run s as = some t ∧ step t a = some u := by
  induction as generalizing s with
  | nil =>
    simp only [List.nil_append, run] at h
    cases hs : step s a with
    | none => rw [hs] at h; cases h
    | some t => rw [hs] at h; cases h; exact ⟨s, rfl, hs⟩
  | cons b as ih =>
    simp only [List.cons_append, run] at h
    cases hs : step s b with
    | none => rw [hs] at h; cases h
    | some t =>
      rw [hs] at h
      obtain ⟨v, h1, h2⟩ := ih h
      exact ⟨v, by simp [run, hs, h1], h2⟩

theorem run_append {s as bs u} (h : run s (as ++ bs) = some u) : ∃ t, run s as = some t ∧ run t bs = some u := by
  induction as generalizing s with
  | nil => exact ⟨s, rfl, h⟩
  | cons b as ih =>
    simp only [List.cons_append, run] at h
    cases hs : step s b with
    | none => rw [hs] at h; cases h
    | some t =>
      rw [hs] at h
      obtain ⟨v, h1, h2⟩ := ih h
      exact ⟨v, by simp [run, hs, h1], h2⟩

/-- Induction over executions from the end. -/
theorem run_ind {P : List Act → St → Prop} (h0 : P [] init)
    (h1 : ∀ as s a t, run init as = some s → P as s → step s a = some t → P (as ++ [a]) t) :
    ∀ n as, as.length = n → ∀ s, run init as = some s → P as s := by
  intro n
  induction n with
  | zero =>
    intro as hl s h
    have : as = [] := List.eq_nil_of_length_eq_zero hl
    subst this
    cases h
    exact h0
  | succ n ih =>
    intro as hl s h
    have hne : as ≠ [] := by intro h; subst h; cases hl
    rw [← List.dropLast_concat_getLast hne] at h ⊢
    obtain ⟨t, h2, h3⟩ := run_snoc h
    exact h1 _ _ _ _ h2 (ih _ (by simp [List.length_dropLast, hl]) _ h2) h3

/-! ### Callbacks -/

/-- How often a callback was called. -/
def calls (cb : Cb) (s : St) : Nat := s.out.countP (· == .closedCb cb)

theorem calls_grow {p : Obs → Prop} {s t} (h : Grow p s t) (hp : ∀ cb, ¬ p (.closedCb cb)) (cb : Cb) : calls cb t = calls cb s := by
  obtain ⟨l, h1, h2⟩ := h
  unfold calls
  rw [h1, List.countP_append]
  have : l.countP (· == .closedCb cb) = 0 := by
    rw [List.countP_eq_zero]
    intro o ho
    have := h2 o ho
    intro h
    have h : o = .closedCb cb := by simpa using h
    subst h
    exact hp cb this
  omega

theorem resolveClose_calls (s : St) (cb : Cb) : calls cb s.resolveClose = calls cb s + (if s.closedCb = some cb then 1 else 0) := by
  unfold St.resolveClose calls
  simp only
  cases h : s.closedCb with
  | none => simp
  | some c =>
    simp only
    split <;> by_cases h : c = cb <;> simp [St.emit, List.countP_append, List.countP_cons, h]

theorem step_calls {s a t} (hst : step s a = some t) (cb : Cb) :
    calls cb t = calls cb s + (if a = .closeEvent ∧ s.closedCb = some cb then 1 else 0) := by
  by_cases ha : a = .closeEvent
  · subst ha
    simp only [step] at hst
    split at hst
    · cases hst
      rw [resolveClose_calls]
      simp
    · cases hst
  · rw [calls_grow (step_obs hst) (fun cb h => ha h.1)]
    simp [ha]

/-- The closes with a callback. -/
def closes (cb : Cb) (as : List Act) : Nat := as.countP (isClose cb)

theorem closes_snoc (cb as a) : closes cb (as ++ [a]) = closes cb as + (match a with | .close c _ => if c = cb then 1 else 0 | _ => 0) := by
  unfold closes
  rw [List.countP_append]
  cases a <;> simp [List.countP_cons, isClose]

theorem calls_le {as s} (h : run init as = some s) (cb : Cb) :
    calls cb s + (if s.closedCb = some cb then 1 else 0) ≤ closes cb as := by
  refine run_ind (P := fun as s => calls cb s + (if s.closedCb = some cb then 1 else 0) ≤ closes cb as) (by simp [calls, init, closes]) ?_ _ _ rfl _ h
  intro as s a t _ ih hst
  rw [step_calls hst, step_closedCb hst, closes_snoc]
  by_cases ha : a = .closeEvent
  · subst ha
    simp only [true_and]
    simp
    omega
  · simp only [ha, false_and, if_false]
    cases a with
    | close c b =>
      simp only [Option.some.injEq]
      split <;> split at ih <;> omega
    | closeEvent => exact absurd rfl ha
    | _ => simpa using ih

/-! ### Closing -/

theorem Soft.closed {s t} (h : Soft s t) (hm : s.mod = .closed) : t.state = s.state ∨ t.state = .closed := by
  induction h with
  | refl => exact .inl rfl
  | silent _ hs ih => rw [hs.state]; exact ih
  | emit o _ _ ih => exact ih
  | @down t e hst _ =>
    right
    rw [(down_fields _ _).1]
    unfold downState
    rw [if_pos (hst.keeps.1.trans hm)]

theorem startCallback_closed {s : St} {r e} (hm : s.mod = .closed) :
    (s.startCallback r e).state = s.state ∨ (s.startCallback r e).state = .closed := by
  obtain ⟨s', h1, h2, h3, h4, h5, h6, h7⟩ := startCallback_soft s r e
  have := h1.closed (h3.trans hm)
  rcases h7 with h7 | ⟨ho, p, hr, hm', hs', _⟩
  · rw [h7.1] at this; exact this
  · exact absurd hm hm'

/-- While the attacher is closed, it stays so, and it changes its state only to "closed". -/
theorem closed_step {s a t} (h : Inv s) (hm : s.mod = .closed) (ha : interferes a = false) (hst : step s a = some t) :
    t.mod = .closed ∧ (t.state = s.state ∨ t.state = .closed) ∧
      ((∃ ips e, a = .resolved ips e) ∨ (∃ i, a = .sent i ∧ s.dtls = some i ∧ closing s = true) → t.state = .closed) := by
  by_cases hs : Soft.act a = true
  · have h1 := Soft.step hs hst
    refine ⟨h1.keeps.1.trans hm, h1.closed hm, ?_⟩
    rintro (⟨ips, e, rfl⟩ | ⟨i, rfl, hd, hc⟩)
    · cases hs
    · simp only [Attacher.step] at hst
      split at hst
      · cases hst
      · next c hcc =>
        split at hst
        · cases hst
          have hcur : s.cur = some c := by simp [St.cur, hd, hcc]
          have hp : c.phase = .closing := by
            unfold closing at hc
            rw [hcur] at hc
            simpa using hc
          unfold St.sent
          rw [if_pos hp]
          have hds : (s.down .closed).state = .closed := by
            rw [(down_fields _ _).1]; unfold downState; rw [if_pos hm]
          simp only
          split
          · exact hds
          · split <;> exact hds
        · cases hst
  · cases a with
    | addToken | connected | fail | send | sent | sctResponse | keepAliveTimeout | deferred => exact absurd rfl hs
    | start | close | restart => cases ha
    | stop b =>
      cases hst
      refine ⟨?_, ?_, by rintro (⟨_, _, h⟩ | ⟨_, h, _⟩) <;> cases h⟩
      · unfold St.doClose
        rw [if_neg (by rw [hm]; intro h; cases h)]
        split
        · rfl
        · rfl
        · rfl
        · exact asyncClose_mod _ _
        · exact asyncClose_mod _ _
        · rfl
        · rfl
      · unfold St.doClose
        rw [if_neg (by rw [hm]; intro h; cases h)]
        split
        · exact .inr rfl
        · exact .inr rfl
        · exact .inl rfl
        · exact (Soft.asyncClose _ _).closed rfl
        · exact (Soft.asyncClose _ _).closed rfl
        · exact .inl rfl
        · exact .inl rfl
    | resolved ips e =>
      simp only [Attacher.step] at hst
      split at hst
      · cases hst
        have : (s.resolved ips e).mod = .closed ∧ (s.resolved ips e).state = .closed := by
          unfold St.resolved
          simp only
          rw [if_pos hm]
          exact ⟨hm, rfl⟩
        exact ⟨this.1, .inr this.2, fun _ => this.2⟩
      · cases hst
    | startResponse r e =>
      simp only [Attacher.step] at hst
      split at hst
      · cases hst
      · split at hst
        · cases hst
          exact ⟨(startCallback_mod _ _ _).trans hm, startCallback_closed hm, by rintro (⟨_, _, h⟩ | ⟨_, h, _⟩) <;> cases h⟩
        · cases hst
    | endResponse r e =>
      simp only [Attacher.step] at hst
      split at hst
      · cases hst
      · split at hst
        · cases hst
          refine ⟨(endCallback_mod _ _ _).trans hm, ?_, by rintro (⟨_, _, h⟩ | ⟨_, h, _⟩) <;> cases h⟩
          unfold St.endCallback
          simp only
          split
          · exact (Soft.asyncClose ({ s with endReq := none } : St) _).closed hm
          · exact (Soft.asyncClose ({ s with endReq := none } : St) _).closed hm
        · cases hst
    | timer m =>
      simp only [Attacher.step] at hst
      split at hst
      · next ht =>
        have h1 := h.sched.timer.1 ht
        have h2 := h.sched.closedM hm
        exact absurd h1 (by grind)
      · cases hst
    | closeEvent =>
      simp only [Attacher.step] at hst
      split at hst
      · cases hst
        refine ⟨(resolveClose_mod _).trans hm, .inl ?_, by rintro (⟨_, _, h⟩ | ⟨_, h, _⟩) <;> cases h⟩
        unfold St.resolveClose
        simp only
        split
        · rfl
        · split <;> rfl
      · cases hst

theorem step_setup {s a t} (h : Inv s) (hm : s.mod = .setup) (ha : ∀ ho p m, a ≠ .start ho p m) (hst : step s a = some t) : t.mod = .setup := by
  by_cases he : env a = true
  · rw [step_mod he hst, hm]
  · cases a with
    | start ho p m => exact absurd rfl (ha ho p m)
    | close cb b => cases hst; simp [St.doClose, hm]
    | stop b => cases hst; simp [St.doClose, hm]
    | restart m => cases hst; simp [St.restart, hm]
    | _ => exact absurd rfl he

/-- How many things a close still waits for. -/
def crank (s : St) : Nat := if s.mod = .setup ∨ s.state = .closed then 1 else 2

theorem close_step {s a t cb} (h : Inv s) (hcb : s.closedCb = some cb) (ha : interferes a = false) (hst : step s a = some t) :
    (t.closedCb = none ∧ calls cb t = calls cb s + 1) ∨
    (t.closedCb = some cb ∧ calls cb t = calls cb s ∧ crank t + (if ends s a then 1 else 0) ≤ crank s) := by
  have h1 := step_calls hst cb
  have h2 := step_closedCb hst
  by_cases hce : a = .closeEvent
  · subst hce
    left
    exact ⟨h2, by simpa [hcb] using h1⟩
  · right
    have hsc := h.sched.closedCb (by rw [hcb]; rfl)
    refine ⟨?_, by simpa [hce] using h1, ?_⟩
    · cases a <;> first | exact absurd rfl hce | cases ha; done | exact h2.trans hcb
    · cases hm : s.mod with
      | running => exact absurd hm hsc.1
      | setup =>
        have hst' := step_setup h hm (by intro ho p m he; subst he; cases ha) hst
        have hd := h.sched.setup hm
        have hr : s.resolving = false := by
          cases hr : s.resolving with
          | false => rfl
          | true => exact absurd hm (h.sched.resolving.1 hr).2
        have hdt : s.dtls = none := h.sched.idle.2 (.inl hd)
        have : ends s a = false := by
          cases a <;> simp [ends, hdt] <;> first | exact hce rfl | (simp [step, hr] at hst)
        simp [crank, hm, hst', this]
      | closed =>
        obtain ⟨g1, g2, g3⟩ := closed_step h hm ha hst
        unfold crank
        simp only [g1, hm, reduceCtorEq, false_or]
        by_cases he : ends s a = true
        · have hx : (∃ ips e, a = .resolved ips e) ∨ (∃ i, a = .sent i ∧ s.dtls = some i ∧ closing s = true) := by
            cases a <;> simp [ends] at he
            · exact .inl ⟨_, _, rfl⟩
            · exact .inr ⟨_, rfl, he.1, he.2⟩
            · exact absurd rfl hce
          have hns : s.state ≠ .closed := by
            rcases hx with ⟨ips, e, rfl⟩ | ⟨i, rfl, hd, _⟩
            · simp only [step] at hst
              split at hst
              · next hr => rw [(h.sched.resolving.1 hr).1]; intro h; cases h
              · cases hst
            · intro hc
              have := h.sched.idle.2 (.inr (.inr (.inr hc)))
              rw [this] at hd
              cases hd
          simp [g3 hx, he, hns]
        · simp only [he]
          rcases g2 with g2 | g2
          · simp [g2]
          · simp [g2]; split <;> decide

theorem close_run {s as t cb} (h : Inv s) (hcb : s.closedCb = some cb) (hr : Run s as t) (ha : ∀ a ∈ as, interferes a = false) :
    (t.closedCb = some cb ∧ calls cb t = calls cb s ∧ crank t + endings s as ≤ crank s) ∨
    (t.closedCb = none ∧ calls cb t = calls cb s + 1) := by
  induction hr with
  | nil s => exact .inl ⟨hcb, rfl, by simp [endings]⟩
  | @cons s t u a as hg hst hr ih =>
    have ht := h.step hg hst
    have hint := fun x hx => ha x (List.mem_cons_of_mem _ hx)
    rcases close_step h hcb (ha a (List.mem_cons_self ..)) hst with ⟨h1, h2⟩ | ⟨h1, h2, h3⟩
    · right
      have key : ∀ {s as u}, Run s as u → s.closedCb = none → (∀ a ∈ as, interferes a = false) → u.closedCb = none ∧ calls cb u = calls cb s := by
        intro s as u hr
        induction hr with
        | nil s => exact fun h _ => ⟨h, rfl⟩
        | @cons s t u a as _ hst _ ih =>
          intro hn hi
          have h1 := step_calls hst cb
          have h2 := step_closedCb hst
          have hc := hi a (List.mem_cons_self ..)
          have := ih (by cases a <;> first | exact h2.trans hn | exact h2 | cases hc) (fun x hx => hi x (List.mem_cons_of_mem _ hx))
          rw [this.2, h1]
          simp [hn, this.1]
      have := key hr h1 hint
      exact ⟨this.1, by rw [this.2, h2]⟩
    · rcases ih ht h1 hint with ⟨g1, g2, g3⟩ | ⟨g1, g2⟩
      · left
        refine ⟨g1, by omega, ?_⟩
        simp only [endings, hst]
        omega
      · exact .inr ⟨g1, by omega⟩

/-! ### Rest -/

/-- A closed attacher, or one that has not been started. -/
def Rest (s : St) : Prop := s.mod ≠ .running ∧ (s.mod = .setup ∨ s.state = .closed)

theorem Rest.dtls {s} (h : Inv s) (hr : Rest s) : s.dtls = none ∧ s.resolving = false ∧ s.timer = none ∧ s.keepAlive = false ∧
    ∀ i c, s.conn? i = some c → c.phase = .closing ∧ s.state = .closed := by
  obtain ⟨h1, h2⟩ := hr
  have hidle : Idle s.state := by
    rcases h2 with h2 | h2
    · exact .inl (h.sched.setup h2)
    · exact .inr (.inr (.inr h2))
  have hd := h.sched.idle.2 hidle
  refine ⟨hd, ?_, ?_, h.idle_ka hidle, ?_⟩
  · cases hr : s.resolving with
    | false => rfl
    | true =>
      have := h.sched.resolving.1 hr
      grind
  · cases ht : s.timer with
    | none => rfl
    | some x =>
      have h3 := h.sched.timer.1 (by rw [ht]; rfl)
      have h4 := h.sched.setup
      have h5 := h.sched.closedM
      grind
  · intro i c hc
    have hcc := h.conns.conn i c hc
    rw [hd] at hcc
    have hs := hcc.2.2
    simp only [reduceCtorEq, false_and, false_or, ne_eq, not_false_eq_true, true_and] at hs
    refine ⟨hs.2.1, ?_⟩
    rcases h2 with h2 | h2
    · have := h.sched.setup h2
      have := h.dns_conn this i
      rw [this] at hc; cases hc
    · exact h2

theorem Rest.down {s} (hm : s.mod = .closed) (hs : s.state = .closed) (e : Down) (he : e = .closed) :
    Grow (fun o => quiet o = true) s (s.down e) := by
  subst he
  refine ⟨_, down_out _ _, ?_⟩
  have hds : downState s .closed = .closed := by unfold downState; rw [if_pos hm]
  simp [hs, hds, quiet]

theorem Rest.step {s a t} (h : Inv s) (hr : Rest s) (hs : ∀ ho p m, a ≠ .start ho p m) (hrs : ∀ m, a ≠ .restart m)
    (hcl : ∀ cb, s.closedCb = some cb → cb.disable = false) (hst : step s a = some t) :
    Grow (fun o => quiet o = true) s t ∧ Rest t := by
  obtain ⟨hd, hres, hti, hka, hconn⟩ := hr.dtls h
  have hcur := cur_of_dtls hd
  have hna : s.state ≠ .attached := by
    have := hr.2
    have := h.sched.setup
    grind
  have hac : ∀ (t : St) b, t.cur = none → t.asyncClose b = t := fun t b h => asyncClose_none h
  have hans : ∀ c, s.answerable c = false := by
    intro c
    unfold St.answerable
    rw [hcur]
    simp
  have keep : ∀ {t : St}, t.mod = s.mod → t.state = s.state → Rest t := by
    intro t h1 h2
    unfold Rest at *
    rw [h1, h2]
    exact hr
  cases a with
  | start ho p m => exact absurd rfl (hs ho p m)
  | restart m => exact absurd rfl (hrs m)
  | close cb b =>
    cases hst
    unfold St.doClose
    rcases hr.2 with h2 | h2
    · rw [if_pos (by exact h2)]
      exact ⟨.refl rfl, keep rfl rfl⟩
    · split
      · exact ⟨.refl rfl, keep rfl rfl⟩
      · simp only [h2]
        exact ⟨.refl rfl, by simp [Rest]⟩
  | stop b =>
    cases hst
    unfold St.doClose
    rcases hr.2 with h2 | h2
    · rw [if_pos (by exact h2)]
      exact ⟨.refl rfl, keep rfl rfl⟩
    · split
      · exact ⟨.refl rfl, keep rfl rfl⟩
      · simp only [h2]
        exact ⟨.refl rfl, by simp [Rest]⟩
  | addToken t m e =>
    cases hst
    unfold St.addToken
    simp only
    split
    · exact ⟨.refl rfl, keep rfl rfl⟩
    · split
      · next h' => exact absurd h' hna
      · exact ⟨⟨_, rfl, by simp [quiet]⟩, keep rfl rfl⟩
  | resolved ips e => simp [Attacher.step, hres] at hst
  | connected id e =>
    simp only [Attacher.step] at hst
    split at hst
    · cases hst
    · next c hc =>
      have := hconn _ _ hc
      rw [if_neg (by rw [this.1]; intro h; cases h)] at hst
      cases hst
  | fail id d b =>
    simp only [Attacher.step] at hst
    split at hst
    · cases hst
    · next c hc =>
      have := hconn _ _ hc
      rw [if_pos this.1] at hst
      cases hst
  | send id =>
    simp only [Attacher.step] at hst
    split at hst
    · cases hst
    · next c hc =>
      have := hconn _ _ hc
      rw [if_pos this.1] at hst
      cases hst
  | sent id =>
    simp only [Attacher.step] at hst
    split at hst
    · cases hst
    · next c hc =>
      split at hst
      · cases hst
        have hp := hconn _ _ hc
        have hm : s.mod = .closed := by
          have h1 := hr.1
          have h2 := h.sched.setup
          cases hm : s.mod <;> simp_all
        have hg := Rest.down hm hp.2 .closed rfl
        have hf := down_fields s .closed
        have hds : downState s .closed = .closed := by unfold downState; rw [if_pos hm]
        unfold St.sent
        rw [if_pos hp.1]
        simp only
        split
        · exact ⟨hg, keep hf.2.1 (by rw [hf.1, hds, hp.2])⟩
        · split
          · exact ⟨hg, keep hf.2.1 (hf.1.trans (by rw [hds, hp.2]))⟩
          · exact ⟨hg, keep hf.2.1 (hf.1.trans (by rw [hds, hp.2]))⟩
      · cases hst
  | startResponse r e =>
    simp only [Attacher.step] at hst
    split at hst
    · cases hst
    · split at hst
      · next ha =>
        cases hst
        have hrn : r = .none := by
          rcases ha with ha | ha
          · exact ha
          · rw [hans] at ha; cases ha
        subst hrn
        have : s.startCallback .none e = { s with startReq := none } := by
          unfold St.startCallback St.failed
          have h0 : ({ s with startReq := none } : St).storeName .none = { s with startReq := none } := rfl
          rw [h0]
          simp only [hac _ _ (show ({ s with startReq := none } : St).cur = none from hcur), ite_self]
        rw [this]
        exact ⟨.refl rfl, keep rfl rfl⟩
      · cases hst
  | sctResponse r e =>
    simp only [Attacher.step] at hst
    split at hst
    · cases hst
    · split at hst
      · next ha =>
        cases hst
        have hrn : r = none := by
          rcases ha with ha | ha
          · exact ha
          · rw [hans] at ha; cases ha
        subst hrn
        unfold St.sctCallback St.failed
        simp only [show ((none : Option Bool) == some true) = false from rfl, Bool.false_eq_true, if_false]
        split
        · simp only [ite_self]
          rw [hac _ _ (by exact hcur)]
          exact ⟨.refl rfl, keep rfl rfl⟩
        · exact ⟨.refl rfl, keep rfl rfl⟩
      · cases hst
  | endResponse r e =>
    simp only [Attacher.step] at hst
    split at hst
    · cases hst
    · split at hst
      · next ha =>
        cases hst
        have hrn : r = none := by
          rcases ha with ha | ha
          · exact ha
          · rw [hans] at ha; cases ha
        subst hrn
        unfold St.endCallback St.failed
        simp only [show ((none : Option Bool) == some true) = false from rfl, Bool.not_false, if_true]
        rw [hac _ _ (by exact hcur)]
        exact ⟨.refl rfl, keep rfl rfl⟩
      · cases hst
  | keepAliveTimeout b => simp [Attacher.step, hka] at hst
  | timer m => simp [Attacher.step, hti] at hst
  | deferred =>
    simp only [Attacher.step] at hst
    split at hst
    · cases hst; exact ⟨.refl rfl, hr⟩
    · cases hst
  | closeEvent =>
    simp only [Attacher.step] at hst
    split at hst
    · cases hst
      unfold St.resolveClose
      simp only
      split
      · exact ⟨.refl rfl, keep rfl rfl⟩
      · next cb hc =>
        rw [hcl cb hc]
        exact ⟨⟨_, rfl, by simp [quiet]⟩, keep rfl rfl⟩
    · cases hst

theorem Rest.run {s as t} (h : Inv s) (hr : Rest s) (hcl : ∀ cb, s.closedCb = some cb → cb.disable = false) (hrun : Run s as t)
    (hs : ∀ ho p m, .start ho p m ∉ as) (hrs : ∀ m, .restart m ∉ as) (hd : ∀ cb b, .close cb b ∈ as → cb.disable = false) :
    Grow (fun o => quiet o = true) s t := by
  induction hrun with
  | nil => exact .refl rfl
  | @cons s t u a as hg hst _ ih =>
    obtain ⟨h1, h2⟩ := hr.step h (fun ho p m e => hs ho p m (by rw [e]; exact List.mem_cons_self ..))
      (fun m e => hrs m (by rw [e]; exact List.mem_cons_self ..)) hcl hst
    refine h1.trans (ih (h.step hg hst) h2 ?_ (fun ho p m hm => hs ho p m (List.mem_cons_of_mem _ hm))
      (fun m hm => hrs m (List.mem_cons_of_mem _ hm)) (fun cb b hm => hd cb b (List.mem_cons_of_mem _ hm)))
    intro cb hcb
    rw [step_closedCb hst] at hcb
    cases a with
    | close c b => cases hcb; exact hd _ b (List.mem_cons_self ..)
    | closeEvent => cases hcb
    | _ => exact hcl cb hcb

/-! ### Alternation -/

theorem Alt.run {s as t} (h : Inv s) (ha : Alt s) (hcl : ∀ cb, s.closedCb = some cb → cb.disable = false) (hrun : Run s as t)
    (hd : ∀ cb b, .close cb b ∈ as → cb.disable = false) : Alt t := by
  induction hrun with
  | nil => exact ha
  | @cons s t u a as hg hst _ ih =>
    refine ih (h.step hg hst) (ha.step h hg hcl hst) ?_ (fun cb b hm => hd cb b (List.mem_cons_of_mem _ hm))
    intro cb hcb
    rw [step_closedCb hst] at hcb
    cases a with
    | close c b => cases hcb; exact hd _ b (List.mem_cons_self ..)
    | closeEvent => cases hcb
    | _ => exact hcl cb hcb

/-! ### The state listener -/

def told : Obs → Option AState
  | .notify x => some x
  | _ => none

/-- The last state the listener was told. -/
def lastTold : List Obs → Option AState
  | [] => none
  | o :: l => (lastTold l).or (told o)

theorem lastTold_append (l m : List Obs) : lastTold (l ++ m) = (lastTold m).or (lastTold l) := by
  induction l with
  | nil => simp [lastTold]
  | cons o l ih =>
    simp only [List.cons_append, lastTold, ih]
    cases lastTold m <;> simp

def notNotify (o : Obs) : Prop := ∀ x, o ≠ .notify x

theorem lastTold_silent {l : List Obs} (h : ∀ o ∈ l, notNotify o) : lastTold l = none := by
  induction l with
  | nil => rfl
  | cons o l ih =>
    have h1 := h o (List.mem_cons_self ..)
    have h2 := ih (fun x hx => h x (List.mem_cons_of_mem _ hx))
    cases o with
    | notify x => exact absurd rfl (h1 x)
    | _ => simp [lastTold, h2, told]

/-- The listener knows whether the device is attached. -/
def Told (s : St) : Prop := lastTold s.out = some .attached ↔ s.state = .attached

theorem Told.grow {s t} (h : Told s) (hg : Grow notNotify s t) (hs : t.state = .attached ↔ s.state = .attached) : Told t := by
  obtain ⟨l, h1, h2⟩ := hg
  unfold Told at *
  rw [h1, lastTold_append, lastTold_silent h2, Option.none_or, hs]
  exact h

theorem Told.of {s t : St} (h : Told s) (ho : t.out = s.out) (hs : t.state = s.state) : Told t := h.grow (.refl ho) (by rw [hs])

theorem Told.notify (s : St) : Told s.notify := by
  unfold Told St.notify St.emit
  simp [lastTold_append, lastTold, told]

theorem Told.enter {s : St} : Told s.enter := by
  have h : s.enter.state = s.state := by
    unfold St.enter
    cases h : s.state <;> simp only
    all_goals first | exact h | rfl | simp [h, St.notify, St.emit]
  unfold Told
  rw [enter_out, h, lastTold_append, lastTold_append]
  simp [lastTold, told]

theorem Told.soft {s t} (h : Told s) (hs : Soft s t) : Told t := by
  induction hs with
  | refl => exact h
  | silent _ hs ih => exact ih.of hs.out hs.state
  | emit o _ ho ih =>
    refine ih.grow (.emit _ ?_) Iff.rfl
    intro x h; subst h; cases ho
  | @down t e _ ih =>
    have hd := downState_cases t e
    by_cases hx : t.mod ≠ .closed ∧ e = .closed ∧ t.state = .deniedWait
    · have h1 : downState t e = .deniedWait := by grind
      refine ih.grow ⟨_, down_out t e, ?_⟩ (by rw [(down_fields t e).1, h1, hx.2.2])
      intro o ho
      rw [if_pos hx, hx.2.2, hx.2.1] at ho
      have h2 : downState t .closed = .deniedWait := hx.2.1 ▸ h1
      simp [h2] at ho
    · unfold Told
      rw [down_out, if_neg hx, (down_fields t e).1, lastTold_append, lastTold_append]
      simp [lastTold, told]

theorem Told.doClose {s b} (h : Told s) : Told (s.doClose b) := by
  unfold St.doClose
  split
  · exact h.of rfl rfl
  · split
    · exact .enter
    · exact .enter
    · exact h.of rfl rfl
    · exact (h.of (t := { s with mod := .closed }) rfl rfl).soft (.asyncClose _ _)
    · exact (h.of (t := { s with mod := .closed }) rfl rfl).soft (.asyncClose _ _)
    · exact h.of rfl rfl
    · exact h.of rfl rfl

theorem Told.step {s a t} (h : Told s) (hi : Inv s) (hg : Regular s a) (hst : step s a = some t) : Told t := by
  by_cases hs : Soft.act a = true
  · exact h.soft (Soft.step hs hst)
  · cases a with
    | addToken | connected | fail | send | sent | sctResponse | keepAliveTimeout | deferred => exact absurd rfl hs
    | start ho p m =>
      cases hst
      unfold St.start
      split
      · exact h
      · split
        · exact h.of rfl rfl
        · exact .enter
    | close cb b => cases hst; exact (h.of (t := { s with closedCb := some cb }) rfl rfl).doClose
    | stop b => cases hst; exact (h.of (t := { s with keepAlive := false }) rfl rfl).doClose
    | restart m =>
      cases hst
      unfold St.restart
      split
      · exact h
      · simp only
        split
        · unfold St.reattach
          rw [if_neg (by simp)]
          split <;> exact .enter
        · exact h.of rfl rfl
    | resolved ips e =>
      simp only [Attacher.step] at hst
      split at hst
      · cases hst
        unfold St.resolved
        simp only
        split
        · exact .enter
        · cases ips with
          | none => exact .enter
          | some ips =>
            simp only [St.enterRequest]
            have hc : e.create = true := hg
            rw [if_neg (by simp [hc])]
            split <;> exact .notify _
      · cases hst
    | startResponse r e =>
      simp only [Attacher.step] at hst
      split at hst
      · cases hst
      · next conn hq =>
        split at hst
        · next ha =>
          cases hst
          obtain ⟨s', h1, h2, h3, h4, h5, h6, h7⟩ := startCallback_soft s r e
          refine Told.soft ?_ h1
          rcases h7 with h7 | ⟨ho, p, hr, hm, hs', _⟩
          · exact h.of h2 h7.1
          · refine h.grow (.refl h2) ?_
            subst hr
            obtain ⟨c, hc, hp, hcc⟩ := answerable_cur (ha.resolve_left (by intro h; cases h))
            subst hcc
            have : s.state = .request := by
              rcases (hi.link c hc).2.2.2 hp with ⟨a, _⟩ | ⟨_, _, b⟩
              · exact a
              · exact absurd (.inl hq) b
            simp [hs', this]
        · cases hst
    | endResponse r e =>
      simp only [Attacher.step] at hst
      split at hst
      · cases hst
      · split at hst
        · cases hst
          unfold St.endCallback
          simp only
          split
          · exact (h.of (t := { s with endReq := none }) rfl rfl).soft (.asyncClose _ _)
          · split
            · exact (h.of (t := { s with endReq := none }) rfl rfl).soft (.asyncClose _ _)
            · refine Told.soft ?_ (.sendSct _ _)
              exact Told.enter.grow (.emit _ (by intro x h; cases h)) Iff.rfl
        · cases hst
    | timer m =>
      simp only [Attacher.step] at hst
      split at hst
      · cases hst
        unfold St.reattach
        split
        · exact .enter
        · split <;> exact .enter
      · cases hst
    | closeEvent =>
      simp only [Attacher.step] at hst
      split at hst
      · cases hst
        unfold St.resolveClose
        simp only
        split
        · exact h.of rfl rfl
        · next cb hc =>
          have h1 : Told (({ s with closeEv := false, timer := none, closedCb := none } : St).emit (.closedCb cb)) :=
            (h.of (t := { s with closeEv := false, timer := none, closedCb := none }) rfl rfl).grow (.emit _ (by intro x h; cases h)) Iff.rfl
          split
          · exact h1.grow (.emit _ (by intro x h; cases h)) Iff.rfl
          · exact h1
      · cases hst

theorem Told.run {s as t} (h : Inv s) (ht : Told s) (hr : Run s as t) : Told t := by
  induction hr with
  | nil => exact ht
  | @cons s t u a as hg hst _ ih => exact ih (h.step hg hst) (ht.step h hg hst)

end Verif.Core.Attacher
