import Verif.Core.AttacherClose

/-!
# Attacher: helper lemmas on the names which are resolved
-/

namespace Verif.Core.Attacher

open Spec

/-! ### The configured host -/

theorem step_host {s a t} (hst : step s a = some t) :
    (t.host = s.host ∧ (t.mod = .setup ↔ s.mod = .setup)) ∨ (∃ h p, a = .start h p true ∧ s.mod = .setup ∧ t.host = h ∧ t.mod ≠ .setup) := by
  have he : ∀ s : St, s.enter.host = s.host := by intro s; unfold St.enter; cases s.state <;> rfl
  have henv : env a = true → t.host = s.host → t.host = s.host ∧ (t.mod = .setup ↔ s.mod = .setup) := by
    intro h1 h2
    exact ⟨h2, by rw [step_mod h1 hst]⟩
  by_cases hs : Soft.act a = true
  · have h1 := Soft.step hs hst
    exact .inl ⟨h1.keeps.2.2.1, by rw [h1.keeps.1]⟩
  · cases a with
    | addToken | connected | fail | send | sent | sctResponse | keepAliveTimeout | deferred => exact absurd rfl hs
    | start ho p m =>
      cases hst
      unfold St.start
      split
      · exact .inl ⟨rfl, Iff.rfl⟩
      · next hm =>
        split
        · exact .inl ⟨rfl, Iff.rfl⟩
        · next hmm =>
          have hmm : m = true := by simpa using hmm
          subst hmm
          refine .inr ⟨ho, p, rfl, by cases h : s.mod <;> simp_all, he _, ?_⟩
          rw [enter_mod]
          simp
    | close cb b =>
      cases hst
      refine .inl ⟨(doClose_soft _ _).2.2, ?_⟩
      unfold St.doClose
      split
      · exact Iff.rfl
      · next hm =>
        have hm : s.mod ≠ .setup := hm
        simp only [hm, iff_false]
        split <;> simp [St.enter, St.notify, St.emit, asyncClose_mod]
    | stop b =>
      cases hst
      refine .inl ⟨(doClose_soft _ _).2.2, ?_⟩
      unfold St.doClose
      split
      · exact Iff.rfl
      · next hm =>
        have hm : s.mod ≠ .setup := hm
        simp only [hm, iff_false]
        split <;> simp [St.enter, St.notify, St.emit, asyncClose_mod]
    | restart m =>
      cases hst
      left
      unfold St.restart
      split
      · exact ⟨rfl, Iff.rfl⟩
      · next hm =>
        have hm : s.mod = .closed := by simpa using hm
        simp only
        split
        · refine ⟨?_, by rw [reattach_mod, hm]; simp⟩
          unfold St.reattach
          rw [if_neg (by simp)]
          split <;> exact he _
        · exact ⟨rfl, by simp [hm]⟩
    | resolved ips e =>
      refine .inl (henv rfl ?_)
      simp only [Attacher.step] at hst
      split at hst
      · cases hst
        unfold St.resolved
        simp only
        split
        · exact he _
        · split
          · exact he _
          · simp only [St.enterRequest]
            split
            · rfl
            · split
              · rfl
              · exact (Soft.down _ (.setConn _ _)).keeps.2.2.1
      · cases hst
    | startResponse r e =>
      refine .inl (henv rfl ?_)
      simp only [Attacher.step] at hst
      split at hst
      · cases hst
      · split at hst
        · cases hst
          obtain ⟨s', h1, h2, h3, h4, h5, h6, h7⟩ := startCallback_soft s r e
          exact h1.keeps.2.2.1.trans h4
        · cases hst
    | endResponse r e =>
      refine .inl (henv rfl ?_)
      simp only [Attacher.step] at hst
      split at hst
      · cases hst
      · split at hst
        · cases hst
          unfold St.endCallback
          simp only
          split
          · exact (Soft.asyncClose ({ s with endReq := none } : St) _).keeps.2.2.1
          · split
            · exact (Soft.asyncClose ({ s with endReq := none } : St) _).keeps.2.2.1
            · exact (Soft.sendSct _ _).keeps.2.2.1
        · cases hst
    | timer m =>
      refine .inl (henv rfl ?_)
      simp only [Attacher.step] at hst
      split at hst
      · cases hst
        unfold St.reattach
        split
        · exact he _
        · split <;> exact he _
      · cases hst
    | closeEvent =>
      refine .inl (henv rfl ?_)
      simp only [Attacher.step] at hst
      split at hst
      · cases hst
        unfold St.resolveClose
        simp only
        split
        · rfl
        · split <;> rfl
      · cases hst

theorem configured_snoc (as : List Act) (a : Act) : configured (as ++ [a]) = (configured as).or (configured [a]) := by
  induction as with
  | nil => rfl
  | cons b as ih =>
    cases b with
    | start h p m => cases m <;> first | exact ih | rfl
    | _ => exact ih

/-- The host is the configured one once the attacher has been started. -/
theorem host_configured {as s} (h : run init as = some s) :
    (s.mod = .setup ∧ configured as = none) ∨ (s.mod ≠ .setup ∧ configured as = some s.host) := by
  refine run_ind (P := fun as s => (s.mod = .setup ∧ configured as = none) ∨ (s.mod ≠ .setup ∧ configured as = some s.host))
    (.inl ⟨rfl, rfl⟩) ?_ _ _ rfl _ h
  intro as s a t _ ih hst
  rw [configured_snoc]
  rcases step_host hst with ⟨h1, h2⟩ | ⟨h, p, rfl, h2, h3, h4⟩
  · rcases ih with ⟨i1, i2⟩ | ⟨i1, i2⟩
    · left
      refine ⟨h2.2 i1, ?_⟩
      rw [i2]
      cases a with
      | start ho p m =>
        cases m with
        | false => rfl
        | true =>
          cases hst
          have := h2.2 i1
          simp [St.start, i1, enter_mod] at this
      | _ => rfl
    · right
      refine ⟨fun h => i1 (h2.1 h), ?_⟩
      rw [i2, h1]
      rfl
  · rcases ih with ⟨i1, i2⟩ | ⟨i1, i2⟩
    · right
      refine ⟨h4, ?_⟩
      rw [i2, h3]
      rfl
    · exact absurd h2 i1

theorem step_mem {s a t o} (hst : step s a = some t) (ho : o ∈ t.out) : o ∈ s.out ∨ stepObs s a o := (step_obs hst).mem ho

/-- Nothing happens before the start. -/
def Fresh (s : St) : Prop :=
  s.mod = .setup → s.resolving = false ∧ s.conns = [] ∧ s.timer = none ∧ s.state = .dns ∧ s.dtls = none ∧ s.keepAlive = false

theorem Fresh.step {s a t} (h : Fresh s) (hst : step s a = some t) : Fresh t := by
  intro ht
  have hs : s.mod = .setup := by
    rcases step_host hst with ⟨_, h2⟩ | ⟨_, _, _, _, _, h4⟩
    · exact h2.1 ht
    · exact absurd ht h4
  obtain ⟨h1, h2, h3, h4, h5, h6⟩ := h hs
  have hcur := cur_of_dtls h5
  have hcn : ∀ i, s.conn? i = none := by intro i; simp [St.conn?, h2]
  have hans : ∀ c, s.answerable c = false := by
    intro c; unfold St.answerable; rw [hcur]; simp
  have keep : ∀ {t : St}, t.resolving = s.resolving → t.conns = s.conns → t.timer = s.timer → t.state = s.state → t.dtls = s.dtls →
      t.keepAlive = s.keepAlive →
      t.resolving = false ∧ t.conns = [] ∧ t.timer = none ∧ t.state = .dns ∧ t.dtls = none ∧ t.keepAlive = false := by
    intro t a b c d e f
    exact ⟨a.trans h1, b.trans h2, c.trans h3, d.trans h4, e.trans h5, f.trans h6⟩
  cases a with
  | start ho p m =>
    cases hst
    unfold St.start at ht ⊢
    rw [if_neg (by simp [hs])] at ht ⊢
    split
    · exact keep rfl rfl rfl rfl rfl rfl
    · next hm => rw [if_neg hm, enter_mod] at ht; cases ht
  | close cb b => cases hst; unfold St.doClose; rw [if_pos hs]; exact keep rfl rfl rfl rfl rfl rfl
  | stop b =>
    cases hst; unfold St.doClose; rw [if_pos hs]
    exact ⟨h1, h2, h3, h4, h5, rfl⟩
  | restart m => cases hst; unfold St.restart; rw [if_pos (by simp [hs])]; exact keep rfl rfl rfl rfl rfl rfl
  | addToken x m e =>
    cases hst
    unfold St.addToken
    simp only
    split
    · exact keep rfl rfl rfl rfl rfl rfl
    · split
      · next h' => rw [show _ = s.state from rfl, h4] at h'; cases h'
      · exact keep rfl rfl rfl rfl rfl rfl
  | resolved ips e => simp [Attacher.step, h1] at hst
  | connected id e => simp [Attacher.step, hcn] at hst
  | fail id d b => simp [Attacher.step, hcn] at hst
  | send id => simp [Attacher.step, hcn] at hst
  | sent id => simp [Attacher.step, hcn] at hst
  | startResponse r e =>
    simp only [Attacher.step] at hst
    split at hst
    · cases hst
    · simp only [hans, Bool.false_eq_true, or_false] at hst
      split at hst
      · next hr =>
        subst hr
        cases hst
        have h0 : ({ s with startReq := none } : St).storeName .none = { s with startReq := none } := rfl
        unfold St.startCallback St.failed
        rw [h0]
        simp only [asyncClose_none (show ({ s with startReq := none } : St).cur = none from hcur), ite_self]
        exact keep rfl rfl rfl rfl rfl rfl
      · cases hst
  | sctResponse r e =>
    simp only [Attacher.step] at hst
    split at hst
    · cases hst
    · simp only [hans, Bool.false_eq_true, or_false] at hst
      split at hst
      · next hr =>
        subst hr
        cases hst
        unfold St.sctCallback St.failed
        simp only [show ((none : Option Bool) == some true) = false from rfl, Bool.false_eq_true, if_false]
        split
        · simp only [ite_self]
          rw [asyncClose_none (by exact hcur)]
          exact keep rfl rfl rfl rfl rfl rfl
        · exact keep rfl rfl rfl rfl rfl rfl
      · cases hst
  | endResponse r e =>
    simp only [Attacher.step] at hst
    split at hst
    · cases hst
    · simp only [hans, Bool.false_eq_true, or_false] at hst
      split at hst
      · next hr =>
        subst hr
        cases hst
        unfold St.endCallback St.failed
        simp only [show ((none : Option Bool) == some true) = false from rfl, Bool.not_false, if_true]
        rw [asyncClose_none (by exact hcur)]
        exact keep rfl rfl rfl rfl rfl rfl
      · cases hst
  | keepAliveTimeout b => simp [Attacher.step, h6] at hst
  | timer m => simp [Attacher.step, h3] at hst
  | closeEvent =>
    simp only [Attacher.step] at hst
    split at hst
    · cases hst
      unfold St.resolveClose
      simp only
      split
      · exact ⟨h1, h2, rfl, h4, h5, h6⟩
      · split <;> exact ⟨h1, h2, rfl, h4, h5, h6⟩
    · cases hst
  | deferred =>
    simp only [Attacher.step] at hst
    split at hst
    · cases hst; exact keep rfl rfl rfl rfl rfl rfl
    · cases hst

theorem fresh {as s} (h : run init as = some s) : Fresh s := by
  refine run_ind (P := fun _ s => Fresh s) (fun _ => ⟨rfl, rfl, rfl, rfl, rfl, rfl⟩) ?_ _ _ rfl _ h
  intro as s a t _ ih hst
  exact ih.step hst

/-! ### The names which are resolved -/

/-- What an action does to the stored name. -/
theorem step_dns {s a t n} (hst : step s a = some t) (hn : t.dns = some n) :
    s.dns = some n ∨ (∃ p, a = .start n p true ∧ s.mod = .setup) ∨ (s.mod ≠ .setup ∧ n = s.host) ∨
      (∃ m, a = .timer m ∧ s.timer.isSome) ∧ n = s.host ∨ ∃ p e, a = .startResponse (.redirect n p true) e := by
  have he : ∀ s : St, s.enter.dns = s.dns := by intro s; unfold St.enter; cases s.state <;> rfl
  by_cases hs : Soft.act a = true
  · rw [(Soft.step hs hst).keeps.2.2.2.1] at hn
    exact .inl hn
  · cases a with
    | addToken | connected | fail | send | sent | sctResponse | keepAliveTimeout | deferred => exact absurd rfl hs
    | start ho p m =>
      cases hst
      unfold St.start at hn
      split at hn
      · exact .inl hn
      · next hm =>
        split at hn
        · cases hn
        · next hmm =>
          rw [he] at hn
          cases hn
          exact .inr (.inl ⟨p, by have : m = true := by simpa using hmm
                                  rw [this], by simpa using hm⟩)
    | close cb b =>
      cases hst
      unfold St.doClose at hn
      split at hn
      · exact .inl hn
      · left
        split at hn <;> first | exact hn | (rw [he] at hn; exact hn) | (rw [(Soft.asyncClose _ _).keeps.2.2.2.1] at hn; exact hn)
    | stop b =>
      cases hst
      unfold St.doClose at hn
      split at hn
      · exact .inl hn
      · left
        split at hn <;> first | exact hn | (rw [he] at hn; exact hn) | (rw [(Soft.asyncClose _ _).keeps.2.2.2.1] at hn; exact hn)
    | restart m =>
      cases hst
      unfold St.restart at hn
      split at hn
      · exact .inl hn
      · next hm =>
        have hm : s.mod = .closed := by simpa using hm
        simp only at hn
        split at hn
        · unfold St.reattach at hn
          rw [if_neg (by simp)] at hn
          split at hn
          · rw [he] at hn; cases hn
          · rw [he] at hn; cases hn
            exact .inr (.inr (.inl ⟨by rw [hm]; simp, rfl⟩))
        · exact .inl hn
    | resolved ips e =>
      left
      simp only [Attacher.step] at hst
      split at hst
      · cases hst
        unfold St.resolved at hn
        simp only at hn
        split at hn
        · rw [he] at hn; exact hn
        · split at hn
          · rw [he] at hn; exact hn
          · simp only [St.enterRequest] at hn
            split at hn
            · exact hn
            · split at hn
              · exact hn
              · have := (Soft.down _ (.setConn _ _)).keeps.2.2.2.1.symm.trans hn
                exact this
      · cases hst
    | startResponse r e =>
      simp only [Attacher.step] at hst
      split at hst
      · cases hst
      · split at hst
        · cases hst
          obtain ⟨s', h1, h2, h3, h4, h5, h6, h7⟩ := startCallback_soft s r e
          rw [h1.keeps.2.2.2.1, h6] at hn
          unfold St.storeName at hn
          split at hn
          · cases hn; exact .inr (.inr (.inr (.inr ⟨_, _, rfl⟩)))
          · cases hn
          · exact .inl hn
        · cases hst
    | endResponse r e =>
      left
      simp only [Attacher.step] at hst
      split at hst
      · cases hst
      · split at hst
        · cases hst
          unfold St.endCallback at hn
          simp only at hn
          split at hn
          · exact (Soft.asyncClose ({ s with endReq := none } : St) _).keeps.2.2.2.1.symm.trans hn
          · split at hn
            · exact (Soft.asyncClose ({ s with endReq := none } : St) _).keeps.2.2.2.1.symm.trans hn
            · rw [(Soft.sendSct _ _).keeps.2.2.2.1] at hn
              exact hn
        · cases hst
    | timer m =>
      simp only [Attacher.step] at hst
      split at hst
      · next ht =>
        cases hst
        unfold St.reattach at hn
        split at hn
        · rw [he] at hn; exact .inl hn
        · split at hn
          · rw [he] at hn; cases hn
          · rw [he] at hn; cases hn
            exact .inr (.inr (.inr (.inl ⟨⟨m, rfl, ht⟩, rfl⟩)))
      · cases hst
    | closeEvent =>
      left
      simp only [Attacher.step] at hst
      split at hst
      · cases hst
        unfold St.resolveClose at hn
        simp only at hn
        split at hn
        · exact hn
        · split at hn <;> exact hn
      · cases hst

theorem redirectedTo_snoc {as n} (a : Act) (h : redirectedTo as n) : redirectedTo (as ++ [a]) n := by
  obtain ⟨p, e, h⟩ := h
  exact ⟨p, e, List.mem_append_left _ h⟩

theorem configured_mono {as n} (a : Act) (h : configured as = some n) : configured (as ++ [a]) = some n := by
  rw [configured_snoc, h]; rfl

/-- The stored name and the resolved names are the configured one or come from a redirect. -/
theorem names {as s} (h : run init as = some s) :
    (∀ n, s.dns = some n → configured as = some n ∨ redirectedTo as n) ∧
    (∀ n, .resolve (some n) ∈ s.out → configured as = some n ∨ redirectedTo as n) := by
  refine run_ind (P := fun as s => (∀ n, s.dns = some n → configured as = some n ∨ redirectedTo as n) ∧
    (∀ n, .resolve (some n) ∈ s.out → configured as = some n ∨ redirectedTo as n))
    ⟨(by intro n h; cases h), (by intro n h; cases h)⟩ ?_ _ _ rfl _ h
  intro as s a t hr ⟨ih1, ih2⟩ hst
  have hf := fresh hr
  have hc := host_configured hr
  have old : ∀ n, configured as = some n ∨ redirectedTo as n → configured (as ++ [a]) = some n ∨ redirectedTo (as ++ [a]) n :=
    fun n h => h.imp (configured_mono a) (redirectedTo_snoc a)
  have hst' : s.mod ≠ .setup → configured as = some s.host := by
    intro h; rcases hc with ⟨h1, _⟩ | ⟨_, h2⟩
    · exact absurd h1 h
    · exact h2
  have hset : s.mod = .setup → configured as = none := by
    intro h; rcases hc with ⟨_, h2⟩ | ⟨h1, _⟩
    · exact h2
    · exact absurd h h1
  have htm : s.timer.isSome → s.mod ≠ .setup := by
    intro h1 h2
    rw [(hf h2).2.2.1] at h1; cases h1
  have hstart : ∀ n p, a = .start n p true → s.mod = .setup → configured (as ++ [a]) = some n := by
    intro n p h1 h2
    rw [configured_snoc, hset h2, h1]; rfl
  constructor
  · intro n hn
    rcases step_dns hst hn with h | ⟨p, h, h'⟩ | ⟨h, h'⟩ | ⟨⟨m, h, h'⟩, h''⟩ | ⟨p, e, h⟩
    · exact old n (ih1 n h)
    · exact .inl (hstart n p h h')
    · exact old n (.inl (by rw [h']; exact hst' h))
    · exact old n (.inl (by rw [h'']; exact hst' (htm h')))
    · exact .inr ⟨p, e, by rw [h]; simp⟩
  · intro n hn
    rcases step_mem hst hn with h | h
    · exact old n (ih2 n h)
    · have h : resolves s a (some n) := h
      have hdns : some n = s.dns ∧ s.state = .redirect → configured (as ++ [a]) = some n ∨ redirectedTo (as ++ [a]) n :=
        fun h => old n (ih1 n h.1.symm)
      cases a with
      | start ho p m =>
        obtain ⟨h1, h2, h3⟩ := h
        cases h3
        subst h1
        exact .inl (hstart _ p rfl h2)
      | timer m =>
        have h : some n = some s.host := h
        cases h
        simp only [Attacher.step] at hst
        split at hst
        · next ht => exact old _ (.inl (hst' (htm ht)))
        · cases hst
      | restart m =>
        obtain ⟨h1, h2⟩ := h
        cases h2
        exact old _ (.inl (hst' (by rw [h1]; simp)))
      | startResponse r e =>
        cases r with
        | redirect ho p m =>
          cases m with
          | true =>
            have h : some n = some ho := h
            cases h
            exact .inr ⟨p, e, by simp⟩
          | false => cases h.1
        | _ => exact hdns h
      | resolved => cases h
      | _ => exact hdns h

/-- Connections are made with the configured name. -/
theorem connects {as s} (h : run init as = some s) : ∀ i eps n, .connect i eps n ∈ s.out → configured as = some n := by
  refine run_ind (P := fun as s => ∀ i eps n, .connect i eps n ∈ s.out → configured as = some n)
    (by intro _ _ _ h; cases h) ?_ _ _ rfl _ h
  intro as s a t hr ih hst i eps n hn
  rcases step_mem hst hn with h | h
  · exact configured_mono a (ih i eps n h)
  · obtain ⟨h1, ips, e, rfl⟩ := h
    subst h1
    simp only [Attacher.step] at hst
    split at hst
    · next hres =>
      rcases host_configured hr with ⟨h1, _⟩ | ⟨_, h2⟩
      · rw [(fresh hr h1).1] at hres; cases hres
      · exact configured_mono _ h2
    · cases hst

/-! ### How often a redirect is followed -/

/-- How often a name was given to the resolver. -/
def lookups (s : St) : Nat := s.out.countP isResolve

/-- How often this can still happen without a new start, restart or timer. -/
def left (s : St) : Nat := if s.state = .redirect then 5 - s.redirects else 4 - s.redirects

def Desc (s t : St) : Prop := lookups t + left t ≤ lookups s + left s

theorem Desc.refl (s : St) : Desc s s := Nat.le_refl _

theorem Desc.trans {s t u} (h : Desc s t) (g : Desc t u) : Desc s u := Nat.le_trans g h

theorem lookups_append {s t : St} {l} (h : t.out = s.out ++ l) : lookups t = lookups s + l.countP isResolve := by
  unfold lookups; rw [h, List.countP_append]

theorem Desc.of {s t : St} (h1 : t.out = s.out) (h2 : t.redirects = s.redirects) (h3 : t.state = s.state ∨ t.state ≠ .redirect) : Desc s t := by
  unfold Desc left lookups
  rw [h1, h2]
  rcases h3 with h | h
  · rw [h]; exact Nat.le_refl _
  · rw [if_neg h]; split <;> omega

theorem Desc.emit (s : St) {o} (h : isResolve o = false) : Desc s (s.emit o) := by
  unfold Desc
  rw [lookups_append (l := [o]) rfl]
  have : left (s.emit o) = left s := rfl
  simp [h, this]

theorem Desc.enter {s : St} (h : s.state ≠ .dns) : Desc s s.enter := by
  unfold Desc
  rw [lookups_append (enter_out s)]
  have h0 : s.enter.state = s.state ∧ s.enter.redirects = s.redirects := by
    unfold St.enter
    cases h : s.state <;> simp only
    all_goals first | exact ⟨h, rfl⟩ | exact ⟨rfl, rfl⟩ | simp [h, St.notify, St.emit]
  have h1 : left s.enter = left s := by unfold left; rw [h0.1, h0.2]
  simp [h, h1, isResolve]

theorem Desc.down (s : St) (e : Down) : Desc s (s.down e) := by
  unfold Desc
  rw [lookups_append (down_out s e)]
  have hk := (Soft.down e (.refl s)).keeps.2.2.2.2
  have hst := (down_fields s e).1
  have e1 : (if s.state = .attached then [Obs.event .detached] else []).countP isResolve = 0 := by split <;> rfl
  have e2 : (if s.mod ≠ .closed ∧ e = .certificate then [Obs.event .certificate] else []).countP isResolve = 0 := by split <;> rfl
  have e3 : (if downState s e = .dns then [Obs.resolve s.dns] else []).countP isResolve = if downState s e = .dns then 1 else 0 := by
    split <;> rfl
  have e4 : (if s.mod ≠ .closed ∧ e = .closed ∧ s.state = .deniedWait then [] else [Obs.notify (downState s e)]).countP isResolve = 0 := by
    split <;> rfl
  rw [List.countP_append, List.countP_append, List.countP_append, e1, e2, e3, e4]
  unfold left
  rw [hk, hst]
  have hc := downState_cases s e
  have hnr : downState s e ≠ .redirect := by grind
  rw [if_neg hnr]
  by_cases hd : downState s e = .dns
  · have hr : s.state = .redirect := by grind
    have h5 : ¬ s.redirects ≥ 5 := by
      intro h5
      have hm : s.mod ≠ .closed := by grind
      have he : e = .closed := by grind
      subst he
      unfold downState at hd
      rw [if_neg hm, hr] at hd
      simp [h5] at hd
    rw [if_pos hd, if_pos hr]
    omega
  · rw [if_neg hd]
    split <;> omega

theorem Desc.soft {s t} (h : Soft s t) : Desc s t := by
  induction h with
  | refl => exact .refl _
  | silent _ hs ih => exact ih.trans (.of hs.out hs.redirects (.inl hs.state))
  | emit o _ ho ih =>
    refine ih.trans (.emit _ ?_)
    cases o <;> first | rfl | cases ho
  | down e _ ih => exact ih.trans (.down _ _)

theorem Desc.doClose (s : St) (b) : Desc s (s.doClose b) := by
  unfold St.doClose
  split
  · exact .of rfl rfl (.inl rfl)
  · split
    · exact Desc.trans (t := { s with mod := .closed, timer := none, state := .closed }) (.of rfl rfl (.inr (by simp))) (.enter (by simp))
    · exact Desc.trans (t := { s with mod := .closed, timer := none, state := .closed }) (.of rfl rfl (.inr (by simp))) (.enter (by simp))
    · exact .of rfl rfl (.inl rfl)
    · exact Desc.trans (t := { s with mod := .closed }) (.of rfl rfl (.inl rfl)) (.soft (.asyncClose _ _))
    · exact Desc.trans (t := { s with mod := .closed }) (.of rfl rfl (.inl rfl)) (.soft (.asyncClose _ _))
    · exact .of rfl rfl (.inl rfl)
    · exact .of rfl rfl (.inl rfl)

theorem Desc.step {s a t} (hb : begins a = false) (hst : step s a = some t) : Desc s t := by
  by_cases hs : Soft.act a = true
  · exact .soft (Soft.step hs hst)
  · cases a with
    | addToken | connected | fail | send | sent | sctResponse | keepAliveTimeout | deferred => exact absurd rfl hs
    | start | restart | timer => cases hb
    | close cb b => cases hst; exact Desc.trans (t := { s with closedCb := some cb }) (.of rfl rfl (.inl rfl)) (.doClose _ _)
    | stop b => cases hst; exact Desc.trans (t := { s with keepAlive := false }) (.of rfl rfl (.inl rfl)) (.doClose _ _)
    | resolved ips e =>
      simp only [Attacher.step] at hst
      split at hst
      · cases hst
        unfold St.resolved
        simp only
        split
        · exact Desc.trans (t := { s with resolving := false, state := .closed }) (.of rfl rfl (.inr (by simp))) (.enter (by simp))
        · cases ips with
          | none =>
            exact Desc.trans (t := { s with resolving := false, state := .retryWait }) (.of rfl rfl (.inr (by simp))) (.enter (by simp))
          | some ips =>
            simp only [St.enterRequest]
            split
            · exact .of rfl rfl (.inr (by simp))
            · generalize hs1 : ({ s with
                resolving := false, state := .request, endpoints := (ips.take 4).map (fun ip => (ip, s.port))
                conns := s.conns ++ [{ id := s.nextId, sending := e.sending }], nextId := s.nextId + 1, dtls := some s.nextId } : St).emit
                  (.connect s.nextId ((ips.take 4).map (fun ip => (ip, s.port))) s.host) = s1
              have h1 : Desc s s1 := by
                subst hs1
                refine Desc.trans ?_ (.emit _ rfl)
                exact .of rfl rfl (.inr (by simp))
              split
              · exact h1.trans (.emit _ rfl)
              · exact (h1.trans (.soft (.down _ (.setConn _ _)))).trans (.emit _ rfl)
      · cases hst
    | startResponse r e =>
      simp only [Attacher.step] at hst
      split at hst
      · cases hst
      · split at hst
        · cases hst
          obtain ⟨s', h1, h2, h3, h4, h5, h6, h7⟩ := startCallback_soft s r e
          refine Desc.trans ?_ (.soft h1)
          rcases h7 with ⟨h7, h8⟩ | ⟨ho, p, hr, hm, hs', hr'⟩
          · exact .of h2 h8 (.inl h7)
          · unfold Desc left lookups
            rw [h2, hs', hr']
            simp only [if_true]
            split <;> omega
        · cases hst
    | endResponse r e =>
      simp only [Attacher.step] at hst
      split at hst
      · cases hst
      · split at hst
        · cases hst
          have h0 : Desc s { s with endReq := none } := .of rfl rfl (.inl rfl)
          unfold St.endCallback
          simp only
          split
          · exact h0.trans (.soft (.asyncClose _ _))
          · split
            · exact h0.trans (.soft (.asyncClose _ _))
            · refine Desc.trans ?_ (.soft (.sendSct _ _))
              refine Desc.trans ?_ (.emit _ rfl)
              exact Desc.trans (t := { s with endReq := none, keepAlive := true, state := .attached }) (.of rfl rfl (.inr (by simp))) (.enter (by simp))
        · cases hst
    | closeEvent =>
      simp only [Attacher.step] at hst
      split at hst
      · cases hst
        unfold St.resolveClose
        simp only
        split
        · exact .of rfl rfl (.inl rfl)
        · next cb _ =>
          have h1 : Desc s (({ s with closeEv := false, timer := none, closedCb := none } : St).emit (.closedCb cb)) :=
            Desc.trans (t := { s with closeEv := false, timer := none, closedCb := none }) (.of rfl rfl (.inl rfl)) (.emit _ rfl)
          split
          · exact h1.trans (.emit _ rfl)
          · exact h1
      · cases hst

theorem Desc.run {s as t} (hb : ∀ a ∈ as, begins a = false) (hr : run s as = some t) : Desc s t := by
  induction as generalizing s with
  | nil => cases hr; exact .refl _
  | cons a as ih =>
    simp only [Attacher.run] at hr
    cases hs : Attacher.step s a with
    | none => rw [hs] at hr; cases hr
    | some u =>
      rw [hs] at hr
      exact (Desc.step (hb a (List.mem_cons_self ..)) hs).trans (ih (fun x hx => hb x (List.mem_cons_of_mem _ hx)) hr)

theorem left_le (s : St) : left s ≤ 5 := by unfold left; split <;> omega

/-! ### A name is never missing -/

/-- While a redirect is followed, there is a name. -/
def Named (s : St) : Prop := s.state = .redirect → s.dns.isSome

theorem Named.soft {s t} (h : Named s) (hs : Soft s t) : Named t := by
  intro ht
  rw [hs.keeps.2.2.2.1]
  rcases hs.states with e | e
  · exact h (e ▸ ht)
  · unfold Idle Waits at e; rw [ht] at e; simp at e

theorem Named.of {s : St} (h : s.state ≠ .redirect) : Named s := fun h' => absurd h' h

theorem Named.doClose {s b} (h : Named s) : Named (s.doClose b) := by
  unfold St.doClose
  split
  · exact h
  · split
    · exact .of (by simp [St.enter, St.notify, St.emit])
    · exact .of (by simp [St.enter, St.notify, St.emit])
    · exact h
    · exact Named.soft (s := { s with mod := .closed }) h (.asyncClose _ _)
    · exact Named.soft (s := { s with mod := .closed }) h (.asyncClose _ _)
    · exact h
    · exact h

theorem Named.step {s a t} (h : Named s) (hi : Inv s) (hg : Regular s a) (hst : step s a = some t) : Named t := by
  by_cases hs : Soft.act a = true
  · exact h.soft (Soft.step hs hst)
  · cases a with
    | addToken | connected | fail | send | sent | sctResponse | keepAliveTimeout | deferred => exact absurd rfl hs
    | start ho p m =>
      cases hst
      unfold St.start
      split
      · exact h
      · next hm =>
        split
        · have hm : s.mod = .setup := by simpa using hm
          exact .of (by rw [show _ = s.state from rfl, hi.sched.setup hm]; simp)
        · exact .of (by simp [St.enter, St.notify, St.emit, St.startResolve])
    | close cb b => cases hst; exact Named.doClose (s := { s with closedCb := some cb }) h
    | stop b => cases hst; exact Named.doClose (s := { s with keepAlive := false }) h
    | restart m =>
      cases hst
      unfold St.restart
      split
      · exact h
      · next hm =>
        have hm : s.mod = .closed := by simpa using hm
        have hsc := (hg hm).1
        simp only [hsc, if_true]
        unfold St.reattach
        rw [if_neg (by simp)]
        split <;> exact .of (by simp [St.enter, St.notify, St.emit, St.startResolve])
    | resolved ips e =>
      simp only [Attacher.step] at hst
      split at hst
      · cases hst
        unfold St.resolved
        simp only
        split
        · exact .of (by simp [St.enter, St.notify, St.emit])
        · cases ips with
          | none => exact .of (by simp [St.enter, St.notify, St.emit])
          | some ips =>
            simp only [St.enterRequest]
            split
            · exact .of (by simp)
            · split
              · exact .of (by simp [St.notify, St.emit])
              · refine .of ?_
                simp only [St.notify, St.emit]
                rw [(down_fields _ _).1]
                have := downState_cases
                grind
      · cases hst
    | startResponse r e =>
      simp only [Attacher.step] at hst
      split at hst
      · cases hst
      · next conn hq =>
        split at hst
        · next ha =>
          cases hst
          obtain ⟨s', h1, h2, h3, h4, h5, h6, h7⟩ := startCallback_soft s r e
          refine Named.soft ?_ h1
          intro hs'
          rw [h6]
          rcases h7 with ⟨h7, h8⟩ | ⟨ho, p, hr, hm, _, _⟩
          · unfold St.storeName
            split
            · rfl
            · obtain ⟨c, hc, hp, hcc⟩ := answerable_cur (ha.resolve_left (by intro h; cases h))
              subst hcc
              rw [h7] at hs'
              rcases (hi.link c hc).2.2.2 hp with ⟨a, _⟩ | ⟨a, _, _⟩
              · rw [a] at hs'; cases hs'
              · rw [a] at hs'; cases hs'
            · exact h (h7 ▸ hs')
          · subst hr; rfl
        · cases hst
    | endResponse r e =>
      simp only [Attacher.step] at hst
      split at hst
      · cases hst
      · split at hst
        · cases hst
          unfold St.endCallback
          simp only
          split
          · exact Named.soft (s := { s with endReq := none }) h (.asyncClose _ _)
          · split
            · exact Named.soft (s := { s with endReq := none }) h (.asyncClose _ _)
            · refine Named.soft ?_ (.sendSct _ _)
              exact .of (by simp [St.enter, St.notify, St.emit])
        · cases hst
    | timer m =>
      simp only [Attacher.step] at hst
      split at hst
      · cases hst
        unfold St.reattach
        split
        · exact .of (by simp [St.enter, St.notify, St.emit])
        · split <;> exact .of (by simp [St.enter, St.notify, St.emit, St.startResolve])
      · cases hst
    | closeEvent =>
      simp only [Attacher.step] at hst
      split at hst
      · cases hst
        unfold St.resolveClose
        simp only
        split
        · exact h
        · split <;> exact h
      · cases hst

/-- In a regular execution the resolver is never given a null pointer. -/
theorem never_null {s as t} (h : Inv s) (hn : Named s) (ho : .resolve none ∉ s.out) (hr : Run s as t) : .resolve none ∉ t.out := by
  induction hr with
  | nil => exact ho
  | @cons s t u a as hg hst _ ih =>
    refine ih (h.step hg hst) (hn.step h hg hst) ?_
    intro hm
    rcases step_mem hst hm with h' | h'
    · exact ho h'
    · have h' : resolves s a none := h'
      have bad : (none : Option String) = s.dns ∧ s.state = .redirect → False := by
        rintro ⟨h1, h2⟩
        have := hn h2
        rw [← h1] at this; cases this
      cases a with
      | start => cases h'.2.2
      | timer => cases h'
      | restart => cases h'.2
      | startResponse r e =>
        cases r with
        | redirect ho p m =>
          cases m with
          | true => cases h'
          | false =>
            simp only [Attacher.step] at hst
            split at hst
            · cases hst
            · split at hst
              · next ha =>
                obtain ⟨c, hc, hp, hcc⟩ := answerable_cur (ha.resolve_left (by intro h; cases h))
                have h2 := h'.2
                rcases (h.link c hc).2.2.2 hp with ⟨a, _⟩ | ⟨a, _, _⟩
                · rw [a] at h2; cases h2
                · rw [a] at h2; cases h2
              · cases hst
        | _ => exact bad h'
      | resolved => exact h'
      | _ => exact bad h'

end Verif.Core.Attacher
