import Verif.Event.LibeventSpec

/-! # The event queue on libevent: lemmas -/

namespace Verif.Event.Libevent
open Spec

theorem timeval_ms (ms : Nat) : timeval ms / 1000 = ms := by unfold timeval; omega

def one {α : Type} : Option α → Nat
  | none => 0
  | some _ => 1

def wait : Loop → Nat
  | .waiting => 1
  | .idle => 0
  | .running => 0

theorem one_none {α : Type} : one (none : Option α) = 0 := rfl
theorem one_some {α : Type} (a : α) : one (some a) = 1 := rfl
theorem wait_waiting : wait .waiting = 1 := rfl

theorem one_le {α : Type} (o : Option α) : one o ≤ 1 := by cases o <;> simp [one]

theorem one_ne {α : Type} {o : Option α} (h : o ≠ none) : one o = 1 := by
  cases o with
  | none => exact absurd rfl h
  | some _ => rfl

def units (s : St) : Nat := one s.active + one s.timer + wait s.loop

def Pending (s : St) : Prop := s.active ≠ none ∨ s.timer ≠ none ∨ s.loop = .waiting

structure Inv (s : St) : Prop where
  mutex : s.app ≠ .away → s.loop ≠ .running
  deleting : s.app = .deleting → s.loop = .waiting ∧ s.active = none ∧ s.timer = none
  due : s.active ≠ none ∨ s.loop = .waiting → ∃ d ∈ due s.log, d ≤ s.now
  timer : ∀ d, s.timer = some d → d ∈ Spec.due s.log
  count : runs s.log + units s ≤ requests s.log
  owed : owed s.log = true → Pending s

theorem Inv.init : Inv init := by
  refine ⟨by decide, by decide, ?_, ?_, by decide, fun h => nomatch h⟩
  · intro h; rcases h with h | h <;> simp [Libevent.init] at h
  · intro d h; cases h

theorem eventActive_ne (s : St) : eventActive s ≠ none := by
  unfold eventActive; split <;> simp

theorem runs_ran (l : List Out) : runs (.ran :: l) = runs l + 1 := by simp [runs]
theorem runs_post (n : Nat) (l : List Out) : runs (.post n :: l) = runs l := by simp [runs]
theorem runs_timed (n m : Nat) (l : List Out) : runs (.timed n m :: l) = runs l := by simp [runs]
theorem runs_refused (l : List Out) : runs (.refused :: l) = runs l := by simp [runs]
theorem runs_cancelled (l : List Out) : runs (.cancelled :: l) = runs l := by simp [runs]

theorem Inv.posts {s : St} (h : Inv s) (ha : s.app ≠ .deleting) :
    Inv { s with posted := true, active := eventActive s, log := .post s.now :: s.log } := by
  refine ⟨h.mutex, fun hd => absurd hd ha, fun _ => ⟨s.now, List.mem_cons_self, Nat.le_refl _⟩,
    fun d hd => List.mem_cons_of_mem _ (h.timer d hd), ?_, fun _ => .inl (eventActive_ne s)⟩
  have hc := h.count
  have h1 := one_le (eventActive s)
  simp only [units, requests, runs_post] at hc ⊢
  cases ha : s.active <;> simp only [eventActive, ha, one] at hc ⊢ <;> omega

theorem may_app {s : St} (h : Inv s) {w : Who} (hm : may s w = true) : s.app ≠ .deleting ∧ s.loop = .running ∨ s.app = .holding := by
  cases w with
  | app => right; simpa [may] using hm
  | callback =>
    left
    have hr : s.loop = .running := by simpa [may] using hm
    exact ⟨fun hd => (h.mutex (by rw [hd]; decide)) hr, hr⟩

theorem may_ne {s : St} (h : Inv s) {w : Who} (hm : may s w = true) : s.app ≠ .deleting := by
  rcases may_app h hm with ⟨h1, _⟩ | h1
  · exact h1
  · rw [h1]; decide

theorem Inv.step {s t : St} {a : Act} (h : Inv s) (hs : step s a = some t) : Inv t := by
  cases a with
  | lock =>
    simp only [Libevent.step] at hs
    split at hs
    case isFalse => cases hs
    case isTrue hc =>
      cases hs
      exact ⟨fun _ => hc.2, (fun hd => by cases hd), h.due, h.timer, h.count, h.owed⟩
  | unlock =>
    simp only [Libevent.step] at hs
    split at hs
    case isFalse => cases hs
    case isTrue hc =>
      cases hs
      exact ⟨fun hd => absurd rfl hd, (fun hd => by cases hd), h.due, h.timer, h.count, h.owed⟩
  | post w =>
    simp only [Libevent.step] at hs
    split at hs
    case isFalse => cases hs
    case isTrue hc => cases hs; exact h.posts (may_ne h hc)
  | postMaybe w =>
    simp only [Libevent.step] at hs
    split at hs
    case isFalse => cases hs
    case isTrue hc =>
      cases hs
      unfold postMaybe
      split
      · exact ⟨h.mutex, h.deleting, h.due, h.timer, (by rw [runs_refused]; exact h.count), h.owed⟩
      · exact h.posts (may_ne h hc)
  | postTimed w ms =>
    simp only [Libevent.step] at hs
    split at hs
    case isFalse => cases hs
    case isTrue hc =>
      cases hs
      refine ⟨h.mutex, fun hd => absurd hd (may_ne (s := s) h hc), ?_, ?_, ?_, fun _ => .inr (.inl (by simp [postTimed]))⟩
      · intro hp
        have hp' : s.active ≠ none ∨ s.loop = .waiting := by
          rcases hp with hp | hp
          · left
            intro hn
            simp [postTimed, hn] at hp
          · exact .inr hp
        obtain ⟨d, hd, hle⟩ := h.due hp'
        exact ⟨d, List.mem_cons_of_mem _ hd, hle⟩
      · intro d hd
        simp only [postTimed, timeval_ms, Option.some.injEq] at hd
        rw [← hd]
        exact List.mem_cons_self
      · have hcount := h.count
        have h1 : one (if s.active = some true then none else s.active) ≤ one s.active := by split <;> simp [one]
        have h2 := one_le s.timer
        simp only [units, postTimed, requests, runs_timed, one_some] at hcount ⊢
        omega
  | cancel w =>
    simp only [Libevent.step] at hs
    split at hs
    case isFalse => cases hs
    case isTrue hc =>
      cases hs
      have hcount := h.count
      have hu : units { s with active := none, timer := none } ≤ units s := by
        simp only [units, one]; omega
      unfold cancel
      split
      case isTrue hw =>
        refine ⟨(fun _ => by show s.loop ≠ _; rw [hw.2]; decide), fun _ => ⟨hw.2, rfl, rfl⟩, fun _ => h.due (.inr hw.2), (fun d hd => by cases hd), ?_,
          fun _ => .inr (.inr hw.2)⟩
        simp only [units] at hu hcount ⊢
        omega
      case isFalse hw =>
        have hl : s.loop ≠ .waiting := by
          rcases may_app h hc with ⟨_, h1⟩ | h1
          · rw [h1]; decide
          · intro hwait
            cases w with
            | app => exact hw ⟨rfl, hwait⟩
            | callback => simp [may, hwait] at hc
        refine ⟨h.mutex, fun hd => absurd hd (may_ne (s := s) h hc), ?_, (fun d hd => by cases hd), ?_, fun ho => by cases ho⟩
        · intro hp
          rcases hp with hp | hp
          · exact absurd rfl hp
          · exact absurd hp hl
        · simp only [units, requests, runs_cancelled] at hu hcount ⊢
          omega
  | deleted =>
    simp only [Libevent.step] at hs
    split at hs
    case isFalse => cases hs
    case isTrue hc =>
      have := (h.deleting hc.1).1
      rw [hc.2] at this
      cases this
  | tick ms =>
    simp only [Libevent.step, Option.some.injEq] at hs
    subst hs
    refine ⟨h.mutex, h.deleting, ?_, h.timer, h.count, h.owed⟩
    intro hp
    obtain ⟨d, hd, hle⟩ := h.due hp
    exact ⟨d, hd, Nat.le_trans hle (Nat.le_add_right _ _)⟩
  | expire =>
    simp only [Libevent.step] at hs
    split at hs
    · cases hs
    · rename_i d hd
      split at hs
      case isFalse => cases hs
      case isTrue hle =>
        cases hs
        refine ⟨h.mutex, ?_, fun _ => ⟨d, h.timer d hd, hle⟩, (fun d hd => by cases hd), ?_, fun _ => .inl (by simp)⟩
        · intro hdel
          have := (h.deleting hdel).2.2
          rw [hd] at this
          cases this
        · have hcount := h.count
          have h1 := one_le s.active
          simp only [units, hd, one] at hcount ⊢
          omega
  | take =>
    simp only [Libevent.step] at hs
    split at hs
    case isFalse => cases hs
    case isTrue hc =>
      cases hs
      refine ⟨(fun _ h => nomatch h), fun _ => ⟨rfl, rfl, rfl⟩, fun _ => h.due (.inl hc.2), (fun d hd => by cases hd), ?_,
        fun _ => .inr (.inr rfl)⟩
      have hcount := h.count
      have h1 := one_ne hc.2
      simp only [units, one_none, wait_waiting] at hcount ⊢
      omega
  | enter =>
    simp only [Libevent.step] at hs
    split at hs
    case isFalse => cases hs
    case isTrue hc =>
      cases hs
      refine ⟨fun ha => absurd hc.2 ha, (fun hd => by rw [hc.2] at hd; cases hd), fun _ => h.due (.inr hc.1), h.timer, ?_,
        fun ho => by cases ho⟩
      have hcount := h.count
      simp only [units, requests, runs_ran, hc.1, wait] at hcount ⊢
      omega
  | leave =>
    simp only [Libevent.step] at hs
    split at hs
    case isFalse => cases hs
    case isTrue hc =>
      cases hs
      refine ⟨(fun _ h => nomatch h), ?_, ?_, h.timer, ?_, ?_⟩
      · intro hd
        have := (h.deleting hd).1
        rw [hc] at this
        cases this
      · intro hp
        rcases hp with hp | hp
        · exact h.due (.inl hp)
        · cases hp
      · have hcount := h.count
        simp only [units, hc, wait] at hcount ⊢
        omega
      · intro ho
        rcases h.owed ho with hp | hp | hp
        · exact .inl hp
        · exact .inr (.inl hp)
        · rw [hc] at hp; cases hp

theorem Inv.run {s t : St} {as : List Act} (h : Inv s) (hr : run s as = some t) : Inv t := by
  induction as generalizing s with
  | nil => cases hr; exact h
  | cons a as ih =>
    unfold Libevent.run at hr
    split at hr
    · cases hr
    · rename_i hs; exact ih (h.step hs) hr

/-- Without cancellations. -/
structure Kept (s : St) : Prop where
  app : s.app ≠ .deleting
  posted : s.posted = true → Pending s
  owed : owedMaybe s.log = true → Pending s

theorem Kept.step {s t : St} {a : Act} (h : Kept s) (ha : ∀ w, a ≠ .cancel w) (hs : step s a = some t) : Kept t := by
  have keep : ∀ {u : St}, (s.active ≠ none → u.active ≠ none ∨ u.timer ≠ none ∨ u.loop = .waiting) →
      (s.timer ≠ none → Pending u) → (s.loop = .waiting → u.loop = .waiting) → Pending s → Pending u := by
    intro u h1 h2 h3 hp
    rcases hp with hp | hp | hp
    · exact h1 hp
    · exact h2 hp
    · exact .inr (.inr (h3 hp))
  cases a with
  | cancel w => exact absurd rfl (ha w)
  | lock =>
    simp only [Libevent.step] at hs
    split at hs <;> cases hs
    exact ⟨(fun h => nomatch h), h.posted, h.owed⟩
  | unlock =>
    simp only [Libevent.step] at hs
    split at hs <;> cases hs
    exact ⟨(fun h => nomatch h), h.posted, h.owed⟩
  | post w =>
    simp only [Libevent.step] at hs
    split at hs <;> cases hs
    exact ⟨h.app, fun _ => .inl (eventActive_ne s), fun _ => .inl (eventActive_ne s)⟩
  | postMaybe w =>
    simp only [Libevent.step] at hs
    split at hs <;> cases hs
    unfold postMaybe
    split
    case isTrue hp => exact ⟨h.app, h.posted, fun _ => h.posted hp⟩
    case isFalse => exact ⟨h.app, fun _ => .inl (eventActive_ne s), fun _ => .inl (eventActive_ne s)⟩
  | postTimed w ms =>
    simp only [Libevent.step] at hs
    split at hs <;> cases hs
    exact ⟨h.app, fun _ => .inr (.inl (by simp [postTimed])), fun _ => .inr (.inl (by simp [postTimed]))⟩
  | deleted =>
    simp only [Libevent.step] at hs
    split at hs
    case isFalse => cases hs
    case isTrue hc => exact absurd hc.1 h.app
  | tick ms =>
    simp only [Libevent.step, Option.some.injEq] at hs
    subst hs
    exact ⟨h.app, h.posted, h.owed⟩
  | expire =>
    simp only [Libevent.step] at hs
    split at hs
    · cases hs
    · split at hs <;> cases hs
      exact ⟨h.app, fun _ => .inl (by simp), fun _ => .inl (by simp)⟩
  | take =>
    simp only [Libevent.step] at hs
    split at hs <;> cases hs
    exact ⟨h.app, fun _ => .inr (.inr rfl), fun _ => .inr (.inr rfl)⟩
  | enter =>
    simp only [Libevent.step] at hs
    split at hs <;> cases hs
    exact ⟨h.app, (fun hp => by cases hp), fun ho => by cases ho⟩
  | leave =>
    simp only [Libevent.step] at hs
    split at hs
    case isFalse => cases hs
    case isTrue hc =>
      cases hs
      have hk : Pending s → Pending { s with loop := .idle } :=
        keep (fun hp => .inl hp) (fun hp => .inr (.inl hp)) (fun hp => by rw [hc] at hp; cases hp)
      exact ⟨h.app, fun hp => hk (h.posted hp), fun ho => hk (h.owed ho)⟩

theorem Kept.run {s t : St} {as : List Act} (h : Kept s) (ha : ∀ w, .cancel w ∉ as) (hr : run s as = some t) : Kept t := by
  induction as generalizing s with
  | nil => cases hr; exact h
  | cons a as ih =>
    unfold Libevent.run at hr
    split at hr
    · cases hr
    · rename_i hs
      exact ih (h.step (fun w he => ha w (he ▸ List.mem_cons_self)) hs) (fun w hm => ha w (List.mem_cons_of_mem _ hm)) hr

/-- An event which is marked as posted and is nowhere. -/
structure Lost (s : St) : Prop where
  posted : s.posted = true
  active : s.active = none
  timer : s.timer = none
  loop : s.loop = .idle
  runs : runs s.log = 0
  requests : requests s.log = 1
  app : s.app ≠ .deleting

theorem Lost.step {s t : St} {a : Act} (h : Lost s) (hp : ∀ w, a ≠ .post w) (ht : ∀ w ms, a ≠ .postTimed w ms)
    (hs : step s a = some t) : Lost t := by
  obtain ⟨h1, h2, h3, h4, h5, h6, h7⟩ := h
  cases a with
  | post w => exact absurd rfl (hp w)
  | postTimed w ms => exact absurd rfl (ht w ms)
  | lock | unlock =>
    simp only [Libevent.step] at hs
    split at hs <;> cases hs
    exact ⟨h1, h2, h3, h4, h5, h6, fun h => nomatch h⟩
  | postMaybe w =>
    simp only [Libevent.step] at hs
    split at hs <;> cases hs
    simp only [postMaybe, h1, if_true]
    exact ⟨rfl, h2, h3, h4, (by rw [runs_refused]; exact h5), h6, h7⟩
  | cancel w =>
    simp only [Libevent.step] at hs
    split at hs <;> cases hs
    have : ¬ (w = .app ∧ s.loop = .waiting) := by rw [h4]; intro h; cases h.2
    simp only [cancel, this, if_false]
    exact ⟨h1, rfl, rfl, h4, (by rw [runs_cancelled]; exact h5), h6, h7⟩
  | deleted => simp [Libevent.step, h7] at hs
  | tick ms =>
    simp only [Libevent.step, Option.some.injEq] at hs
    subst hs
    exact ⟨h1, h2, h3, h4, h5, h6, h7⟩
  | expire => simp [Libevent.step, h3] at hs
  | take => simp [Libevent.step, h2] at hs
  | enter => simp [Libevent.step, h4] at hs
  | leave => simp [Libevent.step, h4] at hs

theorem Lost.run {s t : St} {as : List Act} (h : Lost s) (hp : ∀ w, .post w ∉ as) (ht : ∀ w ms, .postTimed w ms ∉ as)
    (hr : run s as = some t) : Lost t := by
  induction as generalizing s with
  | nil => cases hr; exact h
  | cons a as ih =>
    unfold Libevent.run at hr
    split at hr
    · cases hr
    · rename_i hs
      exact ih (h.step (fun w he => hp w (he ▸ List.mem_cons_self)) (fun w ms he => ht w ms (he ▸ List.mem_cons_self)) hs)
        (fun w hm => hp w (List.mem_cons_of_mem _ hm)) (fun w ms hm => ht w ms (List.mem_cons_of_mem _ hm)) hr

/-- One thread waits for the handler, which waits for the mutex. -/
structure Hung (s : St) (l : List Out) : Prop where
  app : s.app = .deleting
  loop : s.loop = .waiting
  log : s.log = l
  active : s.active = none
  timer : s.timer = none

theorem Hung.step {s t : St} {l : List Out} {a : Act} (h : Hung s l) (hs : step s a = some t) : Hung t l := by
  obtain ⟨h1, h2, h3, h4, h5⟩ := h
  have hm : ∀ w, may s w = false := by intro w; cases w <;> simp [may, h1, h2]
  cases a with
  | tick ms =>
    simp only [Libevent.step, Option.some.injEq] at hs
    subst hs
    exact ⟨h1, h2, h3, h4, h5⟩
  | _ => simp [Libevent.step, h1, h2, h4, h5, hm] at hs

theorem Hung.run {s t : St} {l : List Out} {as : List Act} (h : Hung s l) (hr : run s as = some t) : Hung t l := by
  induction as generalizing s with
  | nil => cases hr; exact h
  | cons a as ih =>
    unfold Libevent.run at hr
    split at hr
    · cases hr
    · rename_i hs; exact ih (h.step hs) hr

theorem willRun_cons {s t : St} {a : Act} (he : env a = true) (hs : Libevent.step s a = some t) (hl : runs t.log = runs s.log)
    (h : WillRun t) : WillRun s := by
  obtain ⟨as, u, h1, h2, h3⟩ := h
  refine ⟨a :: as, u, ?_, ?_, by rw [h3, hl]⟩
  · intro b hb
    rcases List.mem_cons.1 hb with rfl | hb
    · exact he
    · exact h1 b hb
  · simp [Libevent.run, hs, h2]

theorem willRun_waiting {s : St} (ha : s.app = .away) (hl : s.loop = .waiting) : WillRun s := by
  refine ⟨[.enter], { s with loop := .running, posted := false, log := .ran :: s.log }, by decide, ?_, runs_ran _⟩
  simp [Libevent.run, Libevent.step, ha, hl]

theorem willRun_active {s : St} (ha : s.app = .away) (hl : s.loop = .idle) (hp : s.active ≠ none) : WillRun s := by
  refine willRun_cons (a := .take) (t := { s with active := none, timer := none, loop := .waiting }) rfl ?_ rfl (willRun_waiting ha rfl)
  simp [Libevent.step, hl, hp]

theorem willRun_timer {s : St} (ha : s.app = .away) (hl : s.loop = .idle) {d : Nat} (hp : s.timer = some d) : WillRun s := by
  refine willRun_cons (a := .tick d) (t := { s with now := s.now + d }) rfl rfl rfl ?_
  refine willRun_cons (a := .expire) (t := { s with now := s.now + d, timer := none, active := some true }) rfl ?_ rfl
    (willRun_active ha hl (by simp))
  simp [Libevent.step, hp]

theorem willRun_idle {s : St} (ha : s.app = .away) (hl : s.loop ≠ .running) (hp : Pending s) : WillRun s := by
  by_cases hw : s.loop = .waiting
  · exact willRun_waiting ha hw
  · have hi : s.loop = .idle := by cases h : s.loop <;> simp_all
    rcases hp with hp | hp | hp
    · exact willRun_active ha hi hp
    · obtain ⟨d, hd⟩ := Option.ne_none_iff_exists'.1 hp
      exact willRun_timer ha hi hd
    · exact absurd hp hw

theorem willRun_pending {s : St} (hi : Inv s) (ha : s.app ≠ .deleting) (hp : Pending s) : WillRun s := by
  cases happ : s.app with
  | deleting => exact absurd happ ha
  | holding =>
    have hl := hi.mutex (by rw [happ]; decide)
    refine willRun_cons (a := .unlock) (t := { s with app := .away }) rfl ?_ rfl (willRun_idle rfl hl hp)
    simp [Libevent.step, happ]
  | away =>
    by_cases hl : s.loop = .running
    · refine willRun_cons (a := .leave) (t := { s with loop := .idle }) rfl ?_ rfl (willRun_idle happ (by simp) ?_)
      · simp [Libevent.step, hl]
      · rcases hp with hp | hp | hp
        · exact .inl hp
        · exact .inr (.inl hp)
        · rw [hl] at hp; cases hp
    · exact willRun_idle happ hl hp

def Ready (s : St) : Prop := s.active ≠ none ∨ s.loop = .waiting

theorem now_cons {s t : St} {a : Act} (he : env a = true ∧ clock a = false) (hs : Libevent.step s a = some t)
    (hl : runs t.log = runs s.log) (h : WillRunNow t) : WillRunNow s := by
  obtain ⟨as, u, h1, h2, h3⟩ := h
  refine ⟨a :: as, u, ?_, ?_, by rw [h3, hl]⟩
  · intro b hb
    rcases List.mem_cons.1 hb with rfl | hb
    · exact he
    · exact h1 b hb
  · simp [Libevent.run, hs, h2]

theorem now_waiting {s : St} (ha : s.app = .away) (hl : s.loop = .waiting) : WillRunNow s := by
  refine ⟨[.enter], { s with loop := .running, posted := false, log := .ran :: s.log }, by decide, ?_, runs_ran _⟩
  simp [Libevent.run, Libevent.step, ha, hl]

theorem now_idle {s : St} (ha : s.app = .away) (hl : s.loop ≠ .running) (hp : Ready s) : WillRunNow s := by
  by_cases hw : s.loop = .waiting
  · exact now_waiting ha hw
  · have hi : s.loop = .idle := by cases h : s.loop <;> simp_all
    rcases hp with hp | hp
    · refine now_cons (a := .take) (t := { s with active := none, timer := none, loop := .waiting }) ⟨rfl, rfl⟩ ?_ rfl (now_waiting ha rfl)
      simp [Libevent.step, hi, hp]
    · exact absurd hp hw

theorem now_ready {s : St} (hi : Inv s) (ha : s.app ≠ .deleting) (hp : Ready s) : WillRunNow s := by
  cases happ : s.app with
  | deleting => exact absurd happ ha
  | holding =>
    have hl := hi.mutex (by rw [happ]; decide)
    refine now_cons (a := .unlock) (t := { s with app := .away }) ⟨rfl, rfl⟩ ?_ rfl (now_idle rfl hl hp)
    simp [Libevent.step, happ]
  | away =>
    by_cases hl : s.loop = .running
    · refine now_cons (a := .leave) (t := { s with loop := .idle }) ⟨rfl, rfl⟩ ?_ rfl (now_idle happ (by simp) ?_)
      · simp [Libevent.step, hl]
      · rcases hp with hp | hp
        · exact .inl hp
        · rw [hl] at hp; cases hp
    · exact now_idle happ hl hp

/-- A list of what is owed by the log, which posts begin and calls of the queue do not prolong. -/
structure Owes (o : List Out → Bool) : Prop where
  refused : ∀ l, o (.refused :: l) = true → o l = true
  cancelled : ∀ l, o (.cancelled :: l) = false
  ran : ∀ l, o (.ran :: l) = false

theorem owes_now : Owes owedNow := ⟨fun _ h => h, fun _ => rfl, fun _ => rfl⟩
theorem owes_owed : Owes owed := ⟨fun _ h => h, fun _ => rfl, fun _ => rfl⟩

theorem ready_step {o : List Out → Bool} (ho : Owes o) {s t : St} {a : Act} (h : o s.log = true → Ready s) (ha : ∀ w ms, a ≠ .postTimed w ms)
    (hs : step s a = some t) : o t.log = true → Ready t := by
  cases a with
  | postTimed w ms => exact absurd rfl (ha w ms)
  | lock | unlock =>
    simp only [Libevent.step] at hs
    split at hs <;> cases hs
    exact h
  | post w =>
    simp only [Libevent.step] at hs
    split at hs <;> cases hs
    exact fun _ => .inl (eventActive_ne s)
  | postMaybe w =>
    simp only [Libevent.step] at hs
    split at hs <;> cases hs
    unfold postMaybe
    split
    · exact fun hl => h (ho.refused _ hl)
    · exact fun _ => .inl (eventActive_ne s)
  | cancel w =>
    simp only [Libevent.step] at hs
    split at hs <;> cases hs
    unfold cancel
    split
    case isTrue hw => exact fun _ => .inr hw.2
    case isFalse => intro hl; rw [ho.cancelled] at hl; cases hl
  | deleted =>
    simp only [Libevent.step] at hs
    split at hs <;> cases hs
    intro hl; rw [ho.cancelled] at hl; cases hl
  | tick ms =>
    simp only [Libevent.step, Option.some.injEq] at hs
    subst hs
    exact h
  | expire =>
    simp only [Libevent.step] at hs
    split at hs
    · cases hs
    · split at hs <;> cases hs
      exact fun _ => .inl (by simp)
  | take =>
    simp only [Libevent.step] at hs
    split at hs <;> cases hs
    exact fun _ => .inr rfl
  | enter =>
    simp only [Libevent.step] at hs
    split at hs <;> cases hs
    intro hl; rw [ho.ran] at hl; cases hl
  | leave =>
    simp only [Libevent.step] at hs
    split at hs
    case isFalse => cases hs
    case isTrue hc =>
      cases hs
      intro hl
      rcases h hl with hp | hp
      · exact .inl hp
      · rw [hc] at hp; cases hp

theorem now_run {s t : St} {as : List Act} (h : owedNow s.log = true → Ready s) (hr : run s as = some t) : owedNow t.log = true → Ready t := by
  induction as generalizing s with
  | nil => cases hr; exact h
  | cons a as ih =>
    unfold Libevent.run at hr
    split at hr
    · cases hr
    · rename_i t' hs
      refine ih ?_ hr
      by_cases ha : ∃ w ms, a = .postTimed w ms
      · obtain ⟨w, ms, rfl⟩ := ha
        simp only [Libevent.step] at hs
        split at hs <;> cases hs
        intro hl; cases hl
      · exact ready_step owes_now h (fun w ms he => ha ⟨w, ms, he⟩) hs

theorem active_step {s t : St} {a : Act} (h : s.active ≠ some true) (ha : a ≠ .expire) (hs : step s a = some t) : t.active ≠ some true := by
  have he : eventActive s ≠ some true := by unfold eventActive; split <;> simp_all
  cases a with
  | expire => exact absurd rfl ha
  | tick ms => simp only [Libevent.step, Option.some.injEq] at hs; subst hs; exact h
  | _ =>
    simp only [Libevent.step] at hs
    split at hs <;> cases hs
    first
    | exact h
    | exact he
    | (intro h'; cases h'; done)
    | (unfold postMaybe; split; exact h; exact he)
    | (unfold postTimed; simp [h])
    | (unfold cancel; split <;> simp)

theorem unexpired_run {s t : St} {as : List Act} (h : owed s.log = true → Ready s) (hx : s.active ≠ some true) (ha : .expire ∉ as)
    (hr : run s as = some t) : owed t.log = true → Ready t := by
  induction as generalizing s with
  | nil => cases hr; exact h
  | cons a as ih =>
    unfold Libevent.run at hr
    split at hr
    · cases hr
    · rename_i t' hs
      refine ih ?_ (active_step hx (fun he => ha (he ▸ List.mem_cons_self)) hs) (fun hm => ha (List.mem_cons_of_mem _ hm)) hr
      by_cases hp : ∃ w ms, a = .postTimed w ms
      · obtain ⟨w, ms, rfl⟩ := hp
        simp only [Libevent.step] at hs
        split at hs <;> cases hs
        intro hl
        rcases h hl with h1 | h1
        · exact .inl (by simp only [postTimed, hx, if_false]; exact h1)
        · exact .inr h1
      · exact ready_step owes_owed h (fun w ms he => hp ⟨w, ms, he⟩) hs

/-- An event which waits for its timer. -/
structure Later (s : St) (n d : Nat) : Prop where
  now : s.now = n
  timer : s.timer = some d
  lt : n < d
  active : s.active = none
  loop : s.loop = .idle
  runs : runs s.log = 0

theorem Later.run {s t : St} {n d : Nat} {as : List Act} (h : Later s n d) (ha : ∀ a ∈ as, env a = true ∧ clock a = false)
    (hr : run s as = some t) : Later t n d := by
  induction as generalizing s with
  | nil => cases hr; exact h
  | cons a as ih =>
    have hea := ha a List.mem_cons_self
    unfold Libevent.run at hr
    split at hr
    · cases hr
    · rename_i t' hs
      refine ih ?_ (fun b hb => ha b (List.mem_cons_of_mem _ hb)) hr
      obtain ⟨h1, h2, h3, h4, h5, h6⟩ := h
      cases a with
      | unlock =>
        simp only [Libevent.step] at hs
        split at hs <;> cases hs
        exact ⟨h1, h2, h3, h4, h5, h6⟩
      | tick ms => exact absurd hea.2 (by simp [clock])
      | expire =>
        have : ¬ d ≤ s.now := by omega
        simp [Libevent.step, h2, this] at hs
      | take => simp [Libevent.step, h4] at hs
      | enter => simp [Libevent.step, h5] at hs
      | leave => simp [Libevent.step, h5] at hs
      | _ => exact absurd hea.1 (by simp [env])

end Verif.Event.Libevent
