import Verif.Dtls.TimerSpec
import Verif.Event.ThreadProps
import Mathlib.Tactic.ByContra

/-!
# The timer of an mbed TLS session: lemmas
-/

namespace Verif.Dtls.Timer

open Util.Timestamp Event Spec

/-- The timed entries of the timer. -/
def slot (q : Queue) : List (Nat × UInt32) := q.timed.filter (fun x => x.1 == 0)

theorem slot_erase {q : Queue} {f : Nat} (hf : f ≠ 0) : slot (q.erase f) = slot q := by
  unfold slot Queue.erase
  dsimp only
  rw [List.filter_filter]
  apply List.filter_congr
  intro x _
  by_cases h : x.1 = 0
  · simp [h]; omega
  · simp [h]

theorem events_erase {q : Queue} {f : Nat} (h : 0 ∉ q.events) : 0 ∉ (q.erase f).events := by
  unfold Queue.erase
  intro hm
  exact h (List.mem_filter.1 hm).1

theorem slot_insert {f : Nat} {t : UInt32} {l : List (Nat × UInt32)} (hf : f ≠ 0) :
    (Queue.insert f t l).filter (fun x => x.1 == 0) = l.filter (fun x => x.1 == 0) := by
  induction l with
  | nil => simp [Queue.insert, hf]
  | cons x l ih =>
    unfold Queue.insert
    split
    · simp [hf]
    · simp only [List.filter_cons, ih]

theorem slot_insert0 {t : UInt32} {l : List (Nat × UInt32)} (h : l.filter (fun x => x.1 == 0) = []) :
    (Queue.insert 0 t l).filter (fun x => x.1 == 0) = [(0, t)] := by
  induction l with
  | nil => simp [Queue.insert]
  | cons x l ih =>
    have hx : (x.1 == 0) = false := by
      by_contra hc
      rw [Bool.not_eq_false] at hc
      simp [List.filter_cons, hc] at h
    have hl : l.filter (fun x => x.1 == 0) = [] := by simpa [List.filter_cons, hx] using h
    unfold Queue.insert
    split
    · simp [List.filter_cons, hx, hl]
    · simp only [List.filter_cons, hx, ih hl, Bool.false_eq_true, if_false]

theorem queue_cancel {q : Queue} {f : Nat} (hf : f ≠ 0) (h : 0 ∉ q.events) :
    slot (q.cancel f) = slot q ∧ 0 ∉ (q.cancel f).events := by
  unfold Queue.cancel
  split
  · exact ⟨slot_erase hf, events_erase h⟩
  · exact ⟨rfl, h⟩

theorem queue_post {q : Queue} {f : Nat} (hf : f ≠ 0) (h : 0 ∉ q.events) :
    slot (q.post f).1 = slot q ∧ 0 ∉ (q.post f).1.events := by
  unfold Queue.post
  split
  · exact ⟨rfl, h⟩
  · refine ⟨rfl, ?_⟩
    simp only [List.mem_append, List.mem_singleton, not_or]
    exact ⟨h, fun c => hf c.symm⟩

theorem queue_postTimed {q : Queue} {f : Nat} {t : UInt32} (hf : f ≠ 0) (h : 0 ∉ q.events) :
    slot (q.postTimed f t) = slot q ∧ 0 ∉ (q.postTimed f t).events := by
  unfold Queue.postTimed
  dsimp only
  split
  · exact ⟨(slot_insert hf).trans (slot_erase hf), events_erase h⟩
  · exact ⟨slot_insert hf, h⟩

theorem queue_take {q q' : Queue} {now : UInt32} {f : Nat} (h : 0 ∉ q.events) (ht : q.take now = some (f, q')) :
    0 ∉ q'.events ∧ ((f ≠ 0 ∧ slot q' = slot q) ∨
      (f = 0 ∧ ∃ t, slot q = (0, t) :: slot q' ∧ lessOrEqual t now = true)) := by
  rcases q with ⟨es, ts⟩
  cases es with
  | cons e l =>
    simp only [Queue.take, Queue.takeEvent, Option.some.injEq, Prod.mk.injEq] at ht
    obtain ⟨rfl, rfl⟩ := ht
    simp only [List.mem_cons, not_or] at h
    exact ⟨h.2, .inl ⟨fun c => h.1 c.symm, rfl⟩⟩
  | nil =>
    cases ts with
    | nil => simp [Queue.take, Queue.takeEvent, Queue.takeTimed] at ht
    | cons x l =>
      rcases x with ⟨e, t⟩
      simp only [Queue.take, Queue.takeEvent, Queue.takeTimed] at ht
      split at ht
      · rename_i hle
        simp only [Option.some.injEq, Prod.mk.injEq] at ht
        obtain ⟨rfl, rfl⟩ := ht
        refine ⟨by simp, ?_⟩
        by_cases he : e = 0
        · subst he
          exact .inr ⟨rfl, t, by simp [slot], hle⟩
        · exact .inl ⟨he, by simp [slot, he]⟩
      · simp at ht

/-- The timer cancels its event. -/
theorem queue_cancel0 {q : Queue} (h : 0 ∉ q.events) : slot (q.cancel 0) = [] ∧ 0 ∉ (q.cancel 0).events := by
  unfold Queue.cancel
  split
  · refine ⟨?_, events_erase h⟩
    unfold slot Queue.erase
    dsimp only
    rw [List.filter_filter]
    apply List.filter_eq_nil_iff.2
    intro x _
    by_cases hx : x.1 = 0 <;> simp [hx]
  · rename_i hn
    refine ⟨?_, h⟩
    unfold Queue.inList at hn
    rw [Bool.or_eq_true, not_or, List.any_eq_true] at hn
    apply List.filter_eq_nil_iff.2
    intro x hx hc
    exact hn.2 ⟨x, hx, hc⟩

theorem queue_postTimed0 {q : Queue} {t : UInt32} (h : 0 ∉ q.events) (hs : slot q = []) :
    slot (q.postTimed 0 t) = [(0, t)] ∧ 0 ∉ (q.postTimed 0 t).events := by
  unfold Queue.postTimed
  dsimp only
  split
  · refine ⟨slot_insert0 ?_, events_erase h⟩
    unfold slot at hs
    unfold Queue.erase
    dsimp only
    rw [List.filter_filter]
    apply List.filter_eq_nil_iff.2
    intro x _
    by_cases hx : x.1 = 0 <;> simp [hx]
  · exact ⟨slot_insert0 hs, h⟩

/-- What a step which is not the timer's own does to the timer. -/
inductive Move (s s' : Sys) (now : Nat) (o : List Obs) : Prop
  | none (hs : slot s'.q = slot s.q) (hp : s'.phase = .taken 0 ↔ s.phase = .taken 0) (ho : Obs.ran 0 ∉ o)
  | took (t : UInt32) (hs : slot s.q = (0, t) :: slot s'.q) (ht : lessOrEqual t (stamp now) = true)
      (hp : s'.phase = .taken 0) (ho : Obs.ran 0 ∉ o)
  | ran (hs : slot s'.q = slot s.q) (hp : s.phase = .taken 0) (hp' : s'.phase ≠ .taken 0) (ho : Obs.ran 0 ∈ o)

theorem act_move {s s' : Sys} {now : Nat} {a : Act} {o : List Obs} (he : 0 ∉ s.q.events) (hd : 0 ∉ s.destroyed)
    (ha : owns 0 a = false) (hs : s.step now a = some (s', o)) :
    0 ∉ s'.q.events ∧ 0 ∉ s'.destroyed ∧ Move s s' now o := by
  have sd : ∀ s : Sys, s.signal.destroyed = s.destroyed := fun s => by unfold Sys.signal; split <;> rfl
  cases a with
  | post a f =>
    have hf : f ≠ 0 := by simpa [owns] using ha
    simp only [Sys.step] at hs
    split at hs
    · simp only [Option.some.injEq, Prod.mk.injEq] at hs
      obtain ⟨rfl, rfl⟩ := hs
      have := queue_post (q := s.q) hf he
      rw [Sys.signal_q, sd]
      exact ⟨this.2, hd, .none (by rw [Sys.signal_q]; exact this.1) Sys.signal_phase (by simp)⟩
    · simp at hs
  | postMaybeDouble a f =>
    have hf : f ≠ 0 := by simpa [owns] using ha
    simp only [Sys.step] at hs
    split at hs
    · simp only [Option.some.injEq, Prod.mk.injEq] at hs
      obtain ⟨rfl, rfl⟩ := hs
      have := queue_post (q := s.q) hf he
      rw [Sys.signal_q, sd]
      exact ⟨this.2, hd, .none (by rw [Sys.signal_q]; exact this.1) Sys.signal_phase (by simp)⟩
    · simp at hs
  | postTimed a f ms =>
    have hf : f ≠ 0 := by simpa [owns] using ha
    simp only [Sys.step] at hs
    split at hs
    · simp only [Option.some.injEq, Prod.mk.injEq] at hs
      obtain ⟨rfl, rfl⟩ := hs
      have := queue_postTimed (q := s.q) (t := future (stamp now) (UInt32.ofNat ms)) hf he
      rw [Sys.signal_q, sd]
      exact ⟨this.2, hd, .none (by rw [Sys.signal_q]; exact this.1) Sys.signal_phase (by simp)⟩
    · simp at hs
  | cancel a f =>
    have hf : f ≠ 0 := by simpa [owns] using ha
    simp only [Sys.step] at hs
    split at hs
    · simp only [Option.some.injEq, Prod.mk.injEq] at hs
      obtain ⟨rfl, rfl⟩ := hs
      have := queue_cancel (q := s.q) hf he
      exact ⟨this.2, hd, .none this.1 Iff.rfl (by simp)⟩
    · simp at hs
  | destroy a f =>
    have hf : f ≠ 0 := by simpa [owns] using ha
    simp only [Sys.step] at hs
    split at hs
    · simp only [Option.some.injEq, Prod.mk.injEq] at hs
      obtain ⟨rfl, rfl⟩ := hs
      have := queue_cancel (q := s.q) hf he
      refine ⟨this.2, ?_, .none this.1 Iff.rfl (by simp)⟩
      simp only [List.mem_cons, not_or]
      exact ⟨fun c => hf c.symm, hd⟩
    · simp at hs
  | lockCore n =>
    simp only [Sys.step] at hs
    split at hs
    · simp only [Option.some.injEq, Prod.mk.injEq] at hs
      obtain ⟨rfl, rfl⟩ := hs
      exact ⟨he, hd, .none rfl Iff.rfl (by simp)⟩
    · simp at hs
  | unlockCore n =>
    simp only [Sys.step] at hs
    split at hs
    · simp only [Option.some.injEq, Prod.mk.injEq] at hs
      obtain ⟨rfl, rfl⟩ := hs
      exact ⟨he, hd, .none rfl Iff.rfl (by simp)⟩
    · simp at hs
  | take =>
    simp only [Sys.step] at hs
    split at hs
    · rename_i hi
      simp only [Option.some.injEq, Prod.mk.injEq] at hs
      obtain ⟨rfl, rfl⟩ := hs
      unfold Sys.loop
      split
      · rename_i e q hq
        obtain ⟨h1, h2⟩ := queue_take he hq
        refine ⟨h1, hd, ?_⟩
        rcases h2 with ⟨h2, h3⟩ | ⟨rfl, t, h2, h3⟩
        · exact .none h3 (by simp [hi, h2]) (by simp)
        · exact .took t h2 h3 rfl (by simp)
      · split
        · exact ⟨he, hd, .none rfl (by simp [hi]) (by simp)⟩
        · exact ⟨he, hd, .none rfl (by simp [hi]) (by simp)⟩
    · simp at hs
  | begin =>
    simp only [Sys.step] at hs
    split at hs
    · rename_i e hp
      split at hs
      · simp only [Option.some.injEq, Prod.mk.injEq] at hs
        obtain ⟨rfl, rfl⟩ := hs
        refine ⟨he, hd, ?_⟩
        by_cases h0 : e = 0
        · subst h0
          exact .ran rfl hp (by simp) (by simp [hd])
        · refine .none rfl (by simp [hp, h0]) ?_
          split
          · simp
          · simp; omega
      · simp at hs
    · simp at hs
  | finish =>
    simp only [Sys.step] at hs
    split at hs
    · rename_i e hp
      simp only [Option.some.injEq, Prod.mk.injEq] at hs
      obtain ⟨rfl, rfl⟩ := hs
      exact ⟨he, hd, .none rfl (by simp [hp]) (by simp)⟩
    · simp at hs
  | wake =>
    simp only [Sys.step] at hs
    split at hs
    · rename_i e hp
      simp only [Option.some.injEq, Prod.mk.injEq] at hs
      obtain ⟨rfl, rfl⟩ := hs
      exact ⟨he, hd, .none rfl (by simp [hp]) (by simp)⟩
    · simp at hs
  | stop =>
    simp only [Sys.step] at hs
    split at hs
    · simp at hs
    · simp only [Option.some.injEq, Prod.mk.injEq] at hs
      obtain ⟨rfl, rfl⟩ := hs
      rw [Sys.signal_q, sd]
      exact ⟨he, hd, .none (by rw [Sys.signal_q]) Sys.signal_phase (by simp)⟩

/-! ## The invariant -/

/-- Nothing is on its way. -/
def Quiet (s : Sys) : Prop := slot s.q = [] ∧ s.phase ≠ .taken 0

/-- The callback is on its way, for the instant `d`. -/
def Way (s : Sys) (now d : Nat) : Prop :=
  (slot s.q = [(0, stamp d)] ∧ s.phase ≠ .taken 0) ∨ (slot s.q = [] ∧ s.phase = .taken 0 ∧ d ≤ now)

structure On (w : World) (v : View) (s : Shot) : Prop where
  armed : w.armed = true
  tp : w.intermediateTp = stamp (s.at_ + s.inter)
  past : s.at_ ≤ w.now
  final : s.final < 2 ^ 31
  inter : s.inter < 2 ^ 31
  exp : w.expired = v.given
  due : v.given = true → s.at_ + s.final ≤ w.now
  once : v.owed = true → v.given = false
  way : v.owed = true → Way w.sys w.now (s.at_ + s.final)

structure Inv (w : World) : Prop where
  ev : 0 ∉ w.sys.q.events
  de : 0 ∉ w.sys.destroyed
  off : (view w.trace).shot = none → w.armed = false ∧ (view w.trace).owed = false
  on : ∀ s, (view w.trace).shot = some s → On w (view w.trace) s
  quiet : (view w.trace).owed = false → Quiet w.sys

theorem view_snoc (tr : List Ev) (e : Ev) : view (tr ++ [e]) = (view tr).next e := by
  simp [view, List.foldl_append]

theorem Inv.init : Inv {} := by
  refine ⟨by simp, by simp, fun _ => ⟨rfl, rfl⟩, fun s h => by simp [view] at h, fun _ => ⟨rfl, by simp⟩⟩

theorem stamp_future (t : Nat) (m : UInt32) : future (stamp t) m = stamp (t + m.toNat) := by
  simp [future, stamp]

theorem le_of_stamp {d now : Nat} (hd : d < now + 2 ^ 31) (h : lessOrEqual (stamp d) (stamp now) = true) : d ≤ now := by
  by_contra hc
  have := C35_compare d now hd (by omega)
  rw [h] at this
  exact hc (of_decide_eq_true this.symm)

theorem Inv.tick {w : World} (g : Inv w) (ms : Nat) : Inv { w with now := w.now + ms } := by
  refine ⟨g.ev, g.de, g.off, fun s hs => ?_, g.quiet⟩
  have o := g.on s hs
  refine ⟨o.armed, o.tp, Nat.le_trans o.past (Nat.le_add_right _ _), o.final, o.inter, o.exp,
    fun h => Nat.le_trans (o.due h) (Nat.le_add_right _ _), o.once, fun h => ?_⟩
  rcases o.way h with h | ⟨h1, h2, h3⟩
  · exact .inl h
  · exact .inr ⟨h1, h2, Nat.le_trans h3 (Nat.le_add_right _ _)⟩

/-- The callbacks in a trace are those which are owed, not before their time. -/
def Fair (tr : List Ev) : Prop :=
  ∀ a t b, tr = a ++ .ran t :: b → (view a).owed = true ∧ ∃ s, (view a).shot = some s ∧ s.at_ + s.final ≤ t

theorem Fair.snoc {tr : List Ev} {e : Ev} (h : Fair tr)
    (he : ∀ t, e = .ran t → (view tr).owed = true ∧ ∃ s, (view tr).shot = some s ∧ s.at_ + s.final ≤ t) :
    Fair (tr ++ [e]) := by
  intro a t b hab
  rcases List.eq_nil_or_concat b with rfl | ⟨b, x, rfl⟩
  · obtain ⟨rfl, h2⟩ := List.append_inj' hab rfl
    exact he t (List.cons.inj h2).1
  · rw [show a ++ Ev.ran t :: (b.concat x) = (a ++ Ev.ran t :: b) ++ [x] by simp] at hab
    exact h a t b (List.append_inj' hab rfl).1

theorem Inv.act {w : World} (g : Inv w) {a : Act} {s' : Sys} {os : List Obs} (ha : owns tEv a = false)
    (hs : w.sys.step w.now a = some (s', os)) :
    Inv (timerCb { w with sys := s' } os) ∧ (Fair w.trace → Fair (timerCb { w with sys := s' } os).trace) := by
  obtain ⟨he, hd, hm⟩ := act_move g.ev g.de ha hs
  have hnone : Obs.ran 0 ∉ os → timerCb { w with sys := s' } os = { w with sys := s' } := fun h => by
    unfold timerCb tEv; rw [if_neg h]
  rcases hm with ⟨h1, h2, h3⟩ | ⟨t, h1, h2, h3, h4⟩ | ⟨h1, h2, h3, h4⟩
  · rw [hnone h3]
    refine ⟨⟨he, hd, g.off, fun s hs => ?_, fun h => ?_⟩, id⟩
    · have o := g.on s hs
      refine ⟨o.armed, o.tp, o.past, o.final, o.inter, o.exp, o.due, o.once, fun h => ?_⟩
      rcases o.way h with ⟨w1, w2⟩ | ⟨w1, w2, w3⟩
      · exact .inl ⟨h1.trans w1, fun c => w2 (h2.1 c)⟩
      · exact .inr ⟨h1.trans w1, h2.2 w2, w3⟩
    · have q := g.quiet h
      exact ⟨h1.trans q.1, fun c => q.2 (h2.1 c)⟩
  · rw [hnone h4]
    refine ⟨⟨he, hd, g.off, fun s hs => ?_, fun h => ?_⟩, id⟩
    · have o := g.on s hs
      refine ⟨o.armed, o.tp, o.past, o.final, o.inter, o.exp, o.due, o.once, fun h => ?_⟩
      rcases o.way h with ⟨w1, w2⟩ | ⟨w1, w2, w3⟩
      · rw [h1] at w1
        obtain ⟨w3, w4⟩ := List.cons.inj w1
        refine .inr ⟨w4, h3, le_of_stamp ?_ ((Prod.mk.inj w3).2 ▸ h2)⟩
        have := o.past; have := o.final
        dsimp only
        omega
      · rw [h1] at w1; cases w1
    · have q := (g.quiet h).1
      rw [h1] at q; cases q
  · have hc : timerCb { w with sys := s' } os =
        { w with sys := s', expired := true, trace := w.trace ++ [.ran w.now] } := by
      unfold timerCb tEv; rw [if_pos h4]
    rw [hc]
    have ho : (view w.trace).owed = true := by
      cases h : (view w.trace).owed
      · exact absurd h2 (g.quiet h).2
      · rfl
    obtain ⟨s, hs⟩ : ∃ s, (view w.trace).shot = some s := by
      cases h : (view w.trace).shot
      · rw [(g.off h).2] at ho; cases ho
      · exact ⟨_, rfl⟩
    have o := g.on s hs
    obtain ⟨w1, w3⟩ : slot w.sys.q = [] ∧ s.at_ + s.final ≤ w.now := by
      rcases o.way ho with ⟨_, w2⟩ | ⟨w1, _, w3⟩
      · exact absurd h2 w2
      · exact ⟨w1, w3⟩
    refine ⟨⟨he, hd, fun h => ?_, fun x hx => ?_, fun _ => ⟨h1.trans w1, h3⟩⟩, fun hf => ?_⟩
    · rw [show (view (w.trace ++ [Ev.ran w.now])).shot = (view w.trace).shot by rw [view_snoc]; rfl, hs] at h
      cases h
    · rw [show (view (w.trace ++ [Ev.ran w.now])).shot = (view w.trace).shot by rw [view_snoc]; rfl, hs] at hx
      cases hx
      dsimp only
      rw [view_snoc]
      exact ⟨o.armed, o.tp, o.past, o.final, o.inter, rfl, (fun _ => w3), (fun h => by cases h), (fun h => by cases h)⟩
    · exact hf.snoc (fun t ht => by cases ht; exact ⟨ho, s, hs, w3⟩)

theorem cancelEvent_loop {w w' : World} (h : cancelEvent w .loop = some w') (he : 0 ∉ w.sys.q.events) :
    w' = { w with sys := w'.sys } ∧ 0 ∉ w'.sys.q.events ∧ w'.sys.destroyed = w.sys.destroyed ∧ Quiet w'.sys := by
  unfold cancelEvent tEv at h
  simp only [Sys.step] at h
  split at h
  · rename_i hp
    unfold Sys.active at hp
    dsimp only at hp
    split at hp
    · rename_i e hph
      simp only [Option.map_some, Option.some.injEq] at h
      subst h
      have := queue_cancel0 he
      exact ⟨rfl, this.2, rfl, this.1, by simp [hph]⟩
    · cases hp
  · simp at h

theorem postTimedEvent_loop {w w' : World} {ms : UInt32} (h : postTimedEvent w .loop ms = some w')
    (he : 0 ∉ w.sys.q.events) (hq : Quiet w.sys) :
    w' = { w with sys := w'.sys } ∧ 0 ∉ w'.sys.q.events ∧ w'.sys.destroyed = w.sys.destroyed ∧
      slot w'.sys.q = [(0, stamp (w.now + ms.toNat))] ∧ w'.sys.phase ≠ .taken 0 := by
  unfold postTimedEvent tEv at h
  simp only [Sys.step] at h
  split at h
  · simp only [Option.map_some, Option.some.injEq] at h
    subst h
    have := queue_postTimed0 (t := future (stamp w.now) (UInt32.ofNat ms.toNat)) he hq.1
    have sd : ∀ s : Sys, s.signal.destroyed = s.destroyed := fun s => by unfold Sys.signal; split <;> rfl
    refine ⟨rfl, ?_, ?_, ?_, ?_⟩
    · dsimp only; rw [Sys.signal_q]; exact this.2
    · dsimp only; rw [sd]
    · dsimp only; rw [Sys.signal_q, ← stamp_future]
      rw [UInt32.ofNat_toNat] at this
      simp only [Queue.step, UInt32.ofNat_toNat]
      exact this.1
    · dsimp only; intro c; have c' := Sys.signal_phase.1 c; exact hq.2 c'
  · simp at h

theorem Inv.set {w w' : World} (g : Inv w) {i f : UInt32} (hi : i.toNat < 2 ^ 31) (hf : f.toNat < 2 ^ 31)
    (h : setDelay w .loop i f = some w') : Inv w' ∧ w'.trace = w.trace ++ [.set w.now i.toNat f.toNat] := by
  unfold setDelay at h
  dsimp only at h
  split at h
  · rename_i h0
    subst h0
    rw [Option.map_eq_some_iff] at h
    obtain ⟨w1, hw1, rfl⟩ := h
    obtain ⟨e1, e2, e3, e4⟩ := cancelEvent_loop hw1 g.ev
    have hv : view (w.trace ++ [Ev.set w.now i.toNat (0 : UInt32).toNat]) = {} := by rw [view_snoc]; rfl
    rw [e1]
    refine ⟨⟨e2, ?_, ?_, ?_, fun _ => e4⟩, rfl⟩
    · dsimp only; rw [e3]; exact g.de
    · intro _; dsimp only; rw [hv]; exact ⟨rfl, rfl⟩
    · intro s hs; dsimp only at hs; rw [hv] at hs; cases hs
  · rename_i h0
    rw [Option.bind_eq_some_iff] at h
    obtain ⟨w1, hw1, h2⟩ := h
    obtain ⟨e1, e2, e3, e4⟩ := cancelEvent_loop hw1 g.ev
    obtain ⟨p1, p2, p3, p4, p5⟩ := postTimedEvent_loop h2 e2 e4
    have hf0 : f.toNat ≠ 0 := fun c => h0 (UInt32.toNat_inj.1 c)
    have hv : view (w.trace ++ [Ev.set w.now i.toNat f.toNat]) = ⟨some ⟨w.now, i.toNat, f.toNat⟩, true, false⟩ := by
      rw [view_snoc]; exact if_neg hf0
    rw [e1] at p4
    rw [p1, e1]
    refine ⟨⟨p2, ?_, ?_, ?_, ?_⟩, rfl⟩
    · dsimp only; rw [p3, e3]; exact g.de
    · intro h; dsimp only at h; rw [hv] at h; cases h
    · intro s hs
      dsimp only at hs ⊢
      rw [hv] at hs ⊢
      cases hs
      exact ⟨rfl, stamp_future _ _, Nat.le_refl _, hf, hi, rfl, (fun h => by cases h), (fun _ => rfl), (fun _ => .inl ⟨p4, p5⟩)⟩
    · intro h; dsimp only at h; rw [hv] at h; cases h

theorem Inv.cancel {w w' : World} (g : Inv w) (h : cancelEvent { w with trace := w.trace ++ [.cancel] } .loop = some w') :
    Inv w' ∧ w'.trace = w.trace ++ [.cancel] := by
  obtain ⟨e1, e2, e3, e4⟩ := cancelEvent_loop h g.ev
  have hv : view (w.trace ++ [Ev.cancel]) = { view w.trace with owed := false } := by rw [view_snoc]; rfl
  rw [e1]
  refine ⟨⟨e2, ?_, ?_, ?_, fun _ => e4⟩, rfl⟩
  · dsimp only; rw [e3]; exact g.de
  · intro h; dsimp only at h ⊢; rw [hv] at h ⊢; exact ⟨(g.off h).1, rfl⟩
  · intro s hs
    dsimp only at hs ⊢
    rw [hv] at hs ⊢
    have o := g.on s hs
    exact ⟨o.armed, o.tp, o.past, o.final, o.inter, o.exp, o.due, (fun h => by cases h), (fun h => by cases h)⟩

theorem run_inv {ops : List Op} : ∀ {w w' : World}, Inv w → Fair w.trace → Short ops → OnEventThread ops →
    run w ops = some w' → Inv w' ∧ Fair w'.trace := by
  induction ops with
  | nil => intro w w' g f _ _ h; cases h; exact ⟨g, f⟩
  | cons o ops ih =>
    intro w w' g f hs ht h
    unfold run at h
    rw [Option.bind_eq_some_iff] at h
    obtain ⟨w1, h1, h2⟩ := h
    suffices Inv w1 ∧ Fair w1.trace from
      ih this.1 this.2 (fun a i f h => hs a i f (List.mem_cons_of_mem _ h))
        ⟨fun a i f h => ht.1 a i f (List.mem_cons_of_mem _ h), fun a h => ht.2 a (List.mem_cons_of_mem _ h)⟩ h2
    cases o with
    | tick ms => cases h1; exact ⟨g.tick ms, f⟩
    | act a =>
      unfold step at h1
      dsimp only at h1
      split at h1
      · cases h1
      · rename_i ha
        rw [Option.map_eq_some_iff] at h1
        obtain ⟨⟨s', os⟩, hst, rfl⟩ := h1
        have := g.act (by simpa using ha) hst
        exact ⟨this.1, this.2 f⟩
    | set a i fi =>
      have ha := ht.1 a i fi List.mem_cons_self
      subst ha
      obtain ⟨hi, hf⟩ := hs _ i fi List.mem_cons_self
      unfold step at h1
      dsimp only at h1
      split at h1
      · obtain ⟨g1, g2⟩ := g.set hi hf h1
        refine ⟨g1, ?_⟩
        rw [g2]
        exact f.snoc (fun t ht => by cases ht)
      · cases h1
    | cancel a =>
      have ha := ht.2 a List.mem_cons_self
      subst ha
      unfold step at h1
      dsimp only at h1
      split at h1
      · obtain ⟨g1, g2⟩ := g.cancel h1
        refine ⟨g1, ?_⟩
        rw [g2]
        exact f.snoc (fun t ht => by cases ht)
      · cases h1

theorem fair_nil : Fair [] := by
  intro a t b h
  cases a <;> cases h

end Verif.Dtls.Timer
