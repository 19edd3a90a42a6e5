import Verif.Api.EventsStep

/-!
# Listeners for events — histories of one listener
-/

namespace Verif.Api.Events

open Spec

theorem handed_append (a b : List Out) : handed (a ++ b) = handed a ++ handed b := by simp [handed]
theorem resolved_append (a b : List Out) : resolved (a ++ b) = resolved a ++ resolved b := by simp [resolved]

/-- What a listener always is. -/
structure Sane (l : Nat) (s : S) : Prop where
  mine : s.me ≠ none → l < s.n
  one : ∀ a, s.me = some a → a.waiting = none ∨ a.backlog = []
  raw : ∀ a, s.me = some a → a.kind = none → a.ec = .ok ∧ a.waiting = none ∧ a.backlog = []
  over : ∀ a, s.me = some a → a.ec ≠ .ok → a.waiting = none ∧ a.backlog = []
  kinds : ∀ a, s.me = some a → ∀ v ∈ a.backlog, a.kind = some v.kind

theorem sane_init {l : Nat} : Sane l {} := ⟨by simp, by simp, by simp, by simp, by simp⟩

theorem Sane.set {l : Nat} {s : S} (h : Sane l s) {a b : L} (ha : s.me = some a)
    (h1 : b.waiting = none ∨ b.backlog = []) (h2 : b.kind = none → b.ec = .ok ∧ b.waiting = none ∧ b.backlog = [])
    (h3 : b.ec ≠ .ok → b.waiting = none ∧ b.backlog = []) (h4 : ∀ v ∈ b.backlog, b.kind = some v.kind) :
    Sane l { s with me := some b } := by
  refine ⟨fun _ => h.mine (by simp [ha]), ?_, ?_, ?_, ?_⟩ <;>
    (intro c hc; injection hc with hc; subst hc; assumption)

theorem Sane.same {l : Nat} {s : S} (h : Sane l s) {a : L} (ha : s.me = some a) : Sane l { s with me := some a } := by
  have : ({ s with me := some a } : S) = s := by rw [← ha]
  rw [this]; exact h

theorem Sane.close {l : Nat} {s : S} (h : Sane l s) {a : L} (ha : s.me = some a) (hk : a.kind ≠ none) (ec : Ec) :
    Sane l { s with me := some (Spec.close l a ec).1 } :=
  h.set ha (.inl rfl) (fun e => absurd e hk) (fun _ => ⟨rfl, rfl⟩) (by simp [Spec.close])

theorem Sane.stop {l : Nat} {s : S} (h : Sane l s) {a : L} (ha : s.me = some a) :
    Sane l { s with me := some (Spec.stop l a).1 } := by
  unfold Spec.stop
  split
  · next ho =>
    refine h.close ha ?_ _
    intro e; simp [L.isOpen, e] at ho
  · exact h.same ha

theorem Sane.offer {l : Nat} {s : S} (h : Sane l s) {a : L} (ha : s.me = some a) (v : Val) (m : Bool) :
    Sane l { s with me := some (Spec.offer l a v m).1 } := by
  unfold Spec.offer
  split
  · next hk =>
    have hne : a.kind ≠ none := by rw [hk.1]; simp
    split
    · split
      · exact h.set ha (.inl rfl) (fun e => absurd e hne) (fun e => absurd hk.2 e) (h.kinds a ha)
      · next hw =>
        refine h.set ha (.inl hw) (fun e => absurd e hne) (fun e => absurd hk.2 e) ?_
        intro u hu
        rcases List.mem_append.1 hu with hu | hu
        · exact h.kinds a ha u hu
        · rw [List.mem_singleton.1 hu]; exact hk.1
    · exact h.close ha hne _
  · exact h.same ha

theorem Sane.listen {l : Nat} {s : S} (h : Sane l s) {a : L} (ha : s.me = some a) (k : Kind) (f : Nat)
    (ref ev : Option Nat) : Sane l { s with me := some (Spec.listen l a k f ref ev).1 } := by
  unfold Spec.listen
  split
  · exact h.same ha
  next hk =>
  have hk : a.kind = some k := Classical.byContradiction hk
  have hne : a.kind ≠ none := by rw [hk]; simp
  split
  · exact h.same ha
  next he =>
  have he : a.ec = .ok := Classical.byContradiction he
  split
  · exact h.same ha
  next hw =>
  have hw : a.waiting = none := by cases h' : a.waiting <;> simp_all
  simp only
  split
  · next v vs hb =>
    exact h.set ha (.inl hw) (fun e => absurd e hne) (fun e => absurd he e)
      (fun u hu => h.kinds a ha u (by rw [hb]; simp [hu]))
  · next hb => exact h.set ha (.inr hb) (fun e => absurd e hne) (fun e => absurd he e) (h.kinds a ha)

theorem Sane.step {l : Nat} {s : S} (h : Sane l s) (c : Call) (hf : fine l s c) : Sane l (Spec.step l s c).1 := by
  cases c with
  | new mem =>
    cases mem with
    | false => exact h
    | true =>
      simp only [Spec.step, if_true]
      split
      · next e =>
        refine ⟨fun _ => by simp [e], ?_, ?_, ?_, ?_⟩ <;>
          (intro c hc; injection hc with hc; subst hc; simp)
      · exact ⟨fun hm => Nat.lt_succ_of_lt (h.mine hm), h.one, h.raw, h.over, h.kinds⟩
  | init k j mem =>
    by_cases e : j = l
    · obtain ⟨a, ha, hk⟩ := hf e
      obtain ⟨r1, r2, r3⟩ := h.raw a ha hk
      cases mem with
      | false => simpa [Spec.step, e] using h
      | true =>
        simp only [Spec.step, if_pos e, if_true, on, ha]
        exact h.set ha (.inl r2) (by simp) (fun e => absurd r1 e) (by simp [r3])
    · simpa [Spec.step, e] using h
  | listen k j f ref ev =>
    by_cases e : j = l
    · simp only [Spec.step, if_pos e, on]
      cases ha : s.me with
      | none => exact h
      | some a => exact h.listen ha k f ref ev
    · simpa [Spec.step, e] using h
  | stop j =>
    by_cases e : j = l
    · simp only [Spec.step, if_pos e, on]
      cases ha : s.me with
      | none => exact h
      | some a => exact h.stop ha
    · simpa [Spec.step, e] using h
  | free j =>
    by_cases e : j = l
    · simp only [Spec.step, if_pos e]
      exact ⟨by simp, by simp, by simp, by simp, by simp⟩
    · simpa [Spec.step, e] using h
  | stopAll =>
    simp only [Spec.step, on]
    cases ha : s.me with
    | none => exact h
    | some a => exact h.stop ha
  | notify v mem =>
    simp only [Spec.step, on]
    cases ha : s.me with
    | none => exact h
    | some a => exact h.offer ha v _

/-! ### Futures -/

theorem hand_resolved (l : Nat) (v : Val) (q : Nat × Option Nat × Option Nat) : resolved (hand l v q) = [q.1] := by
  obtain ⟨f, ref, ev⟩ := q
  cases v <;> cases ref <;> cases ev <;> rfl

theorem close_resolved (l : Nat) (a : L) (ec : Ec) : resolved (Spec.close l a ec).2 = a.waiting.toList.map (·.1) := by
  cases h : a.waiting <;> simp [Spec.close, h, resolved]

theorem stop_resolved (l : Nat) (a : L) : a.waiting.toList.map (·.1) =
    resolved (Spec.stop l a).2 ++ (Spec.stop l a).1.waiting.toList.map (·.1) := by
  unfold Spec.stop
  split
  · rw [close_resolved]; simp [Spec.close]
  · simp [resolved]

theorem offer_resolved (l : Nat) (a : L) (v : Val) (m : Bool) : a.waiting.toList.map (·.1) =
    resolved (Spec.offer l a v m).2 ++ (Spec.offer l a v m).1.waiting.toList.map (·.1) := by
  unfold Spec.offer
  split
  · split
    · split
      · next q hq => rw [hand_resolved]; simp [hq]
      · next hq => simp [hq, resolved]
    · rw [close_resolved]; simp [Spec.close]
  · simp [resolved]

theorem listen_resolved (l : Nat) (a : L) (k : Kind) (f : Nat) (ref ev : Option Nat) :
    (a.waiting.toList.map (·.1) ++ [f]).Perm
    (resolved (Spec.listen l a k f ref ev).2 ++ (Spec.listen l a k f ref ev).1.waiting.toList.map (·.1)) := by
  have triv : ∀ e, (a.waiting.toList.map (·.1) ++ [f]).Perm
      (resolved [Out.resolve l f e] ++ a.waiting.toList.map (·.1)) := fun e => List.perm_append_comm
  unfold Spec.listen
  split
  · exact triv _
  split
  · exact triv _
  split
  · exact triv _
  next hw =>
  have hw : a.waiting = none := by cases h' : a.waiting <;> simp_all
  simp only
  split
  · rw [hand_resolved]; simp [hw]
  · simp [hw, resolved]

theorem futures_step (l : Nat) (s : S) (c : Call) (h : Sane l s) (hf : fine l s c) :
    (waits s ++ asked l [c]).Perm (resolved (Spec.step l s c).2 ++ waits (Spec.step l s c).1) := by
  cases c with
  | new mem =>
    cases mem with
    | false => simp [Spec.step, asked, resolved]
    | true =>
      by_cases e : s.n = l
      · have : s.me = none := Classical.byContradiction fun hn => by have := h.mine hn; omega
        simp [Spec.step, e, asked, resolved, waits, this]
      · simp [Spec.step, e, asked, resolved, waits]
  | init k j mem =>
    by_cases e : j = l
    · obtain ⟨a, ha, hk⟩ := hf e
      cases mem with
      | false => simp [Spec.step, e, asked, resolved]
      | true => simp [Spec.step, e, asked, resolved, on, ha, waits]
    · simp [Spec.step, e, asked, resolved]
  | listen k j f ref ev =>
    by_cases e : j = l
    · obtain ⟨hne, _⟩ := hf e
      obtain ⟨a, ha⟩ := Option.ne_none_iff_exists'.1 hne
      have := listen_resolved l a k f ref ev
      simpa [Spec.step, e, asked, on, ha, waits] using this
    · simp [Spec.step, e, asked, resolved]
  | stop j =>
    by_cases e : j = l
    · obtain ⟨a, ha⟩ := Option.ne_none_iff_exists'.1 (hf e)
      have := stop_resolved l a
      simp only [Spec.step, if_pos e, on, ha, waits, asked, List.filterMap_cons, List.filterMap_nil, List.append_nil,
        resolved_append, this]
      simp [resolved]
    · simp [Spec.step, e, asked, resolved]
  | free j =>
    by_cases e : j = l
    · obtain ⟨a, ha, ho⟩ := hf e
      have : a.waiting = none := by
        cases hk : a.kind with
        | none => exact (h.raw a ha hk).2.1
        | some k => exact (h.over a ha fun he => by simp [L.isOpen, hk, he] at ho).1
      simp [Spec.step, e, asked, resolved, waits, ha, this]
    · simp [Spec.step, e, asked, resolved]
  | stopAll =>
    cases ha : s.me with
    | none => simp [Spec.step, on, ha, asked, resolved]
    | some a =>
      have := stop_resolved l a
      simp [Spec.step, on, ha, asked, waits, this]
  | notify v mem =>
    cases ha : s.me with
    | none => simp [Spec.step, on, ha, asked, resolved]
    | some a =>
      have := offer_resolved l a v (mem l)
      simp [Spec.step, on, ha, asked, waits, this]

theorem asked_cons (l : Nat) (c : Call) (cs : List Call) : asked l (c :: cs) = asked l [c] ++ asked l cs := by
  simp only [asked]
  rw [← List.filterMap_append]
  rfl

theorem futures_run (l : Nat) (cs : List Call) : ∀ s, Sane l s → Fine l s cs →
    Sane l (Spec.run l s cs).1 ∧
    (waits s ++ asked l cs).Perm (resolved (Spec.run l s cs).2 ++ waits (Spec.run l s cs).1) := by
  induction cs with
  | nil => intro s h _; exact ⟨h, by simp [Spec.run, asked, resolved]⟩
  | cons c cs ih =>
    intro s h hf
    obtain ⟨h1, h2⟩ := ih _ (h.step c hf.1) hf.2
    refine ⟨h1, ?_⟩
    rw [asked_cons, ← List.append_assoc]
    refine (List.Perm.append_right _ (futures_step l s c h hf.1)).trans ?_
    simp only [Spec.run, resolved_append, List.append_assoc]
    exact List.Perm.append_left _ h2

/-! ### Order -/

/-- The waiting future comes with variables. -/
def Aimed (s : S) : Prop := ∀ a, s.me = some a → ∀ q, a.waiting = some q →
  (a.kind = some .conn → q.2.1.isSome) ∧ q.2.2.isSome

/-- The listener will not say anything any more. -/
def Dead (l : Nat) (s : S) : Prop := (s.me = none ∧ l < s.n) ∨ ∃ a, s.me = some a ∧ a.ec ≠ .ok

theorem hand_handed (l : Nat) (v : Val) (q : Nat × Option Nat × Option Nat)
    (h : (v.kind = .conn → q.2.1.isSome) ∧ q.2.2.isSome) : handed (hand l v q) = [nums v] := by
  obtain ⟨f, ref, ev⟩ := q
  cases v <;> cases ref <;> cases ev <;> simp_all [hand, handed, nums, Val.kind]

theorem close_handed (l : Nat) (a : L) (ec : Ec) : handed (Spec.close l a ec).2 = [] := by
  cases h : a.waiting <;> simp [Spec.close, h, handed]

theorem stop_handed (l : Nat) (a : L) : handed (Spec.stop l a).2 = [] := by
  unfold Spec.stop
  split
  · exact close_handed ..
  · rfl

/-- What one call does to the queue. -/
structure Order (l : Nat) (s : S) (c : Call) : Prop where
  aimed : Aimed (Spec.step l s c).1
  order : ∃ d, (queue s ++ offered l s [c]).map nums =
    handed (Spec.step l s c).2 ++ ((queue (Spec.step l s c).1).map nums ++ d) ∧ (d ≠ [] → Dead l (Spec.step l s c).1)

theorem offered_cons (l : Nat) (s : S) (c : Call) (cs : List Call) :
    offered l s (c :: cs) = offered l s [c] ++ offered l (Spec.step l s c).1 cs := by
  cases c <;> simp [offered]

theorem Order.quiet {l : Nat} {s : S} {c : Call} (hp : Aimed (Spec.step l s c).1)
    (hq : queue (Spec.step l s c).1 = queue s) (ho : offered l s [c] = []) (hh : handed (Spec.step l s c).2 = []) :
    Order l s c := ⟨hp, [], by rw [hq, ho, hh]; simp, by simp⟩

theorem Order.skip {l : Nat} {s : S} {c : Call} {os : List Out} (hp : Aimed s) (hs : Spec.step l s c = (s, os))
    (ho : offered l s [c] = []) (hh : handed os = []) : Order l s c :=
  Order.quiet (by rw [hs]; exact hp) (by rw [hs]) ho (by rw [hs]; exact hh)

theorem stop_order {l : Nat} {s : S} {c : Call} {a : L} {os : List Out} (hp : Aimed s) (ha : s.me = some a)
    (hs : Spec.step l s c = ({ s with me := some (Spec.stop l a).1 }, (Spec.stop l a).2 ++ os)) (hos : handed os = [])
    (ho : offered l s [c] = []) : Order l s c := by
  by_cases hopen : a.isOpen = true
  · have e : Spec.stop l a = Spec.close l a .stopped := by simp [Spec.stop, hopen]
    refine ⟨?_, (queue s).map nums, ?_, fun _ => ?_⟩
    · rw [hs, e]; intro b hb q hq; injection hb with hb; subst hb; simp [Spec.close] at hq
    · rw [hs, ho, handed_append, stop_handed, hos, e]; simp [queue, Spec.close]
    · rw [hs, e]; exact .inr ⟨_, rfl, by simp [Spec.close]⟩
  · have e : Spec.stop l a = (a, []) := by simp [Spec.stop, hopen]
    have hsame : ({ s with me := some a } : S) = s := by rw [← ha]
    exact Order.skip hp (by rw [hs, e, hsame]) ho (by simpa using hos)

theorem order_step (l : Nat) (s : S) (c : Call) (h : Sane l s) (hp : Aimed s) (hf : fine l s c) (hg : Given l [c]) :
    Order l s c := by
  cases c with
  | new mem =>
    cases mem with
    | false => exact Order.skip (os := []) hp (by simp [Spec.step]) rfl rfl
    | true =>
      by_cases e : s.n = l
      · have : s.me = none := Classical.byContradiction fun hn => by have := h.mine hn; omega
        refine Order.quiet ?_ ?_ rfl ?_
        · intro a ha q hq
          simp only [Spec.step, if_true, if_pos e] at ha
          injection ha with ha; subst ha; cases hq
        · simp [Spec.step, e, queue, this]
        · simp [Spec.step, e, handed]
      · refine Order.quiet ?_ ?_ rfl ?_
        · intro a ha
          simp only [Spec.step, if_true, if_neg e] at ha
          exact hp a ha
        · simp [Spec.step, e, queue]
        · simp [Spec.step, e, handed]
  | init k j mem =>
    by_cases e : j = l
    · obtain ⟨a, ha, hk⟩ := hf e
      obtain ⟨r1, r2, r3⟩ := h.raw a ha hk
      cases mem with
      | false => exact Order.skip hp (by simp [Spec.step, e]; rfl) rfl rfl
      | true =>
        refine Order.quiet ?_ ?_ rfl ?_
        · intro b hb q hq
          simp only [Spec.step, if_pos e, if_true, on, ha] at hb
          injection hb with hb; subst hb
          rw [r2] at hq; cases hq
        · simp [Spec.step, e, on, ha, queue]
        · simp [Spec.step, e, on, ha, handed]
    · exact Order.skip hp (by simp [Spec.step, e]; rfl) rfl rfl
  | listen k j f ref ev =>
    by_cases e : j = l
    · obtain ⟨hne, _⟩ := hf e
      obtain ⟨a, ha⟩ := Option.ne_none_iff_exists'.1 hne
      subst e
      obtain ⟨g1, g2⟩ := hg k f ref ev (by simp)
      have hs : Spec.step j s (.listen k j f ref ev) =
          ({ s with me := some (Spec.listen j a k f ref ev).1 }, (Spec.listen j a k f ref ev).2) := by
        simp [Spec.step, on, ha]
      have hsame : ({ s with me := some a } : S) = s := by rw [← ha]
      have triv : ∀ e, Spec.listen j a k f ref ev = (a, [.resolve j f e]) → Order j s (.listen k j f ref ev) := by
        intro e he
        exact Order.skip hp (by rw [hs, he, hsame]) rfl rfl
      by_cases c1 : a.kind = some k
      · by_cases c2 : a.ec = .ok
        · cases c3 : a.waiting with
          | some q => exact triv .operationInProgress (by simp [Spec.listen, c1, c2, c3])
          | none =>
            cases c4 : a.backlog with
            | nil =>
              have e4 : Spec.listen j a k f ref ev = ({ a with waiting := some (f, refFor k ref, ev) }, []) := by
                simp [Spec.listen, c1, c2, c3, c4]
              refine Order.quiet ?_ ?_ rfl ?_
              · rw [hs, e4]
                intro b hb q hq
                injection hb with hb; subst hb
                injection hq with hq; subst hq
                refine ⟨fun hk => ?_, g1⟩
                simp only [c1, Option.some.injEq] at hk
                subst hk
                exact g2 rfl
              · rw [hs, e4]; simp [queue, ha]
              · rw [hs, e4]; rfl
            | cons v vs =>
              have e4 : Spec.listen j a k f ref ev = ({ a with backlog := vs }, hand j v (f, refFor k ref, ev)) := by
                simp [Spec.listen, c1, c2, c3, c4]
              have hv : v.kind = k := by
                have := h.kinds a ha v (by rw [c4]; simp)
                rw [c1] at this; injection this with this; exact this.symm
              refine ⟨?_, [], ?_, by simp⟩
              · rw [hs, e4]
                intro b hb q hq
                injection hb with hb; subst hb
                simp [c3] at hq
              · rw [hs, e4]
                simp only
                rw [hand_handed j v _ ⟨fun hk => by rw [hv] at hk; subst hk; exact g2 rfl, g1⟩]
                simp [queue, ha, c4, offered]
        · exact triv a.ec (by simp [Spec.listen, c1, c2])
      · exact triv .invalidArgument (by simp [Spec.listen, c1])
    · exact Order.skip hp (by simp [Spec.step, e]; rfl) rfl rfl
  | stop j =>
    by_cases e : j = l
    · obtain ⟨a, ha⟩ := Option.ne_none_iff_exists'.1 (hf e)
      exact stop_order hp ha (os := [.ret l (if a.kind = none then .invalidState else .ok)])
        (by simp [Spec.step, e, on, ha]) rfl rfl
    · exact Order.skip hp (by simp [Spec.step, e]; rfl) rfl rfl
  | free j =>
    by_cases e : j = l
    · obtain ⟨a, ha, hopen⟩ := hf e
      have hb : a.backlog = [] := by
        cases hk : a.kind with
        | none => exact (h.raw a ha hk).2.2
        | some k => exact (h.over a ha fun he => by simp [L.isOpen, hk, he] at hopen).2
      refine Order.quiet ?_ ?_ rfl ?_
      · intro b hb; simp [Spec.step, e] at hb
      · simp [Spec.step, e, queue, ha, hb]
      · simp [Spec.step, e, handed]
    · exact Order.skip hp (by simp [Spec.step, e]; rfl) rfl rfl
  | stopAll =>
    cases ha : s.me with
    | none => exact Order.skip hp (by simp [Spec.step, on, ha]; rfl) rfl rfl
    | some a => exact stop_order hp ha (os := []) (by simp [Spec.step, on, ha]) rfl rfl
  | notify v mem =>
    cases ha : s.me with
    | none => exact Order.skip hp (by simp [Spec.step, on, ha]; rfl) (by simp [offered, ha]) rfl
    | some a =>
      have hs : Spec.step l s (.notify v mem) =
          ({ s with me := some (Spec.offer l a v (mem l)).1 }, (Spec.offer l a v (mem l)).2) := by
        simp [Spec.step, on, ha]
      by_cases c1 : a.kind = some v.kind ∧ a.ec = .ok
      · cases c2 : mem l with
        | true =>
          have ho : offered l s [.notify v mem] = [v] := by simp [offered, ha, c1, c2]
          cases c3 : a.waiting with
          | some q =>
            have e : Spec.offer l a v (mem l) = ({ a with waiting := none }, hand l v q) := by
              simp [Spec.offer, c1, c2, c3]
            have hb : a.backlog = [] := by
              rcases h.one a ha with h1 | h1
              · rw [c3] at h1; cases h1
              · exact h1
            refine ⟨?_, [], ?_, by simp⟩
            · rw [hs, e]; intro b hb q hq; injection hb with hb; subst hb; cases hq
            · rw [hs, e, ho]
              simp only
              have := hp a ha q c3
              rw [hand_handed l v q ⟨fun hk => this.1 (by rw [c1.1, hk]), this.2⟩]
              simp [queue, ha, hb]
          | none =>
            have e : Spec.offer l a v (mem l) = ({ a with backlog := a.backlog ++ [v] }, []) := by
              simp [Spec.offer, c1, c2, c3]
            refine ⟨?_, [], ?_, by simp⟩
            · rw [hs, e]; intro b hb q hq; injection hb with hb; subst hb; simp [c3] at hq
            · rw [hs, e, ho]; simp [queue, ha, handed]
        | false =>
          have ho : offered l s [.notify v mem] = [] := by simp [offered, ha, c2]
          have e : Spec.offer l a v (mem l) = Spec.close l a .outOfMemory := by
            simp [Spec.offer, c1, c2]
          refine ⟨?_, (queue s).map nums, ?_, fun _ => ?_⟩
          · rw [hs, e]; intro b hb q hq; injection hb with hb; subst hb; simp [Spec.close] at hq
          · rw [hs, e, ho]; simp only; rw [close_handed]; simp [queue, Spec.close]
          · rw [hs, e]; exact .inr ⟨_, rfl, by simp [Spec.close]⟩
      · have e : Spec.offer l a v (mem l) = (a, []) := by simp [Spec.offer, c1]
        have hsame : ({ s with me := some a } : S) = s := by rw [← ha]
        refine Order.skip hp (by rw [hs, e, hsame]) ?_ rfl
        simp only [offered, ha, List.append_nil]
        exact if_neg fun hc => c1 ⟨hc.1, hc.2.1⟩

/-- A listener at its end stays there. -/
theorem dead_step (l : Nat) (s : S) (c : Call) (h : Sane l s) (hf : fine l s c) (hd : Dead l s) :
    Dead l (Spec.step l s c).1 ∧ offered l s [c] = [] := by
  rcases hd with ⟨hn, hlt⟩ | ⟨a, ha, he⟩
  · refine ⟨?_, by cases c <;> simp [offered, hn]⟩
    cases c with
    | new mem =>
      cases mem
      · exact .inl ⟨hn, hlt⟩
      · have : s.n ≠ l := by omega
        simp only [Spec.step, if_true, if_neg this]
        exact .inl ⟨hn, Nat.lt_succ_of_lt hlt⟩
    | init k j mem => cases mem <;> by_cases e : j = l <;> simp [Spec.step, e, on, hn] <;> exact .inl ⟨hn, hlt⟩
    | listen k j f ref ev => by_cases e : j = l <;> simp [Spec.step, e, on, hn] <;> exact .inl ⟨hn, hlt⟩
    | stop j => by_cases e : j = l <;> simp [Spec.step, e, on, hn] <;> exact .inl ⟨hn, hlt⟩
    | free j =>
      by_cases e : j = l
      · simp only [Spec.step, if_pos e]; exact .inl ⟨rfl, hlt⟩
      · simp only [Spec.step, if_neg e]; exact .inl ⟨hn, hlt⟩
    | stopAll => simp only [Spec.step, on, hn]; exact .inl ⟨hn, hlt⟩
    | notify v mem => simp only [Spec.step, on, hn]; exact .inl ⟨hn, hlt⟩
  · refine ⟨?_, by cases c <;> simp [offered, ha, he]⟩
    have hlt := h.mine (by simp [ha])
    have hstop : Spec.stop l a = (a, []) := by simp [Spec.stop, L.isOpen, he]
    cases c with
    | new mem =>
      cases mem
      · exact .inr ⟨a, ha, he⟩
      · have : s.n ≠ l := by omega
        simp only [Spec.step, if_true, if_neg this]
        exact .inr ⟨a, ha, he⟩
    | init k j mem =>
      by_cases e : j = l
      · obtain ⟨b, hb, hk⟩ := hf e
        rw [ha] at hb; injection hb with hb; subst hb
        exact absurd (h.raw a ha hk).1 he
      · simp only [Spec.step, if_neg e]; exact .inr ⟨a, ha, he⟩
    | listen k j f ref ev =>
      by_cases e : j = l
      · have : (Spec.listen l a k f ref ev).1 = a := by
          unfold Spec.listen
          split
          · rfl
          · rfl
        simp only [Spec.step, if_pos e, on, ha, this]
        exact .inr ⟨a, rfl, he⟩
      · simp only [Spec.step, if_neg e]; exact .inr ⟨a, ha, he⟩
    | stop j =>
      by_cases e : j = l
      · simp only [Spec.step, if_pos e, on, ha, hstop]; exact .inr ⟨a, rfl, he⟩
      · simp only [Spec.step, if_neg e]; exact .inr ⟨a, ha, he⟩
    | free j =>
      by_cases e : j = l
      · simp only [Spec.step, if_pos e]; exact .inl ⟨rfl, hlt⟩
      · simp only [Spec.step, if_neg e]; exact .inr ⟨a, ha, he⟩
    | stopAll => simp only [Spec.step, on, ha, hstop]; exact .inr ⟨a, rfl, he⟩
    | notify v mem =>
      have : Spec.offer l a v (mem l) = (a, []) := by simp [Spec.offer, he]
      simp only [Spec.step, on, ha, this]; exact .inr ⟨a, rfl, he⟩

theorem dead_run (l : Nat) (cs : List Call) : ∀ s, Sane l s → Fine l s cs → Dead l s →
    Dead l (Spec.run l s cs).1 ∧ offered l s cs = [] := by
  induction cs with
  | nil => intro s _ _ h; exact ⟨h, rfl⟩
  | cons c cs ih =>
    intro s hs hf h
    obtain ⟨h1, h2⟩ := dead_step l s c hs hf.1 h
    obtain ⟨h3, h4⟩ := ih _ (hs.step c hf.1) hf.2 h1
    exact ⟨h3, by rw [offered_cons, h2, h4]; rfl⟩

theorem dead_queue {l : Nat} {s : S} (h : Sane l s) (hd : Dead l s) : queue s = [] := by
  rcases hd with ⟨hn, _⟩ | ⟨a, ha, he⟩
  · simp [queue, hn]
  · simp [queue, ha, (h.over a ha he).2]

theorem order_run (l : Nat) (cs : List Call) : ∀ s, Sane l s → Aimed s → Fine l s cs → Given l cs →
    Sane l (Spec.run l s cs).1 ∧ Aimed (Spec.run l s cs).1 ∧
    ∃ d, (queue s ++ offered l s cs).map nums =
      handed (Spec.run l s cs).2 ++ ((queue (Spec.run l s cs).1).map nums ++ d) ∧
      (d ≠ [] → Dead l (Spec.run l s cs).1) := by
  induction cs with
  | nil => intro s h hp _ _; exact ⟨h, hp, [], by simp [offered, Spec.run, handed], by simp⟩
  | cons c cs ih =>
    intro s h hp hf hg
    have hg1 : Given l [c] := fun k f ref ev hm => hg k f ref ev (by rw [List.mem_singleton] at hm; simp [hm])
    have hg2 : Given l cs := fun k f ref ev hm => hg k f ref ev (by simp [hm])
    obtain ⟨ha, d, he, hd⟩ := order_step l s c h hp hf.1 hg1
    have hs := h.step c hf.1
    obtain ⟨i1, i2, d', ie, id⟩ := ih _ hs ha hf.2 hg2
    refine ⟨i1, i2, ?_⟩
    by_cases hdn : d = []
    · subst hdn
      refine ⟨d', ?_, id⟩
      rw [offered_cons, ← List.append_assoc, List.map_append, he, List.append_nil]
      simp only [Spec.run, handed_append, List.append_assoc, List.map_append] at ie ⊢
      rw [ie]
    · have hdead := hd hdn
      obtain ⟨k1, k2⟩ := dead_run l cs _ hs hf.2 hdead
      have q1 := dead_queue hs hdead
      rw [q1, k2] at ie
      simp only [List.append_nil, List.map_nil] at ie
      have ie' := List.append_eq_nil_iff.1 ie.symm
      refine ⟨d, ?_, fun _ => k1⟩
      rw [offered_cons, k2, List.append_nil, he, q1]
      simp only [Spec.run, handed_append, ie'.1]
      rw [(List.append_eq_nil_iff.1 ie'.2).1]
      simp

/-! ### Other listeners -/

theorem without_cons (m : Nat) (c : Call) (cs : List Call) : without m (c :: cs) = without m [c] ++ without m cs := by
  simp only [without]; rw [← List.filter_append]; rfl

theorem without_skip (l m : Nat) (h : l ≠ m) (c : Call) (s : S) :
    without m [c] = [c] ∨ (without m [c] = [] ∧ Spec.step l s c = (s, [])) := by
  cases c with
  | new mem => exact .inl rfl
  | init k j mem =>
    by_cases e : j = m
    · subst e; exact .inr ⟨by simp [without], by simp [Spec.step, Ne.symm h]⟩
    · exact .inl (by simp [without, e])
  | listen k j f ref ev =>
    by_cases e : j = m
    · subst e; exact .inr ⟨by simp [without], by simp [Spec.step, Ne.symm h]⟩
    · exact .inl (by simp [without, e])
  | stop j =>
    by_cases e : j = m
    · subst e; exact .inr ⟨by simp [without], by simp [Spec.step, Ne.symm h]⟩
    · exact .inl (by simp [without, e])
  | free j =>
    by_cases e : j = m
    · subst e; exact .inr ⟨by simp [without], by simp [Spec.step, Ne.symm h]⟩
    · exact .inl (by simp [without, e])
  | stopAll => exact .inl rfl
  | notify v mem => exact .inl rfl

theorem without_run (l m : Nat) (h : l ≠ m) (cs : List Call) : ∀ s, Spec.run l s (without m cs) = Spec.run l s cs := by
  induction cs with
  | nil => intro s; rfl
  | cons c cs ih =>
    intro s
    rw [without_cons]
    rcases without_skip l m h c s with e | ⟨e, e'⟩
    · rw [e]; simp only [List.singleton_append, Spec.run, ih]
    · rw [e, List.nil_append, ih]; simp [Spec.run, e']

theorem without_fine (l m : Nat) (h : l ≠ m) (cs : List Call) : ∀ s, Fine l s cs → Fine l s (without m cs) := by
  induction cs with
  | nil => intro s hf; exact hf
  | cons c cs ih =>
    intro s hf
    rw [without_cons]
    rcases without_skip l m h c s with e | ⟨e, e'⟩
    · rw [e]; exact ⟨hf.1, ih _ hf.2⟩
    · rw [e, List.nil_append]
      have := hf.2
      rw [e'] at this
      exact ih _ this

theorem without_self (m : Nat) (cs : List Call) : ∀ s, Fine m s (without m cs) := by
  induction cs with
  | nil => intro s; trivial
  | cons c cs ih =>
    intro s
    rw [without_cons]
    cases c with
    | new mem => exact ⟨trivial, ih _⟩
    | init k j mem =>
      by_cases e : j = m
      · simpa [without, e] using ih s
      · have : without m [Call.init k j mem] = [.init k j mem] := by simp [without, e]
        rw [this]; exact ⟨fun e' => absurd e' e, ih _⟩
    | listen k j f ref ev =>
      by_cases e : j = m
      · simpa [without, e] using ih s
      · have : without m [Call.listen k j f ref ev] = [.listen k j f ref ev] := by simp [without, e]
        rw [this]; exact ⟨fun e' => absurd e' e, ih _⟩
    | stop j =>
      by_cases e : j = m
      · simpa [without, e] using ih s
      · have : without m [Call.stop j] = [.stop j] := by simp [without, e]
        rw [this]; exact ⟨fun e' => absurd e' e, ih _⟩
    | free j =>
      by_cases e : j = m
      · simpa [without, e] using ih s
      · have : without m [Call.free j] = [.free j] := by simp [without, e]
        rw [this]; exact ⟨fun e' => absurd e' e, ih _⟩
    | stopAll => exact ⟨trivial, ih _⟩
    | notify v mem => exact ⟨trivial, ih _⟩

end Verif.Api.Events
