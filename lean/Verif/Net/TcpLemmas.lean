import Verif.Net.TcpSpec

namespace Verif.Net.Tcp

open Spec

theorem snoc_ind {α : Type} {P : List α → Prop} (nil : P [])
    (snoc : ∀ ops op, P ops → P (ops ++ [op])) (ops : List α) : P ops := by
  have h : ∀ l : List α, P l.reverse := by
    intro l
    induction l with
    | nil => exact nil
    | cons a l ih => rw [List.reverse_cons]; exact snoc _ _ ih
  have := h ops.reverse
  rwa [List.reverse_reverse] at this

theorem told_append (k : Nat) (a b : List Ans) : told k (a ++ b) = told k a + told k b := by
  simp [told, List.countP_append]

theorem told_single (k : Nat) (a : Ans) : told k [a] = if a.op = k then 1 else 0 := by
  by_cases h : a.op = k <;> simp [told, h]

theorem told_zero {k : Nat} {answers : List Ans} (h : told k answers = 0) : ∀ a ∈ answers, a.op ≠ k := by
  intro a ha e
  have := List.countP_eq_zero.1 h a ha
  simp [e] at this

/-- Every operation has been told once or is in one slot. -/
structure Told (s : Slots) : Prop where
  one : ∀ k, k < s.asked → (∀ kind, s.slot kind ≠ some k) → told k s.answers = 1
  zero : ∀ k kind, s.slot kind = some k → told k s.answers = 0
  late : ∀ k, s.asked ≤ k → told k s.answers = 0
  lt : ∀ k kind, s.slot kind = some k → k < s.asked
  uniq : ∀ k a b, s.slot a = some k → s.slot b = some k → a = b

theorem Told.init : Told {} :=
  ⟨fun k h => absurd h (Nat.not_lt_zero k), fun _ _ h => (by cases h), fun _ _ => rfl,
    fun _ _ h => (by cases h), fun _ _ _ h => (by cases h)⟩

theorem Told.refuse {s : Slots} (h : Told s) (kind : Kind) (ec : Ec) : Told (s.refuse kind ec) := by
  refine ⟨?_, ?_, ?_, fun k j hk => Nat.lt_succ_of_lt (h.lt k j hk), h.uniq⟩
  · intro k hk hn
    show told k (s.answers ++ [_]) = 1
    rw [told_append, told_single]
    by_cases e : k = s.asked
    · subst e; simp [h.late _ (Nat.le_refl _)]
    · have hk : k < s.asked + 1 := hk
      rw [h.one k (by omega) hn, if_neg (Ne.symm e)]
  · intro k j hk
    show told k (s.answers ++ [_]) = 0
    have := h.lt k j hk
    rw [told_append, told_single, h.zero k j hk, if_neg (by show s.asked ≠ k; omega)]
  · intro k hk
    show told k (s.answers ++ [_]) = 0
    have hk : s.asked + 1 ≤ k := hk
    rw [told_append, told_single, h.late k (by omega), if_neg (by show s.asked ≠ k; omega)]

theorem place_slot (s : Slots) (kind j : Kind) :
    (s.place kind).slot j = if j = kind then some s.asked else s.slot j := rfl

theorem Told.place {s : Slots} (h : Told s) (kind : Kind) (hf : s.slot kind = none) : Told (s.place kind) := by
  refine ⟨?_, ?_, ?_, ?_, ?_⟩
  · intro k hk hn
    have hk : k < s.asked + 1 := hk
    have h1 := hn kind
    rw [place_slot, if_pos rfl] at h1
    have hne : k ≠ s.asked := fun e => h1 (by rw [e])
    refine h.one k (by omega) ?_
    intro j e
    have h2 := hn j
    rw [place_slot] at h2
    by_cases hj : j = kind
    · subst hj; rw [hf] at e; cases e
    · rw [if_neg hj] at h2; exact h2 e
  · intro k j e
    rw [place_slot] at e
    by_cases hj : j = kind
    · rw [if_pos hj] at e
      injection e with e
      subst e
      exact h.late _ (Nat.le_refl _)
    · rw [if_neg hj] at e; exact h.zero k j e
  · intro k hk
    have hk : s.asked + 1 ≤ k := hk
    exact h.late k (by omega)
  · intro k j e
    show k < s.asked + 1
    rw [place_slot] at e
    by_cases hj : j = kind
    · rw [if_pos hj] at e; injection e with e; omega
    · rw [if_neg hj] at e; exact Nat.lt_succ_of_lt (h.lt k j e)
  · intro k a b ea eb
    rw [place_slot] at ea eb
    by_cases ha : a = kind <;> by_cases hb : b = kind
    · rw [ha, hb]
    · rw [if_pos ha] at ea; rw [if_neg hb] at eb
      injection ea with ea
      have := h.lt k b eb; omega
    · rw [if_neg ha] at ea; rw [if_pos hb] at eb
      injection eb with eb
      have := h.lt k a ea; omega
    · rw [if_neg ha] at ea; rw [if_neg hb] at eb; exact h.uniq k a b ea eb

/-- What resolving a slot comes to. -/
inductive Resolved (s : Slots) (kind : Kind) (ec : Ec) (data : List UInt8) : Slots → Prop
  | empty : s.slot kind = none → Resolved s kind ec data s
  | full (k : Nat) : s.slot kind = some k → Resolved s kind ec data
      { s with slot := fun j => if j = kind then none else s.slot j,
               answers := s.answers ++ [⟨k, kind, ec, data⟩] }

theorem resolved (s : Slots) (kind : Kind) (ec : Ec) (data : List UInt8) :
    Resolved s kind ec data (s.resolve kind ec data) := by
  unfold Slots.resolve
  split
  · exact .full _ (by assumption)
  · exact .empty (by assumption)

@[simp] theorem resolve_asked (s : Slots) (kind : Kind) (ec : Ec) (data : List UInt8) :
    (s.resolve kind ec data).asked = s.asked := by
  unfold Slots.resolve; split <;> rfl

theorem resolve_slot (s : Slots) (kind j : Kind) (ec : Ec) (data : List UInt8) :
    (s.resolve kind ec data).slot j = if j = kind then none else s.slot j := by
  unfold Slots.resolve
  split
  · rfl
  · by_cases h : j = kind
    · subst h; simp [*]
    · simp [h]

theorem resolve_slot_le {s : Slots} {kind j : Kind} {ec : Ec} {data : List UInt8} {k : Nat}
    (h : (s.resolve kind ec data).slot j = some k) : s.slot j = some k ∧ j ≠ kind := by
  rw [resolve_slot] at h
  by_cases e : j = kind
  · rw [if_pos e] at h; cases h
  · rw [if_neg e] at h; exact ⟨h, e⟩

theorem resolve_answers {s : Slots} {kind : Kind} {ec : Ec} {data : List UInt8} {a : Ans}
    (h : a ∈ (s.resolve kind ec data).answers) :
    a ∈ s.answers ∨ (s.slot kind = some a.op ∧ a = ⟨a.op, kind, ec, data⟩) := by
  unfold Slots.resolve at h
  split at h
  · rename_i k hk
    rcases List.mem_append.1 h with h | h
    · exact .inl h
    · rw [List.mem_singleton.1 h]; exact .inr ⟨hk, rfl⟩
  · exact .inl h

theorem resolve_mem {s : Slots} {kind : Kind} {ec : Ec} {data : List UInt8} {a : Ans}
    (h : a ∈ s.answers) : a ∈ (s.resolve kind ec data).answers := by
  unfold Slots.resolve
  split
  · exact List.mem_append_left _ h
  · exact h

theorem Told.resolve {s : Slots} (h : Told s) (kind : Kind) (ec : Ec) (data : List UInt8) :
    Told (s.resolve kind ec data) := by
  have hr := resolved s kind ec data
  generalize s.resolve kind ec data = t at hr
  cases hr with
  | empty _ => exact h
  | full j hj =>
    have slot : ∀ {k' : Nat} {a : Kind}, (if a = kind then none else s.slot a) = some k' →
        s.slot a = some k' ∧ a ≠ kind := by
      intro k' a e
      by_cases ha : a = kind
      · rw [if_pos ha] at e; cases e
      · rw [if_neg ha] at e; exact ⟨e, ha⟩
    refine ⟨?_, ?_, ?_, ?_, ?_⟩
    · intro k hk hn
      show told k (s.answers ++ [_]) = 1
      rw [told_append, told_single]
      by_cases e : j = k
      · subst e; simp [h.zero j kind hj]
      · rw [if_neg e]
        refine h.one k hk ?_
        intro a ha
        by_cases hak : a = kind
        · subst hak; rw [hj] at ha; injection ha with ha; exact e ha
        · have := hn a
          simp [hak, ha] at this
    · intro k a e
      obtain ⟨e, hne⟩ := slot e
      show told k (s.answers ++ [_]) = 0
      rw [told_append, told_single, h.zero k a e, if_neg]
      intro e2
      have e2 : j = k := e2
      subst e2
      exact hne (h.uniq j a kind e hj)
    · intro k hk
      show told k (s.answers ++ [_]) = 0
      have := h.lt j kind hj
      have hk : s.asked ≤ k := hk
      rw [told_append, told_single, h.late k hk, if_neg (by show j ≠ k; omega)]
    · intro k a e
      exact h.lt k a (slot e).1
    · intro k a b ea eb
      exact h.uniq k a b (slot ea).1 (slot eb).1

theorem delivered_append (a b : List Ans) : delivered (a ++ b) = delivered a ++ delivered b := by
  simp [delivered]

theorem delivered_resolve_nil (s : Slots) (kind : Kind) (ec : Ec) :
    delivered (s.resolve kind ec []).answers = delivered s.answers := by
  unfold Slots.resolve
  split
  · rw [delivered_append]; simp [delivered]
  · rfl

theorem delivered_resolve {s : Slots} {kind : Kind} {k : Nat} (h : s.slot kind = some k) (ec : Ec)
    (d : List UInt8) : delivered (s.resolve kind ec d).answers = delivered s.answers ++ d := by
  unfold Slots.resolve
  rw [h]
  show delivered (s.answers ++ [_]) = _
  rw [delivered_append]
  simp [delivered]

theorem delivered_refuse (s : Slots) (kind : Kind) (ec : Ec) :
    delivered (s.refuse kind ec).answers = delivered s.answers := by
  show delivered (s.answers ++ [_]) = _
  rw [delivered_append]
  simp [delivered]

theorem sentOf_append (k : Nat) (a b : List (Nat × UInt8)) : sentOf k (a ++ b) = sentOf k a ++ sentOf k b := by
  simp [sentOf]

theorem sentOf_tag (k : Nat) (l : List UInt8) : sentOf k (tag k l) = l := by
  induction l with
  | nil => rfl
  | cons a l ih =>
    simp only [sentOf, tag, List.map_cons] at *
    simpa using ih

theorem sentOf_none {k : Nat} {l : List (Nat × UInt8)} (h : ∀ p ∈ l, p.1 ≠ k) : sentOf k l = [] := by
  simp only [sentOf, List.map_eq_nil_iff, List.filter_eq_nil_iff]
  intro p hp
  simp [h p hp]

theorem mem_tag {k : Nat} {l : List UInt8} {p : Nat × UInt8} (h : p ∈ tag k l) : p.1 = k := by
  obtain ⟨b, _, e⟩ := List.mem_map.1 h
  rw [← e]

end Verif.Net.Tcp
