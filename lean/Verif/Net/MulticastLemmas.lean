import Verif.Net.MulticastSpec

/-! # On which networks the mDNS server hears queries: lemmas -/

namespace Verif.Net.Multicast

theorem join_mem {k m i j} (h : j ∈ join k m i) : j ∈ m ∨ j = i := by
  unfold join at h
  split at h
  · exact .inl h
  · split at h
    · simpa using h
    · exact .inl h

theorem mem_join {k m i j} (h : j ∈ m) : j ∈ join k m i := by
  unfold join
  split
  · exact h
  · split
    · exact List.mem_append_left _ h
    · exact h

theorem join_self {k m i} (ha : k.able i = true) (hl : m.length < k.max) : i ∈ join k m i := by
  unfold join
  split
  · assumption
  · simp [ha, hl]

theorem join_length (k m i) : (join k m i).length ≤ m.length + 1 := by
  unfold join
  split
  · omega
  · split <;> simp

theorem join_nodup {k m i} (h : m.Nodup) : (join k m i).Nodup := by
  unfold join
  split
  · exact h
  · split
    · rename_i hn _
      rw [List.nodup_append]
      exact ⟨h, by simp, by rintro a ha b hb rfl; simp at hb; exact hn (hb ▸ ha)⟩
    · exact h

theorem mem_update {k j l} : ∀ {m}, j ∈ m → j ∈ update k l m := by
  induction l with
  | nil => intro m h; exact h
  | cons e l ih =>
    intro m h
    unfold update
    split
    · exact ih h
    · split
      · exact ih h
      · exact ih (mem_join h)

theorem update_all {k l} : ∀ {m}, m.length + l.length ≤ k.max →
    ∀ e ∈ l, e.addr = true → k.index e.name ≠ 0 → k.able (k.index e.name) = true → k.index e.name ∈ update k l m := by
  induction l with
  | nil => intro m _ e he; cases he
  | cons x l ih =>
    intro m hm e he h1 h2 h3
    rw [List.length_cons] at hm
    unfold update
    rcases List.mem_cons.1 he with rfl | he
    · rw [h1, Bool.not_true, if_neg (by decide), if_neg h2]
      exact mem_update (join_self h3 (by omega))
    · split
      · exact ih (by omega) e he h1 h2 h3
      · split
        · exact ih (by omega) e he h1 h2 h3
        · have := join_length k m (k.index x.name)
          exact ih (by omega) e he h1 h2 h3

theorem update_only {k j l} : ∀ {m}, j ∈ update k l m → j ∈ m ∨ ∃ e ∈ l, e.addr = true ∧ k.index e.name ≠ 0 ∧ k.index e.name = j := by
  induction l with
  | nil => intro m h; exact .inl h
  | cons x l ih =>
    intro m h
    unfold update at h
    split at h
    · rcases ih h with h | ⟨e, he, hx⟩
      · exact .inl h
      · exact .inr ⟨e, List.mem_cons_of_mem _ he, hx⟩
    · rename_i ha
      split at h
      · rcases ih h with h | ⟨e, he, hx⟩
        · exact .inl h
        · exact .inr ⟨e, List.mem_cons_of_mem _ he, hx⟩
      · rename_i hi
        rcases ih h with h | ⟨e, he, hx⟩
        · rcases join_mem h with h | h
          · exact .inl h
          · exact .inr ⟨x, List.mem_cons_self, by simpa using ha, hi, h.symm⟩
        · exact .inr ⟨e, List.mem_cons_of_mem _ he, hx⟩

theorem update_nodup {k l} : ∀ {m}, m.Nodup → (update k l m).Nodup := by
  induction l with
  | nil => intro m h; exact h
  | cons x l ih =>
    intro m h
    unfold update
    split
    · exact ih h
    · split
      · exact ih h
      · exact ih (join_nodup h)

theorem initSocket_some {k m} (h : initSocket k = some m) :
    m.length ≤ 1 ∧ m.Nodup ∧ ∀ i ∈ m, k.default = some i := by
  unfold initSocket at h
  split at h
  · cases h
  · split at h
    · cases h
    · split at h
      · cases h
      · split at h
        · cases h; exact ⟨by simp, by simp, by intro i hi; cases hi⟩
        · rename_i d hd
          cases h
          refine ⟨by simpa using join_length k [] d, join_nodup (by simp), ?_⟩
          intro i hi
          rcases join_mem hi with hi | rfl
          · cases hi
          · exact hd

theorem run_mem {i es} : ∀ {m}, i ∈ run m es ↔ i ∈ m ∧ .gone i ∉ es := by
  induction es with
  | nil => intro m; simp [run]
  | cons e es ih =>
    intro m
    rw [run, List.foldl_cons]
    show i ∈ run (step m e) es ↔ _
    rw [ih]
    cases e with
    | up j => simp [step]
    | gone j =>
      simp only [step, List.mem_filter, bne_iff_ne, ne_eq, List.mem_cons, Event.gone.injEq, not_or]
      exact and_assoc

end Verif.Net.Multicast
