import Verif.Dtls.IdentitySpec

/-!
# Which key a device has after it was started — lemmas
-/

namespace Verif.Dtls.Identity

open Spec

theorem run_snoc (l : Lib) (t : Tolerance) (ops : List Op) (o : Op) : run l t (ops ++ [o]) = step l t (run l t ops) o := by
  simp [run]

theorem run_app (l : Lib) (t : Tolerance) (ops more : List Op) : run l t (ops ++ more) = more.foldl (step l t) (run l t ops) := by
  simp [run]

theorem snoc_ops {p : List Op → Prop} (h0 : p []) (h1 : ∀ ops o, p ops → p (ops ++ [o])) : ∀ ops, p ops := by
  intro ops
  have : ∀ n (ops : List Op), ops.length = n → p ops := by
    intro n
    induction n with
    | zero => intro ops h; rw [List.length_eq_zero_iff.1 h]; exact h0
    | succ n ih =>
      intro ops h
      have hne : ops ≠ [] := by intro e; simp [e] at h
      rw [← List.dropLast_concat_getLast hne]
      exact h1 _ _ (ih _ (by simp [h]))
  exact this _ ops rfl

/-! ## Parts of a start -/

theorem cliMbed_rest (s : St) (k : Nat) (w : Works) :
    (s.cliMbed k w).1.key = s.key ∧ (s.cliMbed k w).1.ids = s.ids ∧ (s.cliMbed k w).1.srvCrt = s.srvCrt ∧
    (s.cliMbed k w).1.srvPk = s.srvPk ∧ (s.cliMbed k w).1.seeded = s.seeded ∧ (s.cliMbed k w).1.misuse = s.misuse ∧
    (s.cliMbed k w).1.fp = s.fp ∧
    (s.cliMbed k w).1.lost = s.lost ++ s.cliCrt.map .cert ++ (s.cliPk.map .key).toList := by
  unfold St.cliMbed
  dsimp only
  split
  · simp
  · split <;> simp

theorem cliMbed_ok (s : St) (k : Nat) (w : Works) (h : (s.cliMbed k w).2 = true) :
    (s.cliMbed k w).1.cliCrt = [k] ∧ (s.cliMbed k w).1.cliPk = some k := by
  unfold St.cliMbed at h ⊢
  dsimp only at h ⊢
  split at h
  · cases h
  · rename_i h1
    rw [if_neg h1]
    split at h
    · cases h
    · rename_i h2
      rw [if_neg h2]
      exact ⟨rfl, rfl⟩

theorem srvMbed_rest (t : Tolerance) (s : St) (k : Nat) (w : Works) :
    (s.srvMbed t k w).1.key = s.key ∧ (s.srvMbed t k w).1.ids = s.ids ∧ (s.srvMbed t k w).1.cliCrt = s.cliCrt ∧
    (s.srvMbed t k w).1.cliPk = s.cliPk ∧ (s.srvMbed t k w).1.fp = s.fp ∧ (s.srvMbed t k w).1.lost = s.lost ∧
    (∃ m, (s.srvMbed t k w).1.srvCrt = s.srvCrt ++ m) ∧ (s.seeded = true → (s.srvMbed t k w).1.seeded = true) ∧
    (s.misuse = true → (s.srvMbed t k w).1.misuse = true) ∧
    (s.seeded = true → w.srvConf = true → (s.srvMbed t k w).1.misuse = true) := by
  unfold St.srvMbed
  dsimp only
  split
  · refine ⟨rfl, rfl, rfl, rfl, rfl, rfl, ⟨[], by simp⟩, id, id, ?_⟩
    rename_i h1
    intro _ h2
    simp [h2] at h1
  · split
    · refine ⟨rfl, rfl, rfl, rfl, rfl, rfl, ⟨[], by simp⟩, id, ?_, ?_⟩
      · intro h; simp [h]
      · intro h _; simp [h]
    · split
      · refine ⟨rfl, rfl, rfl, rfl, rfl, rfl, ⟨[], by simp⟩, fun _ => rfl, ?_, ?_⟩
        · intro h; simp [h]
        · intro h _; simp [h]
      · split
        · split
          · refine ⟨rfl, rfl, rfl, rfl, rfl, rfl, ⟨[k], rfl⟩, fun _ => rfl, ?_, ?_⟩
            · intro h; simp [h]
            · intro h _; simp [h]
          · refine ⟨rfl, rfl, rfl, rfl, rfl, rfl, ⟨[k], rfl⟩, fun _ => rfl, ?_, ?_⟩
            · intro h; simp [h]
            · intro h _; simp [h]
        · exact ⟨rfl, rfl, rfl, rfl, rfl, rfl, ⟨[k], rfl⟩, fun _ => rfl, fun _ => rfl, fun _ _ => rfl⟩

/-- A server which was not used yet. -/
theorem srvMbed_fresh (t : Tolerance) (s : St) (k : Nat) (w : Works) (h1 : s.srvCrt = []) (h2 : s.srvPk = none)
    (h3 : s.seeded = false) (h : (s.srvMbed t k w).2 = true) :
    (s.srvMbed t k w).1 = { s with seeded := true, srvCrt := [k], srvPk := some k } := by
  unfold St.srvMbed at h ⊢
  dsimp only at h ⊢
  simp only [h3, h2, h1, Bool.or_false, List.nil_append] at h ⊢
  split at h
  · cases h
  · rename_i a
    rw [if_neg a]
    split at h
    · cases h
    · rename_i b
      rw [if_neg b]
      split at h
      · cases h
      · rename_i c
        rw [if_neg c]
        split at h
        · cases h
        · rename_i d
          rw [if_neg d]

theorem cliWolf_rest (s : St) (k : Nat) (w : Works) :
    (s.cliWolf k w).1.key = s.key ∧ (s.cliWolf k w).1.lost = s.lost ∧ (s.cliWolf k w).1.misuse = s.misuse ∧
    (s.cliWolf k w).1.fp = s.fp ∧ ((s.cliWolf k w).2 = true → (s.cliWolf k w).1.cliCrt = [k] ∧ (s.cliWolf k w).1.cliPk = some k) := by
  unfold St.cliWolf
  dsimp only
  split
  · simp
  · split <;> simp

theorem srvWolf_rest (s : St) (k : Nat) (w : Works) :
    (s.srvWolf k w).1.key = s.key ∧ (s.srvWolf k w).1.lost = s.lost ∧ (s.srvWolf k w).1.misuse = s.misuse ∧
    (s.srvWolf k w).1.fp = s.fp ∧ (s.srvWolf k w).1.cliCrt = s.cliCrt ∧ (s.srvWolf k w).1.cliPk = s.cliPk ∧
    ((s.srvWolf k w).2 = true → (s.srvWolf k w).1.srvCrt = [k] ∧ (s.srvWolf k w).1.srvPk = some k) := by
  unfold St.srvWolf
  dsimp only
  split
  · simp
  · split
    · simp
    · split <;> simp

/-- Each start with MbedTLS. -/
theorem start_mbed (t : Tolerance) (s : St) (w : Works) :
    (s.start .mbed t w).1.key = s.key ∧ (∃ m, (s.start .mbed t w).1.srvCrt = s.srvCrt ++ m) ∧
    (s.seeded = true → (s.start .mbed t w).1.seeded = true) ∧ (s.misuse = true → (s.start .mbed t w).1.misuse = true) ∧
    ((s.key = none ∧ (s.start .mbed t w).1 = s) ∨
      (s.start .mbed t w).1.lost = s.lost ++ s.cliCrt.map .cert ++ (s.cliPk.map .key).toList) := by
  unfold St.start
  split
  · rename_i h
    exact ⟨rfl, ⟨[], by simp⟩, id, id, Or.inl ⟨h, rfl⟩⟩
  · rename_i k hk
    have key : ∀ r : St × Bool, r = s.setKeys .mbed t k w →
        r.1.key = s.key ∧ (∃ m, r.1.srvCrt = s.srvCrt ++ m) ∧ (s.seeded = true → r.1.seeded = true) ∧
        (s.misuse = true → r.1.misuse = true) ∧ r.1.lost = s.lost ++ s.cliCrt.map .cert ++ (s.cliPk.map .key).toList := by
      intro r hr
      obtain ⟨a1, _, a3, a4, a5, a6, _, a8⟩ := cliMbed_rest { s with fp := some k } k w
      obtain ⟨b1, _, _, _, _, b6, ⟨m, b7⟩, b8, b9, _⟩ := srvMbed_rest t (St.cliMbed { s with fp := some k } k w).1 k w
      unfold St.setKeys at hr
      dsimp only at hr
      split at hr
      · rw [hr]
        exact ⟨a1, ⟨[], by simp [a3]⟩, fun h => by rw [a5]; exact h, fun h => by rw [a6]; exact h, a8⟩
      · rw [hr]
        exact ⟨b1.trans a1, ⟨m, b7.trans (by rw [a3])⟩, fun h => b8 (by rw [a5]; exact h), fun h => b9 (by rw [a6]; exact h),
          b6.trans a8⟩
    obtain ⟨c1, c2, c3, c4, c5⟩ := key _ rfl
    dsimp only
    split
    · exact ⟨c1, c2, c3, c4, Or.inr c5⟩
    · split
      · exact ⟨c1, c2, c3, c4, Or.inr c5⟩
      · split <;> exact ⟨c1, c2, c3, c4, Or.inr c5⟩

theorem start_fst (l : Lib) (t : Tolerance) {s : St} {k : Nat} (hk : s.key = some k) (w : Works) :
    (s.start l t w).1 = (s.setKeys l t k w).1 := by
  unfold St.start
  split
  · rename_i h
    rw [hk] at h
    cases h
  · rename_i k' h
    rw [hk] at h
    cases h
    dsimp only
    split
    · rfl
    · split
      · rfl
      · split <;> rfl

/-- A start whose steps all work sets the client and seeds the server. -/
theorem start_works (t : Tolerance) (s : St) (k : Nat) (hk : s.key = some k) :
    (s.start .mbed t {}).1.cliCrt = [k] ∧ (s.start .mbed t {}).1.cliPk = some k ∧ (s.start .mbed t {}).1.seeded = true ∧
    (s.seeded = true → (s.start .mbed t {}).1.misuse = true) := by
  have e : (s.start .mbed t {}).1 = (St.srvMbed t (St.cliMbed { s with fp := some k } k {}).1 k {}).1 := start_fst .mbed t hk {}
  obtain ⟨_, _, _, _, a5, _⟩ := cliMbed_rest { s with fp := some k } k {}
  obtain ⟨_, _, b3, b4, _, _, _, _, _, b10⟩ := srvMbed_rest t (St.cliMbed { s with fp := some k } k {}).1 k {}
  rw [e]
  refine ⟨b3, b4, ?_, fun h => b10 (by rw [a5]; exact h) rfl⟩
  unfold St.srvMbed
  generalize (St.cliMbed { s with fp := some k } k {}).1 = x
  dsimp only
  rw [if_neg (by simp)]
  split
  · rename_i h
    cases hs : x.seeded
    · simp [St.seeds, hs] at h
    · rfl
  · rw [if_neg (by simp)]
    split <;> rfl

theorem start_key (l : Lib) (t : Tolerance) (s : St) (w : Works) : (s.start l t w).1.key = s.key := by
  cases l
  · exact (start_mbed t s w).1
  · cases hk : s.key with
    | none =>
      unfold St.start
      rw [hk]
      exact hk
    | some k =>
      rw [start_fst .wolf t hk w, ← hk]
      have a := (cliWolf_rest { s with fp := some k } k w).1
      unfold St.setKeys
      dsimp only
      split
      · exact a
      · exact (srvWolf_rest _ k w).1.trans a

/-! ## Histories -/

theorem key_iff (l : Lib) (t : Tolerance) (ops : List Op) (k : Nat) : (run l t ops).key = some k ↔ LastKey ops k := by
  revert k
  induction ops using snoc_ops with
  | h0 =>
    intro k
    constructor
    · intro h; cases h
    · rintro ⟨pre, post, h, _⟩
      simp at h
  | h1 ops o ih =>
    intro k
    rw [run_snoc]
    have keep : (∀ j, o ≠ .setKey j) → (LastKey ops k ↔ LastKey (ops ++ [o]) k) := by
      intro ho
      constructor
      · rintro ⟨pre, post, h, hp⟩
        refine ⟨pre, post ++ [o], by simp [h], ?_⟩
        intro j hj
        rcases List.mem_append.1 hj with hj | hj
        · exact hp j hj
        · exact ho j (List.mem_singleton.1 hj).symm
      · rintro ⟨pre, post, h, hp⟩
        rcases List.eq_nil_or_concat post with rfl | ⟨post', x, rfl⟩
        · have := List.append_inj' h rfl
          exact absurd (by simpa using this.2) (ho k)
        · have h' : ops ++ [o] = (pre ++ .setKey k :: post') ++ [x] := by rw [h]; simp
          have := List.append_inj' h' rfl
          exact ⟨pre, post', this.1, fun j hj => hp j (by simp [hj])⟩
    cases o with
    | setKey j =>
      show some j = some k ↔ _
      constructor
      · intro h
        cases h
        exact ⟨ops, [], rfl, by simp⟩
      · rintro ⟨pre, post, h, hp⟩
        rcases List.eq_nil_or_concat post with rfl | ⟨post', x, rfl⟩
        · have := (List.append_inj' h rfl).2
          simpa using this
        · have h' : ops ++ [Op.setKey j] = (pre ++ .setKey k :: post') ++ [x] := by rw [h]; simp
          have h3 : [Op.setKey j] = [x] := (List.append_inj' h' rfl).2
          cases h3
          exact absurd (by simp) (hp j)
    | setIds => exact (ih k).trans (keep (by intro j h; cases h))
    | start w =>
      show ((run l t ops).start l t w).1.key = some k ↔ _
      rw [start_key]
      exact (ih k).trans (keep (by intro j h; cases h))

/-- Nothing was given to the libraries. -/
structure Fresh (s : St) : Prop where
  cliCrt : s.cliCrt = []
  cliPk : s.cliPk = none
  srvCrt : s.srvCrt = []
  srvPk : s.srvPk = none
  seeded : s.seeded = false
  lost : s.lost = []
  misuse : s.misuse = false

theorem untried_fresh (l : Lib) (t : Tolerance) (ops : List Op) (h : Untried ops) : Fresh (run l t ops) := by
  induction ops using snoc_ops with
  | h0 => exact ⟨rfl, rfl, rfl, rfl, rfl, rfl, rfl⟩
  | h1 ops o ih =>
    have hp : Untried ops := by
      intro pre k post w e hw
      exact h pre k (post ++ [o]) w (by simp [e]) (by simp [hw])
    obtain ⟨a, b, c, d, e, f, g⟩ := ih hp
    rw [run_snoc]
    cases o with
    | setKey j => exact ⟨a, b, c, d, e, f, g⟩
    | setIds => exact ⟨a, b, c, d, e, f, g⟩
    | start w =>
      have hn : (run l t ops).key = none := by
        cases hk : (run l t ops).key with
        | none => rfl
        | some k =>
          obtain ⟨pre, post, e, _⟩ := (key_iff l t ops k).1 hk
          exact absurd (by simp) (h pre k (post ++ [.start w]) w (by simp [e]))
      have : step l t (run l t ops) (.start w) = run l t ops := by
        show ((run l t ops).start l t w).1 = _
        unfold St.start
        rw [hn]
      rw [this]
      exact ⟨a, b, c, d, e, f, g⟩

end Verif.Dtls.Identity
