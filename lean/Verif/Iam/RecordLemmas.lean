import Verif.Iam.RecordSpec

/-!
# Users and states of the IAM module as blocks of memory — lemmas
-/

namespace Verif.Iam.Record

open Verif.Iam Verif.Json Spec

/-- The accounting, with the oracle named. -/
structure H (ok : Nat → Bool) (m : Mem) (mine others : List Nat) : Prop where
  holds : Holds m mine others
  oracle : m.ok = ok

section
variable {ok : Nat → Bool} {m m' : Mem} {a a' r : List Nat} {b : Nat}

theorem H.re (h : H ok m a r) (p : ∀ x, a.count x = a'.count x) : H ok m a' r :=
  ⟨⟨h.holds.perm.trans (List.Perm.append_right r (List.perm_iff_count.mpr p)), h.holds.nodup, h.holds.old,
    h.holds.clean⟩, h.oracle⟩

theorem alloc_some (h : H ok m a r) (e : alloc m = (some b, m')) : H ok m' (b :: a) r := by
  unfold alloc at e
  split at e
  · simp only [Prod.mk.injEq, Option.some.injEq] at e
    obtain ⟨e1, e2⟩ := e
    subst e1; subst e2
    refine ⟨⟨?_, ?_, ?_, h.holds.clean⟩, h.oracle⟩
    · exact List.Perm.cons _ h.holds.perm
    · exact List.nodup_cons.mpr ⟨fun hm => Nat.lt_irrefl _ (h.holds.old _ hm), h.holds.nodup⟩
    · intro x hx
      rcases List.mem_cons.mp hx with rfl | hx
      · exact Nat.lt_succ_self _
      · exact Nat.lt_succ_of_lt (h.holds.old _ hx)
  · simp at e

theorem alloc_none (h : H ok m a r) (e : alloc m = (none, m')) : H ok m' a r ∧ ¬ ∀ n, ok n = true := by
  unfold alloc at e
  split at e
  · simp at e
  · rename_i hk
    simp only [Prod.mk.injEq, true_and] at e
    subst e
    refine ⟨⟨⟨h.holds.perm, h.holds.nodup, fun x hx => Nat.lt_succ_of_lt (h.holds.old _ hx), h.holds.clean⟩,
      h.oracle⟩, fun hp => hk ?_⟩
    rw [h.oracle]; exact hp _

theorem free_mine (h : H ok m (b :: a) r) : H ok (free m b) a r := by
  have hb : b ∈ m.live := h.holds.perm.mem_iff.mpr (by simp)
  unfold free
  rw [if_pos hb]
  refine ⟨⟨?_, h.holds.nodup.erase _, fun x hx => h.holds.old _ (List.mem_of_mem_erase hx), h.holds.clean⟩, h.oracle⟩
  have := h.holds.perm.erase b
  simpa using this

theorem strdup_some {s : String} {x : Str} (h : H ok m a r) (e : strdup m s = (some x, m')) :
    H ok m' (x.blk :: a) r ∧ x.val = s := by
  unfold strdup at e
  rcases ha : alloc m with ⟨_ | b, m1⟩
  · simp [ha] at e
  · simp only [ha, Prod.mk.injEq, Option.some.injEq] at e
    obtain ⟨rfl, rfl⟩ := e
    exact ⟨alloc_some h ha, rfl⟩

theorem strdup_none {s : String} (h : H ok m a r) (e : strdup m s = (none, m')) :
    H ok m' a r ∧ ¬ ∀ n, ok n = true := by
  unfold strdup at e
  rcases ha : alloc m with ⟨_ | b, m1⟩
  · simp only [ha, Prod.mk.injEq, true_and] at e
    subst e
    exact alloc_none h ha
  · simp [ha] at e

theorem freeStr_mine {s : Option Str} (h : H ok m (ofStr s ++ a) r) : H ok (freeStr m s) a r := by
  cases s with
  | none => simpa [ofStr, freeStr] using h
  | some s => exact free_mine h

theorem freeOpt_mine {s : Option Nat} (h : H ok m (s.toList ++ a) r) : H ok (freeOpt m s) a r := by
  cases s with
  | none => simpa [freeOpt] using h
  | some s => exact free_mine h

theorem freeSet_mine {l : List Str} (h : H ok m (l.map Str.blk ++ a) r) : H ok (freeSet m l) a r := by
  induction l generalizing m with
  | nil => exact h
  | cons x l ih => exact ih (free_mine h)

theorem freeFp_mine {f : RFp} (h : H ok m (ofFp f ++ a) r) : H ok (freeFp m f) a r := by
  unfold freeFp
  refine free_mine (free_mine (freeStr_mine (h.re ?_)))
  intro x; simp [ofFp, List.count_cons]; omega

theorem freeFps_mine {l : List RFp} (h : H ok m (l.flatMap ofFp ++ a) r) : H ok (l.foldl freeFp m) a r := by
  induction l generalizing m with
  | nil => exact h
  | cons x l ih => exact ih (freeFp_mine (by simpa using h))

theorem userFree_mine {u : RUser} (h : H ok m (ofUser u ++ a) r) : H ok (userFree m u) a r := by
  unfold userFree
  refine free_mine (freeStr_mine (freeSet_mine (freeStr_mine (freeStr_mine (freeStr_mine (freeStr_mine (freeStr_mine
    (freeFps_mine (freeStr_mine (free_mine (h.re ?_)))))))))))
  intro x; simp [ofUser, List.count_cons, List.count_append]; omega

theorem usersFree_mine {l : List RUser} (h : H ok m (l.flatMap ofUser ++ a) r) : H ok (l.foldl userFree m) a r := by
  induction l generalizing m with
  | nil => exact h
  | cons x l ih => exact ih (userFree_mine (by simpa using h))

theorem stateFree_mine {s : RState} (h : H ok m (ofState s ++ a) r) : H ok (stateFree m s) a r := by
  unfold stateFree
  refine free_mine (freeStr_mine (freeStr_mine (freeStr_mine (freeStr_mine (freeStr_mine
    (usersFree_mine (h.re ?_)))))))
  intro x; simp [ofState, List.count_cons, List.count_append]; omega

/-! ## Strings and sets -/

theorem copyStr_spec {s c : Option Str} {f : Bool} (h : H ok m a r) (e : copyStr m s = (c, f, m')) :
    H ok m' (ofStr c ++ a) r ∧ (f = false → text c = text s) ∧ ((∀ n, ok n = true) → f = false) := by
  unfold copyStr at e
  cases s with
  | none =>
    simp only [Prod.mk.injEq] at e
    obtain ⟨rfl, rfl, rfl⟩ := e
    exact ⟨h, fun _ => rfl, fun _ => rfl⟩
  | some s =>
    rcases hs : strdup m s.val with ⟨_ | x, m1⟩ <;> simp only [hs, Prod.mk.injEq] at e <;>
      obtain ⟨rfl, rfl, rfl⟩ := e
    · exact ⟨(strdup_none h hs).1, nofun, fun hp => absurd hp (strdup_none h hs).2⟩
    · obtain ⟨h1, h2⟩ := strdup_some h hs
      exact ⟨h1, fun _ => by simp [Spec.text, h2], fun _ => rfl⟩

theorem insert_spec {set set' : List Str} {s : String} {f : Bool} (h : H ok m (set.map Str.blk ++ a) r)
    (e : insert m set s = (f, set', m')) :
    H ok m' (set'.map Str.blk ++ a) r ∧
    (f = true → set'.map Str.val = if s ∈ set.map Str.val then set.map Str.val else set.map Str.val ++ [s]) ∧
    (f = false → set' = set) ∧ ((∀ n, ok n = true) → f = true) := by
  unfold insert at e
  split at e
  · rename_i hm
    simp only [Prod.mk.injEq] at e
    obtain ⟨rfl, rfl, rfl⟩ := e
    exact ⟨h, fun _ => (by rw [if_pos hm]), fun _ => rfl, fun _ => rfl⟩
  · rename_i hm
    rcases hs : strdup m s with ⟨_ | x, m1⟩ <;> simp only [hs, Prod.mk.injEq] at e <;>
      obtain ⟨rfl, rfl, rfl⟩ := e
    · exact ⟨(strdup_none h hs).1, nofun, fun _ => rfl, fun hp => absurd hp (strdup_none h hs).2⟩
    · obtain ⟨h1, h2⟩ := strdup_some h hs
      refine ⟨h1.re (fun x => by simp [List.count_append, List.count_cons]; omega),
        fun _ => (by rw [if_neg hm]; simp [h2]), nofun, fun _ => rfl⟩

theorem insertAll_spec {set set' : List Str} {l : List String} (h : H ok m (set.map Str.blk ++ a) r)
    (e : insertAll m set l = (set', m')) :
    H ok m' (set'.map Str.blk ++ a) r ∧
    ((∀ n, ok n = true) →
      set'.map Str.val = l.foldl (fun s x => if x ∈ s then s else s ++ [x]) (set.map Str.val)) := by
  induction l generalizing m set with
  | nil =>
    simp only [insertAll, Prod.mk.injEq] at e
    obtain ⟨rfl, rfl⟩ := e
    exact ⟨h, fun _ => rfl⟩
  | cons s l ih =>
    rcases hi : insert m set s with ⟨f, set1, m1⟩
    simp only [insertAll, hi] at e
    obtain ⟨h1, h2, h3, h4⟩ := insert_spec h hi
    obtain ⟨h5, h6⟩ := ih h1 e
    refine ⟨h5, fun hp => ?_⟩
    rw [h6 hp, List.foldl_cons, h2 (h4 hp)]

/-- What is in the set after a loop of insertions, with or without memory. -/
theorem insertAll_sub {set set' : List Str} {l : List String} (e : insertAll m set l = (set', m')) :
    ∃ n, set'.map Str.val = set.map Str.val ++ n ∧
      ((set.map Str.val).Nodup → (set.map Str.val ++ n).Nodup) ∧ n.Sublist l := by
  induction l generalizing m set with
  | nil =>
    simp only [insertAll, Prod.mk.injEq] at e
    obtain ⟨rfl, rfl⟩ := e
    exact ⟨[], by simp, by simp, List.Sublist.refl _⟩
  | cons s l ih =>
    rcases hi : insert m set s with ⟨f, set1, m1⟩
    simp only [insertAll, hi] at e
    obtain ⟨n, h1, h2, h3⟩ := ih e
    unfold insert at hi
    split at hi
    · simp only [Prod.mk.injEq] at hi
      obtain ⟨_, rfl, _⟩ := hi
      exact ⟨n, h1, h2, h3.cons _⟩
    · rename_i hm
      rcases hs : strdup m s with ⟨_ | x, m2⟩ <;> simp only [hs, Prod.mk.injEq] at hi <;>
        obtain ⟨_, rfl, _⟩ := hi
      · exact ⟨n, h1, h2, h3.cons _⟩
      · have hx : x.val = s := by
          unfold strdup at hs
          rcases ha : alloc m with ⟨_ | b, m1⟩ <;> simp [ha] at hs
          rw [← hs.1]
        refine ⟨s :: n, by simp [h1, hx], fun hn => ?_, h3.cons_cons _⟩
        have := h2 (by
          simp only [List.map_append, List.map_cons, List.map_nil, hx]
          refine List.nodup_append.mpr ⟨hn, by simp, ?_⟩
          intro y hy z hz
          rcases List.mem_singleton.mp hz with rfl
          exact fun h => hm (h ▸ hy))
        simpa [hx] using this

theorem copySet_spec {c c' l : List Str} {f f' : Bool} (h : H ok m (c.map Str.blk ++ a) r)
    (e : copySet m c f l = (c', f', m')) :
    H ok m' (c'.map Str.blk ++ a) r ∧
    (((c ++ l).map Str.val).Nodup → f' = false → f = false ∧ c'.map Str.val = (c ++ l).map Str.val) ∧
    ((∀ n, ok n = true) → f = false → f' = false) := by
  induction l generalizing m c f with
  | nil =>
    simp only [copySet, Prod.mk.injEq] at e
    obtain ⟨rfl, rfl, rfl⟩ := e
    exact ⟨h, fun _ hf => ⟨hf, by simp⟩, fun _ => id⟩
  | cons s l ih =>
    rcases hi : insert m c s.val with ⟨g, c1, m1⟩
    simp only [copySet, hi] at e
    obtain ⟨h1, h2, h3, h4⟩ := insert_spec h hi
    obtain ⟨h5, h6, h7⟩ := ih h1 e
    refine ⟨h5, fun hn hf => ?_, fun hp hf => h7 hp (by simp [hf, h4 hp])⟩
    have hs : s.val ∉ c.map Str.val := by
      intro hm
      simp only [List.map_append, List.map_cons] at hn
      exact (List.nodup_append.mp hn).2.2 _ hm _ (by simp) rfl
    cases g with
    | false =>
      have hc := h3 rfl
      subst hc
      have hn' : ((c1 ++ l).map Str.val).Nodup := by
        refine List.Nodup.sublist (List.Sublist.map _ ?_) hn
        exact List.Sublist.append_left (List.sublist_cons_self _ _) _
      exact absurd (h6 hn' hf).1 (by simp)
    | true =>
      have hc := h2 rfl
      rw [if_neg hs] at hc
      have he : (c1 ++ l).map Str.val = (c ++ s :: l).map Str.val := by simp [hc]
      obtain ⟨h8, h9⟩ := h6 (by rw [he]; exact hn) hf
      exact ⟨by simpa using h8, by rw [h9, he]⟩

/-! ## Fingerprints -/

/-- What a fingerprint says. -/
def fpValue (f : RFp) : Fp := ⟨f.fingerprint.val, text f.name⟩

theorem addFp_spec {u u' : RUser} {fp : Option String} {n : Option String} {f : Bool} (h : H ok m a r)
    (e : addFp m u fp n = (f, u', m')) :
    ∃ l, u' = { u with fingerprints := u.fingerprints ++ l } ∧ H ok m' (l.flatMap ofFp ++ a) r ∧
      (f = true → ∃ x, fp = some x ∧ l.map fpValue = [⟨x, n⟩]) ∧ (f = false → l = []) ∧
      ((∀ n, ok n = true) → fp.isSome → f = true) := by
  cases fp with
  | none =>
    simp only [addFp, Prod.mk.injEq] at e
    obtain ⟨rfl, rfl, rfl⟩ := e
    exact ⟨[], by simp, h, nofun, fun _ => rfl, fun _ => nofun⟩
  | some x =>
    simp only [addFp] at e
    rcases ha : alloc m with ⟨_ | b, m1⟩ <;> simp only [ha] at e
    · simp only [Prod.mk.injEq] at e
      obtain ⟨rfl, rfl, rfl⟩ := e
      exact ⟨[], by simp, (alloc_none h ha).1, nofun, fun _ => rfl, fun hp => absurd hp (alloc_none h ha).2⟩
    · have h1 := alloc_some h ha
      cases n with
      | none =>
        simp only at e
        rcases hs : strdup m1 x with ⟨_ | s, m2⟩ <;> simp [hs] at e <;> obtain ⟨rfl, rfl, rfl⟩ := e
        · obtain ⟨h2, h3⟩ := strdup_none h1 hs
          exact ⟨[], by simp, free_mine h2, nofun, fun _ => rfl, fun hp => absurd hp h3⟩
        · obtain ⟨h2, h3⟩ := strdup_some h1 hs
          refine ⟨[⟨b, s, none⟩], rfl, h2.re ?_, fun _ => ⟨x, rfl, by simp [fpValue, Spec.text, h3]⟩, nofun, fun _ _ => rfl⟩
          intro y; simp [ofFp, ofStr, List.count_cons]; omega
      | some n =>
        simp only at e
        rcases hn : strdup m1 n with ⟨_ | t, m2⟩
        · obtain ⟨h2, h3⟩ := strdup_none h1 hn
          simp only [hn] at e
          rcases hs : strdup m2 x with ⟨_ | s, m3⟩ <;> simp [hs] at e <;> obtain ⟨rfl, rfl, rfl⟩ := e
          · obtain ⟨h4, h5⟩ := strdup_none h2 hs
            exact ⟨[], by simp, free_mine h4, nofun, fun _ => rfl, fun hp => absurd hp h5⟩
          · obtain ⟨h4, h5⟩ := strdup_some h2 hs
            exact ⟨[], by simp, free_mine (free_mine h4), nofun, fun _ => rfl, fun hp => absurd hp h3⟩
        · obtain ⟨h2, h3⟩ := strdup_some h1 hn
          simp only [hn] at e
          rcases hs : strdup m2 x with ⟨_ | s, m3⟩ <;> simp [hs] at e <;> obtain ⟨rfl, rfl, rfl⟩ := e
          · obtain ⟨h4, h5⟩ := strdup_none h2 hs
            exact ⟨[], by simp, free_mine (free_mine h4), nofun, fun _ => rfl, fun hp => absurd hp h5⟩
          · obtain ⟨h4, h5⟩ := strdup_some h2 hs
            refine ⟨[⟨b, s, some t⟩], rfl, h4.re ?_, fun _ => ⟨x, rfl, by simp [fpValue, Spec.text, h3, h5]⟩, nofun,
              fun _ _ => rfl⟩
            intro y; simp [ofFp, ofStr, List.count_cons]; omega

theorem copyFps_spec {c c' : RUser} {l : List RFp} {f f' : Bool} (h : H ok m a r)
    (e : copyFps m c f l = (c', f', m')) :
    ∃ n, c' = { c with fingerprints := c.fingerprints ++ n } ∧ H ok m' (n.flatMap ofFp ++ a) r ∧
      (f' = false → f = false ∧ n.map fpValue = l.map fpValue) ∧
      ((∀ n, ok n = true) → f = false → f' = false) := by
  induction l generalizing m c f a with
  | nil =>
    simp only [copyFps, Prod.mk.injEq] at e
    obtain ⟨rfl, rfl, rfl⟩ := e
    exact ⟨[], by simp, h, fun hf => ⟨hf, rfl⟩, fun _ => id⟩
  | cons x l ih =>
    rcases hi : addFp m c (some x.fingerprint.val) (x.name.map Str.val) with ⟨g, c1, m1⟩
    simp only [copyFps, hi] at e
    obtain ⟨n1, h1, h2, h3, h4, h5⟩ := addFp_spec h hi
    obtain ⟨n2, h6, h7, h8, h9⟩ := ih h2 e
    refine ⟨n1 ++ n2, ?_, h7.re ?_, ?_, ?_⟩
    · rw [h6, h1]; simp
    · intro y; simp [List.count_append]; omega
    · intro hf
      obtain ⟨h10, h11⟩ := h8 hf
      simp only [Bool.or_eq_false_iff, Bool.not_eq_false'] at h10
      refine ⟨h10.1, ?_⟩
      obtain ⟨y, h12, h13⟩ := h3 h10.2
      simp only [Option.some.injEq] at h12
      rw [List.map_append, h13, h11, ← h12]
      simp [fpValue, Spec.text]
    · intro hp hf
      exact h9 hp (by simp [hf, h5 hp rfl])

/-! ## Users -/

theorem userNew_spec {n : String} {x : Option RUser} (h : H ok m a r) (e : userNew m n = (x, m')) :
    match x with
    | none => H ok m' a r ∧ ((∀ n, ok n = true) → validateUsername n = false)
    | some u => H ok m' (ofUser u ++ a) r ∧ value u = { addr := 0, username := n } ∧ validateUsername n = true ∧
        u = { self := u.self, username := u.username } := by
  unfold userNew at e
  rcases hs : strdup m n with ⟨s, m1⟩
  rcases ha : alloc m1 with ⟨b, m2⟩
  simp only [hs, ha] at e
  cases s with
  | none =>
    obtain ⟨h1, h2⟩ := strdup_none h hs
    cases b with
    | none =>
      simp only [Prod.mk.injEq] at e
      obtain ⟨rfl, rfl⟩ := e
      exact ⟨(alloc_none h1 ha).1, fun hp => absurd hp h2⟩
    | some b =>
      simp only [Prod.mk.injEq] at e
      obtain ⟨rfl, rfl⟩ := e
      exact ⟨free_mine (alloc_some h1 ha), fun hp => absurd hp h2⟩
  | some s =>
    obtain ⟨h1, h2⟩ := strdup_some h hs
    cases b with
    | none =>
      simp only [Prod.mk.injEq] at e
      obtain ⟨rfl, rfl⟩ := e
      exact ⟨free_mine (alloc_none h1 ha).1, fun hp => absurd hp (alloc_none h1 ha).2⟩
    | some b =>
      have h3 := alloc_some h1 ha
      cases hv : validateUsername n with
      | false =>
        simp [hv] at e
        obtain ⟨rfl, rfl⟩ := e
        refine ⟨free_mine (free_mine (h3.re ?_)), fun _ => rfl⟩
        intro y; simp [List.count_cons]; omega
      | true =>
        simp [hv] at e
        obtain ⟨rfl, rfl⟩ := e
        refine ⟨h3.re ?_, ?_, rfl, rfl⟩
        · intro y; simp [ofUser, ofStr, List.count_cons]
        · simp [value, Spec.text, h2]

theorem userCopy_spec {u : RUser} {x : Option RUser} (h : H ok m a r) (hn : (u.categories.map Str.val).Nodup)
    (e : userCopy m u = (x, m')) :
    match x with
    | none => H ok m' a r ∧ ((∀ n, ok n = true) → validateUsername u.username.val = false)
    | some c => H ok m' (ofUser c ++ a) r ∧ value c = value u := by
  unfold userCopy at e
  rcases h0 : userNew m u.username.val with ⟨c0, m0⟩
  have hN := userNew_spec h h0
  simp only [h0] at e
  cases c0 with
  | none =>
    simp only [Prod.mk.injEq] at e
    obtain ⟨rfl, rfl⟩ := e
    exact hN
  | some c =>
    obtain ⟨g0, v0, w0, hc⟩ := hN
    obtain ⟨self, username, d0, r0, p0, s0, ft0, fp0, cat0, o0, fps0⟩ := c
    simp only [RUser.mk.injEq, true_and] at hc
    obtain ⟨rfl, rfl, rfl, rfl, rfl, rfl, rfl, rfl, rfl⟩ := hc
    simp only at e
    rcases h1 : copyStr m0 u.displayName with ⟨s1, f1, m1⟩
    rcases h2 : copyFps m1 { self := self, username := username, displayName := s1 } false u.fingerprints
      with ⟨c2, f2, m2⟩
    rcases h3 : copyStr m2 u.password with ⟨s3, f3, m3⟩
    rcases h4 : copyStr m3 u.role with ⟨s4, f4, m4⟩
    rcases h5 : copyStr m4 u.sct with ⟨s5, f5, m5⟩
    rcases h6 : copyStr m5 u.fcmToken with ⟨s6, f6, m6⟩
    rcases h7 : copyStr m6 u.fcmProjectId with ⟨s7, f7, m7⟩
    have g1 := copyStr_spec g0 h1
    obtain ⟨l, g2, g2', g2''⟩ := copyFps_spec g1.1 h2
    subst g2
    rcases h8 : copySet m7 [] false u.categories with ⟨s8, f8, m8⟩
    rcases h9 : copyStr m8 u.oauthSubject with ⟨s9, f9, m9⟩
    have g3 := copyStr_spec g2' h3
    have g4 := copyStr_spec g3.1 h4
    have g5 := copyStr_spec g4.1 h5
    have g6 := copyStr_spec g5.1 h6
    have g7 := copyStr_spec g6.1 h7
    have g8 := copySet_spec (c := []) (by simpa using g7.1) h8
    have g9 := copyStr_spec g8.1 h9
    have hH : H ok m9 (ofUser ⟨self, username, s1, s4, s3, s5, s6, s7, s8, s9, l⟩ ++ a) r := by
      refine g9.1.re ?_
      intro y; simp [ofUser, ofStr, List.count_cons, List.count_append]; omega
    simp only [h1, h2, h3, h4, h5, h6, h7, h8, h9, List.nil_append] at e
    split at e
    · rename_i hf
      simp only [Prod.mk.injEq] at e
      obtain ⟨rfl, rfl⟩ := e
      refine ⟨userFree_mine hH, fun hp => ?_⟩
      simp [g1.2.2 hp, g2''.2 hp rfl, g3.2.2 hp, g4.2.2 hp, g5.2.2 hp, g6.2.2 hp, g7.2.2 hp, g8.2.2 hp rfl,
        g9.2.2 hp] at hf
    · rename_i hf
      simp only [Bool.or_eq_true, not_or, Bool.not_eq_true] at hf
      obtain ⟨⟨⟨⟨⟨⟨⟨⟨k1, k2⟩, k3⟩, k4⟩, k5⟩, k6⟩, k7⟩, k8⟩, k9⟩ := hf
      simp only [Prod.mk.injEq] at e
      obtain ⟨rfl, rfl⟩ := e
      refine ⟨hH, ?_⟩
      have hu : username.val = u.username.val := by
        have := congrArg User.username v0
        simpa [value] using this
      have hfp := (g2''.1 k2).2
      have hcat := (g8.2.1 (by simpa using hn) k8).2
      simp only [List.nil_append] at hcat
      simp only [value, g1.2.1 k1, g3.2.1 k3, g4.2.1 k4, g5.2.1 k5, g6.2.1 k6, g7.2.1 k7, g9.2.1 k9, hu, hcat]
      congr 1

theorem copyUsers_spec {c c' l : List RUser} {f f' : Bool} (h : H ok m (c.flatMap ofUser ++ a) r)
    (hn : ∀ u ∈ l, (u.categories.map Str.val).Nodup) (e : copyUsers m c f l = (c', f', m')) :
    H ok m' (c'.flatMap ofUser ++ a) r ∧
    (f' = false → f = false ∧ c'.map value = c.map value ++ l.map value) ∧
    ((∀ n, ok n = true) → (∀ u ∈ l, validateUsername u.username.val = true) → f = false → f' = false) := by
  induction l generalizing m c f with
  | nil =>
    simp only [copyUsers, Prod.mk.injEq] at e
    obtain ⟨rfl, rfl, rfl⟩ := e
    exact ⟨h, fun hf => ⟨hf, by simp⟩, fun _ _ => id⟩
  | cons u l ih =>
    rcases hu : userCopy m u with ⟨_ | x, m1⟩ <;> simp only [copyUsers, hu] at e
    · have h1 := userCopy_spec h (hn u (by simp)) hu
      obtain ⟨h2, h3, h4⟩ := ih h1.1 (fun v hv => hn v (by simp [hv])) e
      refine ⟨h2, fun hf => absurd (h3 hf).1 (by simp), fun hp hv _ => ?_⟩
      have := h1.2 hp
      rw [hv u (by simp)] at this
      exact absurd this (by simp)
    · have h1 := userCopy_spec h (hn u (by simp)) hu
      obtain ⟨h2, h3, h4⟩ := ih (c := c ++ [x])
        (h1.1.re (by intro y; simp [List.count_append]; omega)) (fun v hv => hn v (by simp [hv])) e
      refine ⟨h2, fun hf => ⟨(h3 hf).1, ?_⟩, fun hp hv hf => h4 hp (fun v hm => hv v (by simp [hm])) hf⟩
      rw [(h3 hf).2]; simp [h1.2]

theorem stateCopy_spec {st : RState} {x : Option RState} (h : H ok m a r)
    (hn : ∀ u ∈ st.users, (u.categories.map Str.val).Nodup) (e : stateCopy m st = (x, m')) :
    match x with
    | none => H ok m' a r ∧
        ((∀ n, ok n = true) → ¬ ∀ u ∈ st.users, validateUsername u.username.val = true)
    | some c => H ok m' (ofState c ++ a) r ∧ stateValue c = stateValue st := by
  unfold stateCopy stateNew at e
  rcases h0 : alloc m with ⟨_ | b, m0⟩ <;> simp only [h0] at e
  · simp only [Prod.mk.injEq] at e
    obtain ⟨rfl, rfl⟩ := e
    exact ⟨(alloc_none h h0).1, fun hp => absurd hp (alloc_none h h0).2⟩
  · have g0 := alloc_some h h0
    rcases h1 : copyStr m0 st.passwordOpenPassword with ⟨s1, f1, m1⟩
    rcases h2 : copyStr m1 st.passwordOpenSct with ⟨s2, f2, m2⟩
    rcases h3 : copyStr m2 st.openPairingRole with ⟨s3, f3, m3⟩
    rcases h4 : copyStr m3 st.initialPairingUsername with ⟨s4, f4, m4⟩
    rcases h5 : copyStr m4 st.friendlyName with ⟨s5, f5, m5⟩
    rcases h6 : copyUsers m5 [] false st.users with ⟨s6, f6, m6⟩
    have g1 := copyStr_spec g0 h1
    have g2 := copyStr_spec g1.1 h2
    have g3 := copyStr_spec g2.1 h3
    have g4 := copyStr_spec g3.1 h4
    have g5 := copyStr_spec g4.1 h5
    have g6 := copyUsers_spec (c := []) (by simpa using g5.1) hn h6
    simp only [h1, h2, h3, h4, h5, h6] at e
    have hH : H ok m6 (ofState ⟨b, s6, s1, s2, st.passwordOpenPairing, st.localOpenPairing,
        st.passwordInvitePairing, st.localInitialPairing, s3, s4, s5⟩ ++ a) r := by
      refine g6.1.re ?_
      intro y; simp [ofState, List.count_cons, List.count_append]; omega
    split at e
    · rename_i hf
      simp only [Prod.mk.injEq] at e
      obtain ⟨rfl, rfl⟩ := e
      refine ⟨stateFree_mine hH, fun hp hv => ?_⟩
      simp [g1.2.2 hp, g2.2.2 hp, g3.2.2 hp, g4.2.2 hp, g5.2.2 hp, g6.2.2 hp hv rfl] at hf
    · rename_i hf
      simp only [Bool.or_eq_true, not_or, Bool.not_eq_true] at hf
      obtain ⟨⟨⟨⟨⟨k1, k2⟩, k3⟩, k4⟩, k5⟩, k6⟩ := hf
      simp only [Prod.mk.injEq] at e
      obtain ⟨rfl, rfl⟩ := e
      refine ⟨hH, ?_⟩
      have hu := (g6.2.1 k6).2
      simp only [List.map_nil, List.nil_append] at hu
      simp only [stateValue, g1.2.1 k1, g2.2.1 k2, g3.2.1 k3, g4.2.1 k4, g5.2.1 k5, hu]

/-! ## Setters -/

theorem setStr_spec {old s : Option Str} {v : Option String} {f : Bool} (h : H ok m (ofStr old ++ a) r)
    (e : setStr m old v = (f, s, m')) :
    H ok m' (ofStr s ++ a) r ∧ (f = true → Spec.text s = v) ∧ (f = false → s = old) ∧
      ((∀ n, ok n = true) → f = true) := by
  cases v with
  | none =>
    simp only [setStr, Prod.mk.injEq] at e
    obtain ⟨rfl, rfl, rfl⟩ := e
    exact ⟨freeStr_mine h, fun _ => rfl, nofun, fun _ => rfl⟩
  | some v =>
    rcases hs : strdup m v with ⟨_ | x, m1⟩ <;> simp only [setStr, hs, Prod.mk.injEq] at e <;>
      obtain ⟨rfl, rfl, rfl⟩ := e
    · exact ⟨(strdup_none h hs).1, nofun, fun _ => rfl, fun hp => absurd hp (strdup_none h hs).2⟩
    · obtain ⟨h1, h2⟩ := strdup_some h hs
      refine ⟨freeStr_mine (h1.re ?_), fun _ => by simp [Spec.text, h2], nofun, fun _ => rfl⟩
      intro y; simp [ofStr, List.count_append, List.count_cons]; omega

theorem ofUser_put (u : RUser) (f : Field) (s : Option Str) (x : Nat) :
    (ofUser (u.put f s)).count x = (ofStr s).count x + (ofUser (u.put f none)).count x := by
  cases f <;> simp [RUser.put, ofUser, ofStr, List.count_append, List.count_cons] <;> omega

theorem put_get (u : RUser) (f : Field) : u.put f (u.get f) = u := by cases f <;> rfl

theorem value_put (u : RUser) (f : Field) (s : Option Str) :
    value (u.put f s) = withField (value u) (Spec.text s) f := by cases f <;> rfl

theorem setField_spec {u u' : RUser} {fd : Field} {v : Option String} {f : Bool} (h : H ok m (ofUser u ++ a) r)
    (e : setField m u fd v = (f, u', m')) :
    ∃ s, u' = u.put fd s ∧ H ok m' (ofUser u' ++ a) r ∧ (f = true → Spec.text s = v) ∧ (f = false → u' = u) ∧
      ((∀ n, ok n = true) → (fd ≠ .role ∨ v.isSome) → f = true) := by
  unfold setField at e
  split at e
  · rename_i hr
    simp only [Prod.mk.injEq] at e
    obtain ⟨rfl, rfl, rfl⟩ := e
    refine ⟨u.get fd, (put_get u fd).symm, h, nofun, fun _ => rfl, fun _ hh => ?_⟩
    rcases hh with hh | hh
    · exact absurd hr.1 hh
    · rw [hr.2] at hh; simp at hh
  · rcases hs : setStr m (u.get fd) v with ⟨g, s, m1⟩
    simp only [hs, Prod.mk.injEq] at e
    obtain ⟨rfl, rfl, rfl⟩ := e
    have h0 : H ok m (ofStr (u.get fd) ++ (ofUser (u.put fd none) ++ a)) r := by
      refine h.re ?_
      intro x
      have := ofUser_put u fd (u.get fd) x
      rw [put_get] at this
      simp only [List.count_append]; omega
    obtain ⟨h1, h2, h3, h4⟩ := setStr_spec h0 hs
    refine ⟨s, rfl, h1.re ?_, h2, fun hf => ?_, fun hp _ => h4 hp⟩
    · intro x
      have := ofUser_put u fd s x
      simp only [List.count_append]; omega
    · rw [h3 hf, put_get]

theorem setUsername_spec {u u' : RUser} {n : Option String} {f : Bool} (h : H ok m (ofUser u ++ a) r)
    (e : setUsername m u n = (f, u', m')) :
    ∃ s, u' = { u with username := s } ∧ H ok m' (ofUser u' ++ a) r ∧
      (f = true → n = some s.val ∧ validateUsername s.val = true) ∧
      (f = false → u' = u) ∧ ((∀ n, ok n = true) → (∃ x, n = some x ∧ validateUsername x = true) → f = true) := by
  cases n with
  | none =>
    simp only [setUsername, Prod.mk.injEq] at e
    obtain ⟨rfl, rfl, rfl⟩ := e
    exact ⟨u.username, rfl, h, nofun, fun _ => rfl, fun _ ⟨_, hx, _⟩ => nomatch hx⟩
  | some n =>
    cases hv : validateUsername n with
    | false =>
      simp [setUsername, hv] at e
      obtain ⟨rfl, rfl, rfl⟩ := e
      refine ⟨u.username, rfl, h, nofun, fun _ => rfl, fun _ ⟨x, hx, hy⟩ => ?_⟩
      simp only [Option.some.injEq] at hx
      rw [hx, hy] at hv; exact nomatch hv
    | true =>
      rcases hs : strdup m n with ⟨_ | x, m1⟩ <;> simp [setUsername, hv, hs] at e <;>
        obtain ⟨rfl, rfl, rfl⟩ := e
      · exact ⟨u.username, rfl, (strdup_none h hs).1, nofun, fun _ => rfl,
          fun hp => absurd hp (strdup_none h hs).2⟩
      · obtain ⟨h1, h2⟩ := strdup_some h hs
        refine ⟨x, rfl, free_mine (h1.re ?_), fun _ => ⟨by rw [h2], by rw [h2]; exact hv⟩, nofun, fun _ _ => rfl⟩
        intro y; simp [ofUser, List.count_append, List.count_cons]; omega

theorem dropFp_spec {fp : String} {l l' : List RFp} {f : Bool} (h : H ok m (l.flatMap ofFp ++ a) r)
    (e : dropFp m fp l = (f, l', m')) :
    H ok m' (l'.flatMap ofFp ++ a) r ∧
      l'.map fpValue = (l.map fpValue).eraseP (fun x => some x.fingerprint = some fp) ∧
      f = (l.map fpValue).any (fun x => some x.fingerprint = some fp) ∧ (f = false → l' = l) := by
  induction l generalizing m f l' a with
  | nil =>
    simp only [dropFp, Prod.mk.injEq] at e
    obtain ⟨rfl, rfl, rfl⟩ := e
    exact ⟨h, rfl, rfl, fun _ => rfl⟩
  | cons x l ih =>
    unfold dropFp at e
    split at e
    · rename_i hx
      simp only [Prod.mk.injEq] at e
      obtain ⟨rfl, rfl, rfl⟩ := e
      refine ⟨free_mine (freeStr_mine (free_mine (h.re ?_))), ?_, ?_, nofun⟩
      · intro y; simp [ofFp, List.count_append, List.count_cons]; omega
      · simp [fpValue, hx]
      · simp [fpValue, hx]
    · rename_i hx
      rcases hd : dropFp m fp l with ⟨g, l1, m1⟩
      simp only [hd, Prod.mk.injEq] at e
      obtain ⟨rfl, rfl, rfl⟩ := e
      obtain ⟨h1, h2, h3, h4⟩ := ih (a := ofFp x ++ a)
        (h.re (by intro y; simp [List.count_append]; omega)) hd
      refine ⟨h1.re (by intro y; simp [List.count_append]; omega), ?_, ?_, fun hf => by rw [h4 hf]⟩
      · simp only [Option.some.injEq] at h2
        simp [fpValue, hx]
        exact h2
      · simp only [Option.some.injEq] at h3
        rw [h3]; simp [fpValue, hx]

theorem value_fps (u : RUser) (l : List RFp) :
    value { u with fingerprints := l } = { value u with fingerprints := l.map fpValue } := rfl

theorem value_fingerprints (u : RUser) : (value u).fingerprints = u.fingerprints.map fpValue := rfl

theorem ofUser_fps (u : RUser) (l : List RFp) (x : Nat) :
    (ofUser { u with fingerprints := l }).count x =
      (l.flatMap ofFp).count x + (ofUser { u with fingerprints := [] }).count x := by
  simp [ofUser, List.count_append, List.count_cons]; omega

theorem ofUser_cats (u : RUser) (l : List Str) (x : Nat) :
    (ofUser { u with categories := l }).count x =
      (l.map Str.blk).count x + (ofUser { u with categories := [] }).count x := by
  simp [ofUser, List.count_append, List.count_cons]; omega

theorem ofUser_fps0 (u : RUser) (x : Nat) :
    (ofUser u).count x =
      (u.fingerprints.flatMap ofFp).count x + (ofUser { u with fingerprints := [] }).count x := by
  simp [ofUser, List.count_append, List.count_cons]; omega

theorem ofUser_cats0 (u : RUser) (x : Nat) :
    (ofUser u).count x = (u.categories.map Str.blk).count x + (ofUser { u with categories := [] }).count x := by
  simp [ofUser, List.count_append, List.count_cons]; omega

theorem setCategories_spec {u u' : RUser} {l : List String} {f : Bool} (h : H ok m (ofUser u ++ a) r)
    (e : setCategories m u l = (f, u', m')) :
    ∃ s, u' = { u with categories := s } ∧ H ok m' (ofUser u' ++ a) r ∧ f = true ∧
      (s.map Str.val).Nodup ∧ (s.map Str.val).Sublist l ∧ ((∀ n, ok n = true) → s.map Str.val = setOf l) := by
  unfold setCategories at e
  rcases hi : insertAll (freeSet m u.categories) [] l with ⟨s, m1⟩
  simp only [hi, Prod.mk.injEq] at e
  obtain ⟨rfl, rfl, rfl⟩ := e
  have h0 : H ok m (u.categories.map Str.blk ++ (ofUser { u with categories := [] } ++ a)) r := by
    refine h.re ?_
    intro x
    have := ofUser_cats0 u x
    simp only [List.count_append]
    omega
  obtain ⟨h1, h2⟩ := insertAll_spec (set := []) (by simpa using freeSet_mine h0) hi
  obtain ⟨n, h3, h4, h5⟩ := insertAll_sub hi
  simp only [List.map_nil, List.nil_append] at h3
  refine ⟨s, rfl, h1.re ?_, rfl, ?_, ?_, fun hp => h2 hp⟩
  · intro x
    have := ofUser_cats u s x
    simp only [List.count_append]; omega
  · rw [h3]; exact h4 (by simp)
  · rw [h3]; exact h5

theorem call_spec {u u' : RUser} {c : Call} {f : Bool} (h : H ok m (ofUser u ++ a) r)
    (e : call m u c = (f, u', m')) :
    H ok m' (ofUser u' ++ a) r ∧
    (f = false → u' = u) ∧
    (c.plain = true ∨ (∀ n, ok n = true) → f = true → value u' = apply (value u) c) ∧
    ((∀ n, ok n = true) → sensible (value u) c = true → f = true) ∧
    (validateUsername u.username.val = true → validateUsername u'.username.val = true) ∧
    ((u.categories.map Str.val).Nodup → (u'.categories.map Str.val).Nodup) := by
  cases c with
  | field fd v =>
    obtain ⟨s, rfl, h1, h2, h3, h4⟩ := setField_spec h e
    refine ⟨h1, h3, fun _ hf => ?_, fun hp hs => h4 hp ?_, ?_, ?_⟩
    · rw [value_put, h2 hf]; rfl
    · simpa [sensible] using hs
    · cases fd <;> exact id
    · cases fd <;> exact id
  | username n =>
    obtain ⟨s, rfl, h1, h2, h3, h4⟩ := setUsername_spec h e
    refine ⟨h1, h3, fun _ hf => ?_, fun hp hs => h4 hp ?_, fun hv => ?_, id⟩
    · simp [apply, (h2 hf).1, value]
    · cases n with
      | none => simp [sensible] at hs
      | some n => exact ⟨n, rfl, hs⟩
    · cases f with
      | true => exact (h2 rfl).2
      | false =>
        have := h3 rfl
        rw [this]; exact hv
  | addFp fp n =>
    obtain ⟨l, rfl, h1, h2, h3, h4⟩ := addFp_spec h e
    refine ⟨h1.re ?_, fun hf => by simp [h3 hf], fun _ hf => ?_, fun hp hs => h4 hp hs, id, id⟩
    · intro x
      have e1 := ofUser_fps u (u.fingerprints ++ l) x
      have e2 := ofUser_fps0 u x
      simp only [List.flatMap_append, List.count_append] at e1 ⊢; omega
    · obtain ⟨x, rfl, hx⟩ := h2 hf
      rw [value_fps, List.map_append, hx]; rfl
  | setFp fp =>
    change setFp m u fp = _ at e
    unfold setFp at e
    split at e
    · rename_i f0 l hl
      simp only [Prod.mk.injEq] at e
      obtain ⟨rfl, rfl, rfl⟩ := e
      refine ⟨free_mine (freeStr_mine (free_mine (h.re ?_))), nofun, fun _ _ => ?_, fun _ _ => rfl, id, id⟩
      · intro x
        have e1 := ofUser_fps u l x
        have e2 := ofUser_fps0 u x
        rw [hl] at e2
        simp only [List.flatMap_cons, ofFp, List.count_append, List.count_cons, List.cons_append] at e1 e2 ⊢; omega
      · rw [value_fps]; simp [apply, value_fingerprints, hl]
    · rename_i fp' hl
      obtain ⟨l, rfl, h1, h2, h3, h4⟩ := addFp_spec h e
      refine ⟨h1.re ?_, fun hf => by simp [h3 hf], fun _ hf => ?_, fun hp hs => h4 hp ?_, id, id⟩
      · intro x
        have e1 := ofUser_fps u (u.fingerprints ++ l) x
        have e2 := ofUser_fps0 u x
        simp only [List.flatMap_append, List.count_append] at e1 ⊢; omega
      · obtain ⟨x, rfl, hx⟩ := h2 hf
        rw [value_fps, List.map_append, hx, hl]
        simp [apply, value_fingerprints, hl]
      · simpa [sensible, value_fingerprints, hl] using hs
    · rename_i fp' f0 l hl
      rcases hs : strdup m fp' with ⟨_ | x, m1⟩ <;> simp only [hs, Prod.mk.injEq] at e <;>
        obtain ⟨rfl, rfl, rfl⟩ := e
      · exact ⟨(strdup_none h hs).1, fun _ => rfl, nofun, fun hp => absurd hp (strdup_none h hs).2, id, id⟩
      · obtain ⟨h1, h2⟩ := strdup_some h hs
        refine ⟨free_mine (h1.re ?_), nofun, fun _ _ => ?_, fun _ _ => rfl, id, id⟩
        · intro y
          have e1 := ofUser_fps u ({ f0 with fingerprint := x } :: l) y
          have e2 := ofUser_fps0 u y
          rw [hl] at e2
          simp only [List.flatMap_cons, ofFp, List.count_append, List.count_cons, List.cons_append] at e1 e2 ⊢; omega
        · rw [value_fps]; simp [apply, value_fingerprints, hl, fpValue, h2]
  | removeFp fp =>
    change removeFp m u fp = _ at e
    cases fp with
    | none =>
      simp only [removeFp, Prod.mk.injEq] at e
      obtain ⟨rfl, rfl, rfl⟩ := e
      exact ⟨h, fun _ => rfl, nofun, fun _ hs => by simp [sensible] at hs, id, id⟩
    | some fp =>
      rcases hd : dropFp m fp u.fingerprints with ⟨g, l, m1⟩
      simp only [removeFp, hd, Prod.mk.injEq] at e
      obtain ⟨rfl, rfl, rfl⟩ := e
      have h0 : H ok m (u.fingerprints.flatMap ofFp ++ (ofUser { u with fingerprints := [] } ++ a)) r := by
        refine h.re ?_
        intro x
        have e2 := ofUser_fps0 u x
        simp only [List.count_append]; omega
      obtain ⟨h1, h2, h3, h4⟩ := dropFp_spec h0 hd
      refine ⟨h1.re ?_, fun hf => by rw [h4 hf], fun _ _ => ?_, fun _ hs => ?_, id, id⟩
      · intro x
        have e1 := ofUser_fps u l x
        simp only [List.count_append]; omega
      · rw [value_fps, h2]; rfl
      · rw [h3]; exact hs
  | categories l =>
    obtain ⟨s, rfl, h1, rfl, h2, h3, h4⟩ := setCategories_spec h e
    refine ⟨h1, nofun, fun hh _ => ?_, fun _ _ => rfl, id, fun _ => h2⟩
    rcases hh with hh | hh
    · exact nomatch hh
    · change { value u with notificationCategories := s.map Str.val } = _
      rw [h4 hh]; rfl

theorem calls_spec {u u' : RUser} {l : List Call} {fs : List Bool} (h : H ok m (ofUser u ++ a) r)
    (hv : validateUsername u.username.val = true) (hc : (u.categories.map Str.val).Nodup)
    (e : calls m u l = (fs, u', m')) :
    H ok m' (ofUser u' ++ a) r ∧ fs.length = l.length ∧
    ((∀ c ∈ l, c.plain = true) ∨ (∀ n, ok n = true) → value u' = applyAll (value u) (l.zip fs)) ∧
    validateUsername u'.username.val = true ∧ (u'.categories.map Str.val).Nodup := by
  induction l generalizing m u fs with
  | nil =>
    simp only [calls, Prod.mk.injEq] at e
    obtain ⟨rfl, rfl, rfl⟩ := e
    exact ⟨h, rfl, fun _ => rfl, hv, hc⟩
  | cons c l ih =>
    rcases h1 : call m u c with ⟨f, u1, m1⟩
    rcases h2 : calls m1 u1 l with ⟨fs1, u2, m2⟩
    simp only [calls, h1, h2, Prod.mk.injEq] at e
    obtain ⟨rfl, rfl, rfl⟩ := e
    obtain ⟨g1, g2, g3, g4, g5, g6⟩ := call_spec h h1
    obtain ⟨k1, k2, k3, k4, k5⟩ := ih g1 (g5 hv) (g6 hc) h2
    refine ⟨k1, by simp [k2], fun hp => ?_, k4, k5⟩
    rw [k3 (hp.imp (fun hp d hd => hp d (by simp [hd])) id)]
    simp only [List.zip_cons_cons, applyAll]
    cases f with
    | false => simp [g2 rfl]
    | true =>
      rw [g3 (hp.imp (fun hp => hp c (by simp)) id) rfl]
      rfl

end

end Verif.Iam.Record
