import Verif.Iam.RecordLemmas

/-!
# Users and states of the IAM module as blocks of memory — lemmas about loading
-/

namespace Verif.Iam.Record

open Verif.Iam Verif.Json Spec

section
variable {ok : Nat → Bool} {m m' : Mem} {a a' r : List Nat} {b : Nat}

theorem loadField_spec {u u' : RUser} {f : Field} {v : Option String} (h : H ok m (ofUser u ++ a) r)
    (h0 : u.get f = none) (e : loadField m u f v = (u', m')) :
    ∃ s, u' = u.put f s ∧ H ok m' (ofUser u' ++ a) r ∧ (∀ x ∈ Spec.text s, x ∈ v) ∧
      ((∀ n, ok n = true) → Spec.text s = v) := by
  cases v with
  | none =>
    simp only [loadField, Prod.mk.injEq] at e
    obtain ⟨rfl, rfl⟩ := e
    refine ⟨none, by rw [← h0, put_get], h, by simp [Spec.text], fun _ => rfl⟩
  | some v =>
    rcases hs : setField m u f (some v) with ⟨g, u1, m1⟩
    simp only [loadField, hs, Prod.mk.injEq] at e
    obtain ⟨rfl, rfl⟩ := e
    obtain ⟨s, h1, h2, h3, h4, h5⟩ := setField_spec h hs
    cases g with
    | true => exact ⟨s, h1, h2, by rw [h3 rfl]; exact fun _ => id, fun _ => h3 rfl⟩
    | false =>
      refine ⟨none, by rw [h4 rfl, ← h0, put_get], h2, by simp [Spec.text], fun hp => ?_⟩
      exact absurd (h5 hp (Or.inr rfl)) (by simp)

theorem loadFps_spec {u u' : RUser} {l : List Doc} (h : H ok m (ofUser u ++ a) r)
    (e : loadFps m u l = (u', m')) :
    ∃ n, u' = { u with fingerprints := u.fingerprints ++ n } ∧ H ok m' (ofUser u' ++ a) r ∧
      (n.map fpValue).Sublist (l.filterMap fpFromJson) ∧
      ((∀ n, ok n = true) → n.map fpValue = l.filterMap fpFromJson) := by
  induction l generalizing m u with
  | nil =>
    simp only [loadFps, Prod.mk.injEq] at e
    obtain ⟨rfl, rfl⟩ := e
    exact ⟨[], by simp, h, by simp, fun _ => rfl⟩
  | cons item l ih =>
    unfold loadFps at e
    cases hf : fpFromJson item with
    | none =>
      simp only [hf] at e
      obtain ⟨n, h1, h2, h3, h4⟩ := ih h e
      refine ⟨n, h1, h2, ?_, ?_⟩ <;> simp only [List.filterMap_cons, hf] <;> assumption
    | some f =>
      simp only [hf] at e
      rcases ha : addFp m u (some f.fingerprint) f.name with ⟨g, u1, m1⟩
      simp only [ha] at e
      have hc := (call_spec (c := .addFp (some f.fingerprint) f.name) h ha).1
      obtain ⟨n1, k1, _, k3, k4, k5⟩ := addFp_spec h ha
      obtain ⟨n2, h1, h2, h3, h4⟩ := ih hc e
      subst k1
      refine ⟨n1 ++ n2, by rw [h1]; simp, h2, ?_, fun hp => ?_⟩
      · simp only [List.filterMap_cons, hf, List.map_append]
        cases g with
        | false => rw [k4 rfl]; exact h3.cons _
        | true =>
          obtain ⟨x, hx, hy⟩ := k3 rfl
          simp only [Option.some.injEq] at hx
          rw [hy, ← hx]
          exact h3.cons_cons _
      · simp only [List.filterMap_cons, hf, List.map_append]
        obtain ⟨x, hx, hy⟩ := k3 (k5 hp rfl)
        simp only [Option.some.injEq] at hx
        rw [hy, ← hx, h4 hp]
        rfl

theorem loadAllFps_spec {u u' : RUser} {json : Doc} {v : Int} (h : H ok m (ofUser u ++ a) r)
    (h0 : u.fingerprints = []) (e : loadAllFps m u json v = (u', m')) :
    ∃ n, u' = { u with fingerprints := n } ∧ H ok m' (ofUser u' ++ a) r ∧
      (n.map fpValue).Sublist (fpsFromJson json v) ∧
      ((∀ n, ok n = true) → n.map fpValue = fpsFromJson json v) := by
  have hu : u = { u with fingerprints := [] } := by rw [← h0]
  unfold loadAllFps at e
  unfold fpsFromJson
  split at e
  · rename_i h1
    rw [if_pos h1]
    cases hj : asStr (getItem json "Fingerprint") with
    | none =>
      simp only [hj, Prod.mk.injEq] at e
      obtain ⟨rfl, rfl⟩ := e
      exact ⟨[], hu, h, by simp, fun _ => rfl⟩
    | some fp =>
      simp only [hj] at e
      rcases hs : setFp m u (some fp) with ⟨g, u1, m1⟩
      simp only [hs, Prod.mk.injEq] at e
      obtain ⟨rfl, rfl⟩ := e
      have hc := (call_spec (c := .setFp (some fp)) h hs).1
      unfold setFp at hs
      simp only [h0] at hs
      obtain ⟨n, k1, _, k3, k4, k5⟩ := addFp_spec h hs
      refine ⟨n, by rw [k1]; simp [h0], hc, ?_, fun hp => ?_⟩
      · cases g with
        | false => rw [k4 rfl]; simp
        | true =>
          obtain ⟨x, hx, hy⟩ := k3 rfl
          simp only [Option.some.injEq] at hx
          rw [hy, ← hx]
          exact List.Sublist.refl _
      · obtain ⟨x, hx, hy⟩ := k3 (k5 hp rfl)
        simp only [Option.some.injEq] at hx
        rw [hy, ← hx]
  · rename_i h1
    rw [if_neg h1]
    split at e
    · rename_i h2
      rw [if_pos h2]
      cases hj : asArr (getItem json "Fingerprints") with
      | none =>
        simp only [hj, Prod.mk.injEq] at e
        obtain ⟨rfl, rfl⟩ := e
        exact ⟨[], hu, h, by simp, fun _ => rfl⟩
      | some l =>
        simp only [hj] at e
        obtain ⟨n, k1, k2, k3, k4⟩ := loadFps_spec h e
        exact ⟨n, by rw [k1]; simp [h0], k2, k3, k4⟩
    · rename_i h2
      rw [if_neg h2]
      simp only [Prod.mk.injEq] at e
      obtain ⟨rfl, rfl⟩ := e
      exact ⟨[], hu, h, by simp, fun _ => rfl⟩

theorem insertStrings_eq (l : List Doc) (set : List String) :
    insertStrings set l = (strings l).foldl (fun s x => if x ∈ s then s else s ++ [x]) set := by
  induction l generalizing set with
  | nil => rfl
  | cons d l ih => cases d <;> simp [insertStrings, strings, ih, setInsert]

theorem setOf_fix {l : List String} {s : List String} (h : (s ++ l).Nodup) :
    l.foldl (fun s x => if x ∈ s then s else s ++ [x]) s = s ++ l := by
  induction l generalizing s with
  | nil => simp
  | cons x l ih =>
    have hx : x ∉ s := fun hm => (List.nodup_append.mp h).2.2 _ hm _ (by simp) rfl
    rw [List.foldl_cons, if_neg hx, ih (by simpa using h)]
    simp

theorem setOf_nodup (l : List String) : ∀ s : List String, s.Nodup →
    (l.foldl (fun s x => if x ∈ s then s else s ++ [x]) s).Nodup ∧
    ∀ x, x ∈ l.foldl (fun s x => if x ∈ s then s else s ++ [x]) s ↔ x ∈ s ∨ x ∈ l := by
  induction l with
  | nil => intro s h; exact ⟨h, by simp⟩
  | cons y l ih =>
    intro s h
    rw [List.foldl_cons]
    split
    · rename_i hy
      obtain ⟨h1, h2⟩ := ih s h
      refine ⟨h1, fun x => ?_⟩
      rw [h2]
      simp only [List.mem_cons]
      constructor
      · rintro (h | h) <;> simp [h]
      · rintro (h | rfl | h)
        · simp [h]
        · simp [hy]
        · simp [h]
    · rename_i hy
      obtain ⟨h1, h2⟩ := ih (s ++ [y]) (by
        refine List.nodup_append.mpr ⟨h, by simp, ?_⟩
        intro a ha b hb
        rcases List.mem_singleton.mp hb with rfl
        exact fun e => hy (e ▸ ha))
      refine ⟨h1, fun x => ?_⟩
      rw [h2]; simp [or_assoc]

theorem loadCategories_spec {u u' : RUser} {json : Doc} (h : H ok m (ofUser u ++ a) r)
    (h0 : u.categories = []) (e : loadCategories m u json = (u', m')) :
    ∃ s, u' = { u with categories := s } ∧ H ok m' (ofUser u' ++ a) r ∧
      (s.map Str.val).Nodup ∧ (∀ x ∈ s.map Str.val, x ∈ categoriesFromJson json) ∧
      ((∀ n, ok n = true) → s.map Str.val = categoriesFromJson json) := by
  unfold loadCategories at e
  unfold categoriesFromJson
  cases hj : asArr (getItem json "NotificationCategories") with
  | none =>
    simp only [hj, Prod.mk.injEq] at e
    obtain ⟨rfl, rfl⟩ := e
    exact ⟨[], by rw [← h0], h, by simp, by simp, fun _ => rfl⟩
  | some l =>
    rcases hi : insertAll m [] (strings l) with ⟨cs, m1⟩
    rcases hs : setCategories m1 u (cs.map Str.val) with ⟨g, u1, m2⟩
    simp only [hj, hi, hs, Prod.mk.injEq] at e
    obtain ⟨rfl, rfl⟩ := e
    obtain ⟨h1, h2⟩ := insertAll_spec (set := []) (by simpa using h) hi
    obtain ⟨n, h3, h4, h5⟩ := insertAll_sub hi
    simp only [List.map_nil, List.nil_append] at h3
    have hn : (cs.map Str.val).Nodup := by rw [h3]; exact h4 (by simp)
    obtain ⟨s, k1, k2, k3, k4, k5, k6⟩ := setCategories_spec (a := cs.map Str.blk ++ a)
      (h1.re (by intro x; simp [List.count_append]; omega)) hs
    refine ⟨s, k1, freeSet_mine (k2.re ?_), k4, ?_, ?_⟩
    · intro x; simp [List.count_append]; omega
    · intro x hx
      show x ∈ insertStrings [] l
      rw [insertStrings_eq]
      refine ((setOf_nodup (strings l) [] (by simp)).2 x).mpr (Or.inr ?_)
      have hx := k5.subset hx
      rw [h3] at hx
      exact h5.subset hx
    · intro hp
      show _ = insertStrings [] l
      rw [insertStrings_eq, k6 hp]
      unfold setOf
      rw [setOf_fix (by simpa using hn)]
      simpa using h2 hp

theorem loadUser_spec {json : Doc} {v : Int} {x : Option RUser} (h : H ok m a r)
    (e : loadUser m json v = (x, m')) :
    match x with
    | none => H ok m' a r ∧ ((∀ n, ok n = true) → userFromJson json v = none)
    | some u => H ok m' (ofUser u ++ a) r ∧
        (∃ w, userFromJson json v = some w ∧ Within (value u) w ∧ ((∀ n, ok n = true) → value u = w)) ∧
        validateUsername u.username.val = true ∧ (u.categories.map Str.val).Nodup := by
  unfold loadUser at e
  unfold userFromJson
  cases hj : asStr (getItem json "Username") with
  | none =>
    simp only [hj, Prod.mk.injEq] at e
    obtain ⟨rfl, rfl⟩ := e
    exact ⟨h, fun _ => rfl⟩
  | some username =>
    simp only [hj] at e
    rcases h0 : userNew m username with ⟨c0, m0⟩
    have hN := userNew_spec h h0
    simp only [h0] at e
    cases c0 with
    | none =>
      simp only [Prod.mk.injEq] at e
      obtain ⟨rfl, rfl⟩ := e
      exact ⟨hN.1, fun hp => by simp [hN.2 hp]⟩
    | some c =>
      obtain ⟨g0, v0, w0, hc⟩ := hN
      obtain ⟨self, un, d0, r0, p0, s0, ft0, fp0, cat0, o0, fps0⟩ := c
      simp only [RUser.mk.injEq, true_and] at hc
      obtain ⟨rfl, rfl, rfl, rfl, rfl, rfl, rfl, rfl, rfl⟩ := hc
      simp only at e
      generalize hfcm : (getItem json "Fcm").filter (fun j => isObj (some j)) = fcm at e
      rcases h1 : loadField m0 ⟨self, un, none, none, none, none, none, none, [], none, []⟩ .displayName
        (asStr (getItem json "DisplayName")) with ⟨u1, m1⟩
      simp only [h1] at e
      obtain ⟨s1, rfl, g1, q1, t1⟩ := loadField_spec g0 rfl h1
      simp only [RUser.put] at e g1
      rcases h2 : loadAllFps m1 ⟨self, un, s1, none, none, none, none, none, [], none, []⟩ json v with ⟨u2, m2⟩
      simp only [h2] at e
      obtain ⟨s2, rfl, g2, q2, t2⟩ := loadAllFps_spec g1 rfl h2
      simp only at e g2
      rcases h3 : loadField m2 ⟨self, un, s1, none, none, none, none, none, [], none, s2⟩ .password
        (asStr (getItem json "Password")) with ⟨u3, m3⟩
      simp only [h3] at e
      obtain ⟨s3, rfl, g3, q3, t3⟩ := loadField_spec g2 rfl h3
      simp only [RUser.put] at e g3
      rcases h4 : loadField m3 ⟨self, un, s1, none, s3, none, none, none, [], none, s2⟩ .sct
        (asStr (getItem json "ServerConnectToken")) with ⟨u4, m4⟩
      simp only [h4] at e
      obtain ⟨s4, rfl, g4, q4, t4⟩ := loadField_spec g3 rfl h4
      simp only [RUser.put] at e g4
      rcases h5 : loadField m4 ⟨self, un, s1, none, s3, s4, none, none, [], none, s2⟩ .role
        (asStr (getItem json "Role")) with ⟨u5, m5⟩
      simp only [h5] at e
      obtain ⟨s5, rfl, g5, q5, t5⟩ := loadField_spec g4 rfl h5
      simp only [RUser.put] at e g5
      rcases h6 : loadField m5 ⟨self, un, s1, s5, s3, s4, none, none, [], none, s2⟩ .fcmToken
        (asStr (fcm.bind (getItem · "Token"))) with ⟨u6, m6⟩
      simp only [h6] at e
      obtain ⟨s6, rfl, g6, q6, t6⟩ := loadField_spec g5 rfl h6
      simp only [RUser.put] at e g6
      rcases h7 : loadField m6 ⟨self, un, s1, s5, s3, s4, s6, none, [], none, s2⟩ .fcmProjectId
        (asStr (fcm.bind (getItem · "ProjectId"))) with ⟨u7, m7⟩
      simp only [h7] at e
      obtain ⟨s7, rfl, g7, q7, t7⟩ := loadField_spec g6 rfl h7
      simp only [RUser.put] at e g7
      rcases h8 : loadCategories m7 ⟨self, un, s1, s5, s3, s4, s6, s7, [], none, s2⟩ json with ⟨u8, m8⟩
      simp only [h8] at e
      obtain ⟨s8, rfl, g8, q8, q8', t8⟩ := loadCategories_spec g7 rfl h8
      simp only at e g8
      rcases h9 : loadField m8 ⟨self, un, s1, s5, s3, s4, s6, s7, s8, none, s2⟩ .oauthSubject
        (asStr (getItem json "OauthSubject")) with ⟨u9, m9⟩
      simp only [h9, Prod.mk.injEq] at e
      obtain ⟨s9, rfl, g9, q9, t9⟩ := loadField_spec g8 rfl h9
      simp only [RUser.put] at e g9
      obtain ⟨rfl, rfl⟩ := e
      have hu : un.val = username := by
        have := congrArg User.username v0
        simpa [value] using this
      refine ⟨g9, ?_, by rw [hu]; exact w0, q8⟩
      simp only [w0, Bool.not_true, Bool.false_eq_true, if_false, Option.some.injEq]
      refine ⟨_, rfl, ⟨hu, q1, q5, q3, q4, q6, q7, q9, q8', q8, q2⟩, fun hp => ?_⟩
      have k2 := t2 hp
      simp only [value, t1 hp, t3 hp, t4 hp, t5 hp, t6 hp, t7 hp, t8 hp, t9 hp, hu, hfcm]
      rw [← k2]
      rfl

theorem loadUsers_spec {l : List Doc} {v : Int} {us us' : List RUser} (h : H ok m (us.flatMap ofUser ++ a) r)
    (e : loadUsers m v us l = (us', m')) :
    ∃ n, us' = us ++ n ∧ H ok m' (us'.flatMap ofUser ++ a) r ∧
      Spec.Some (n.map value) (l.filterMap (userFromJson · v)) ∧
      ((∀ n, ok n = true) → n.map value = l.filterMap (userFromJson · v)) ∧
      (∀ u ∈ n, validateUsername u.username.val = true ∧ (u.categories.map Str.val).Nodup) := by
  induction l generalizing m us with
  | nil =>
    simp only [loadUsers, Prod.mk.injEq] at e
    obtain ⟨rfl, rfl⟩ := e
    exact ⟨[], by simp, h, .nil, fun _ => rfl, by simp⟩
  | cons d l ih =>
    unfold loadUsers at e
    rcases hu : loadUser m d v with ⟨_ | u, m1⟩ <;> simp only [hu] at e
    · have h1 := loadUser_spec h hu
      obtain ⟨n, k1, k2, k3, k4, k5⟩ := ih h1.1 e
      refine ⟨n, k1, k2, ?_, fun hp => ?_, k5⟩
      · rw [List.filterMap_cons]
        split
        · exact k3
        · exact .skip _ k3
      · rw [List.filterMap_cons, h1.2 hp]; exact k4 hp
    · obtain ⟨g1, ⟨w, g2, g3, g4⟩, g5, g6⟩ := loadUser_spec h hu
      obtain ⟨n, k1, k2, k3, k4, k5⟩ := ih (us := us ++ [u])
        (g1.re (by intro x; simp [List.count_append]; omega)) e
      refine ⟨u :: n, by simp [k1], k2, ?_, fun hp => ?_, ?_⟩
      · rw [List.filterMap_cons, g2]; exact .keep g3 k3
      · rw [List.filterMap_cons, g2, List.map_cons, g4 hp, k4 hp]
      · intro x hx
        rcases List.mem_cons.mp hx with rfl | hx
        · exact ⟨g5, g6⟩
        · exact k5 x hx

theorem ofState_put (s : RState) (f : SField) (x : Option Str) (y : Nat) :
    (ofState (s.put f x)).count y = (ofStr x).count y + (ofState (s.put f none)).count y := by
  cases f <;> simp [RState.put, ofState, ofStr, List.count_append, List.count_cons] <;> omega

theorem sput_get (s : RState) (f : SField) : s.put f (s.get f) = s := by cases f <;> rfl

theorem setSField_spec {s s' : RState} {fd : SField} {v : Option String} {f : Bool} (h : H ok m (ofState s ++ a) r)
    (e : setSField m s fd v = (f, s', m')) :
    ∃ x, s' = s.put fd x ∧ H ok m' (ofState s' ++ a) r ∧ (f = true → Spec.text x = v) ∧ (f = false → s' = s) ∧
      ((∀ n, ok n = true) → f = true) := by
  unfold setSField at e
  rcases hs : setStr m (s.get fd) v with ⟨g, x, m1⟩
  simp only [hs, Prod.mk.injEq] at e
  obtain ⟨rfl, rfl, rfl⟩ := e
  have h0 : H ok m (ofStr (s.get fd) ++ (ofState (s.put fd none) ++ a)) r := by
    refine h.re ?_
    intro y
    have := ofState_put s fd (s.get fd) y
    rw [sput_get] at this
    simp only [List.count_append]; omega
  obtain ⟨h1, h2, h3, h4⟩ := setStr_spec h0 hs
  refine ⟨x, rfl, h1.re ?_, h2, fun hf => ?_, h4⟩
  · intro y
    have := ofState_put s fd x y
    simp only [List.count_append]; omega
  · rw [h3 hf, sput_get]

theorem loadSField_spec {s s' : RState} {f : SField} {v : Option String} (h : H ok m (ofState s ++ a) r)
    (e : loadSField m s f v = (s', m')) :
    ∃ x, s' = s.put f x ∧ H ok m' (ofState s' ++ a) r ∧
      (Spec.text x = Spec.text (s.get f) ∨ (Spec.text x = v ∧ v.isSome)) ∧
      ((∀ n, ok n = true) → Spec.text x = v.or (Spec.text (s.get f))) := by
  cases v with
  | none =>
    simp only [loadSField, Prod.mk.injEq] at e
    obtain ⟨rfl, rfl⟩ := e
    exact ⟨s.get f, by rw [sput_get], h, Or.inl rfl, fun _ => rfl⟩
  | some v =>
    rcases hs : setSField m s f (some v) with ⟨g, s1, m1⟩
    simp only [loadSField, hs, Prod.mk.injEq] at e
    obtain ⟨rfl, rfl⟩ := e
    obtain ⟨x, h1, h2, h3, h4, h5⟩ := setSField_spec h hs
    cases g with
    | true => exact ⟨x, h1, h2, Or.inr ⟨h3 rfl, rfl⟩, fun _ => by rw [h3 rfl]; rfl⟩
    | false => exact ⟨s.get f, by rw [h4 rfl, sput_get], h2, Or.inl rfl, fun hp => absurd (h5 hp) (by simp)⟩

theorem loadState_spec {s s' : RState} {root : Doc} {f : Bool} (h : H ok m (ofState s ++ a) r)
    (e : loadState m s root = (f, s', m')) :
    (∃ l, H ok m' (ofState s' ++ (l ++ a)) r ∧ (leaked root = false → l = [])) ∧
    (f = false → s' = s) ∧
    ((∀ n, ok n = true) →
      if f then stateFromJson (stateValue s) root = some (stateValue s') else stateFromJson (stateValue s) root = none) ∧
    (f = true → ∃ (w : IamState) (n : List RUser), stateFromJson (stateValue s) root = some w ∧
      (stateValue s').users = (stateValue s).users ++ n.map value ∧
      (∃ d, w.users = (stateValue s).users ++ d ∧ Spec.Some (n.map value) d) ∧
      (∀ u ∈ n, u ∈ s'.users) ∧
      (∀ u ∈ s'.users, u ∈ s.users ∨ u ∈ n) ∧
      (∀ u ∈ n, validateUsername u.username.val = true ∧ (u.categories.map Str.val).Nodup) ∧
      (∀ fd, Spec.text (s'.get fd) = Spec.text (s.get fd) ∨ Spec.text (s'.get fd) = sfield w fd) ∧
      (stateValue s').passwordOpenPairing = w.passwordOpenPairing ∧
      (stateValue s').localOpenPairing = w.localOpenPairing ∧
      (stateValue s').passwordInvitePairing = w.passwordInvitePairing ∧
      (stateValue s').localInitialPairing = w.localInitialPairing) := by
  unfold loadState at e
  unfold stateFromJson
  rcases ha : alloc m with ⟨_ | b, m0⟩ <;> simp only [ha] at e
  · simp only [Prod.mk.injEq] at e
    obtain ⟨rfl, rfl, rfl⟩ := e
    obtain ⟨h1, h2⟩ := alloc_none h ha
    exact ⟨⟨[], h1, fun _ => rfl⟩, fun _ => rfl, fun hp => absurd hp h2, nofun⟩
  · have h1 := alloc_some h ha
    cases ho : isObj (some root) with
    | false =>
      simp [ho] at e
      obtain ⟨rfl, rfl, rfl⟩ := e
      exact ⟨⟨[], free_mine h1, fun _ => rfl⟩, fun _ => rfl, fun _ => by simp, nofun⟩
    | true =>
      cases hv : asNum (getItem root "Version") with
      | none =>
        simp [ho, hv] at e
        obtain ⟨rfl, rfl, rfl⟩ := e
        exact ⟨⟨[], free_mine h1, fun _ => rfl⟩, fun _ => rfl, fun _ => by simp, nofun⟩
      | some v =>
        by_cases hgt : v > 2
        · simp only [ho, hv, hgt, Bool.not_true, Bool.false_eq_true, if_false, if_true, Prod.mk.injEq] at e
          obtain ⟨rfl, rfl, rfl⟩ := e
          refine ⟨⟨[b], h1.re ?_, fun hl => ?_⟩, fun _ => rfl, fun _ => by simp [hgt], nofun⟩
          · intro x; simp [List.count_append, List.count_cons]; omega
          · simp only [leaked, ho, hv, Option.any_some, Bool.true_and, decide_eq_false_iff_not] at hl
            exact absurd hgt hl
        · simp only [ho, hv, hgt, Bool.not_true, Bool.false_eq_true, if_false] at e ⊢
          have g0 : H ok m0 (ofState s ++ (b :: a)) r := h1.re (by
            intro x; simp [List.count_append, List.count_cons]; omega)
          rcases e1 : loadSField m0 s .passwordOpenPassword (asStr (getItem root "OpenPairingPassword"))
            with ⟨u1, m1⟩
          obtain ⟨x1, rfl, g1, q1, t1⟩ := loadSField_spec g0 e1
          simp only [e1] at e
          rcases e2 : loadSField m1 (s.put .passwordOpenPassword x1) .passwordOpenSct
            (asStr (getItem root "OpenPairingSct")) with ⟨u2, m2⟩
          obtain ⟨x2, rfl, g2, q2, t2⟩ := loadSField_spec g1 e2
          simp only [e2] at e
          simp only [RState.put] at e g2
          generalize hb1 : (asBool (getItem root "LocalOpenPairing")).getD s.localOpenPairing = b1 at e ⊢
          generalize hb2 : (asBool (getItem root "PasswordOpenPairing")).getD s.passwordOpenPairing = b2 at e ⊢
          generalize hb3 : (asBool (getItem root "PasswordInvitePairing")).getD s.passwordInvitePairing = b3 at e ⊢
          generalize hb4 : (asBool (getItem root "LocalInitialPairing")).getD s.localInitialPairing = b4 at e ⊢
          have g2' : H ok m2 (ofState ⟨s.self, s.users, x1, x2, b2, b1, b3, b4, s.openPairingRole,
            s.initialPairingUsername, s.friendlyName⟩ ++ b :: a) r := g2
          rcases e3 : loadSField m2 ⟨s.self, s.users, x1, x2, b2, b1, b3, b4, s.openPairingRole,
            s.initialPairingUsername, s.friendlyName⟩ .initialPairingUsername
            (asStr (getItem root "InitialPairingUsername")) with ⟨u3, m3⟩
          obtain ⟨x3, rfl, g3, q3, t3⟩ := loadSField_spec g2' e3
          simp only [e3] at e
          rcases e4 : loadSField m3 (RState.put ⟨s.self, s.users, x1, x2, b2, b1, b3, b4, s.openPairingRole,
            s.initialPairingUsername, s.friendlyName⟩ .initialPairingUsername x3) .friendlyName
            (asStr (getItem root "FriendlyName")) with ⟨u4, m4⟩
          obtain ⟨x4, rfl, g4, q4, t4⟩ := loadSField_spec g3 e4
          simp only [e4] at e
          simp only [RState.put] at e g4
          rcases e5 : loadSField m4 ⟨s.self, s.users, x1, x2, b2, b1, b3, b4, s.openPairingRole, x3, x4⟩
            .openPairingRole (asStr (getItem root "OpenPairingRole")) with ⟨u5, m5⟩
          obtain ⟨x5, rfl, g5, q5, t5⟩ := loadSField_spec g4 e5
          simp only [e5] at e
          simp only [RState.put] at e g5
          have key : ∃ (n us : List RUser) (m6 : Mem), loadArray m5 v s.users (asArr (getItem root "Users")) = (us, m6) ∧ us = s.users ++ n ∧
              H ok m6 (ofState ⟨s.self, us, x1, x2, b2, b1, b3, b4, x5, x3, x4⟩ ++ b :: a) r ∧
              Spec.Some (n.map value) (match asArr (getItem root "Users") with
                | some l => l.filterMap (userFromJson · v)
                | none => []) ∧
              ((∀ n, ok n = true) → n.map value = (match asArr (getItem root "Users") with
                | some l => l.filterMap (userFromJson · v)
                | none => [])) ∧
              (∀ u ∈ n, validateUsername u.username.val = true ∧ (u.categories.map Str.val).Nodup) := by
            cases hu : asArr (getItem root "Users") with
            | none => exact ⟨[], s.users, m5, rfl, by simp, g5, .nil, fun _ => rfl, by simp⟩
            | some l =>
              rcases e6 : loadUsers m5 v s.users l with ⟨us, m6⟩
              have g5' : H ok m5 (s.users.flatMap ofUser ++
                  (ofState ⟨s.self, [], x1, x2, b2, b1, b3, b4, x5, x3, x4⟩ ++ b :: a)) r := g5.re (by
                intro x; simp [ofState, List.count_append, List.count_cons]; omega)
              obtain ⟨n, k1, k2, k3, k4, k5⟩ := loadUsers_spec g5' e6
              refine ⟨n, us, m6, e6, k1, k2.re ?_, k3, k4, k5⟩
              intro x; simp [ofState, List.count_append, List.count_cons]; omega
          obtain ⟨n, us, m6, k0, k1, k2, k3, k4, k5⟩ := key
          rw [k0] at e
          simp only [Prod.mk.injEq] at e
          obtain ⟨rfl, rfl, rfl⟩ := e
          refine ⟨⟨[], ?_, fun _ => rfl⟩, nofun, fun hp => ?_, fun _ => ?_⟩
          · refine free_mine (k2.re ?_)
            intro x; simp [List.count_append, List.count_cons]; omega
          · have z1 := t1 hp
            have z2 := t2 hp
            have z3 := t3 hp
            have z4 := t4 hp
            have z5 := t5 hp
            simp only [RState.put, RState.get] at z1 z2 z3 z4 z5
            simp only [if_true, stateValue, Option.some.injEq, k1, List.map_append, k4 hp, z1, z2, z3, z4, z5,
              hb1, hb2, hb3, hb4]
            rfl
          · refine ⟨_, n, rfl, by simp [stateValue, k1], ⟨_, rfl, k3⟩, fun u hu => by
                rw [k1]; exact List.mem_append_right _ hu, fun u hu => by
                rw [k1] at hu; exact List.mem_append.mp hu, k5, ?_,
              hb2.symm, hb1.symm, hb3.symm, hb4.symm⟩
            intro fd
            have aux : ∀ {x y : Option String} {z : Option String}, (x = y ∨ (x = z ∧ z.isSome)) →
                (x = y ∨ x = z.or y) := by
              intro x y z hh
              rcases hh with hh | ⟨hh, hz⟩
              · exact Or.inl hh
              · refine Or.inr ?_
                cases z with
                | none => simp at hz
                | some z => exact hh
            cases fd
            · exact aux q1
            · exact aux q2
            · exact aux q5
            · exact aux q3
            · exact aux q4

end

end Verif.Iam.Record
