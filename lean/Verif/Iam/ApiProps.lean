import Verif.Iam.EffectProps

/-!
# IAM API functions — property theorems (C62)
-/

namespace Verif.Iam

namespace Spec

/-- What the result OK of an API function promises: exactly this change and no other. -/
inductive ApiEffect (iam iam' : Iam) (d : Dev) : ApiOp → Prop
  | createUser (n sct a) : ValidName n → strlen n ≤ iam.limits.usernameMax →
      iam.state.users.length < iam.limits.maxUsers → d.newSct = some sct →
      Appended iam.state iam'.state { addr := a, username := n, sct := some sct } →
      ApiEffect iam iam' d (.createUser n)
  | firstFingerprint (n f u) : strlen f = 64 → u.fingerprints = [] →
      Replaced iam.state iam'.state n u { u with fingerprints := [⟨f, none⟩] } →
      ApiEffect iam iam' d (.setUserFingerprint n f)
  | setUserFingerprint (n f u g name xs) : strlen f = 64 → u.fingerprints = ⟨g, name⟩ :: xs →
      Replaced iam.state iam'.state n u { u with fingerprints := ⟨f, name⟩ :: xs } →
      ApiEffect iam iam' d (.setUserFingerprint n f)
  | addUserFingerprint (n f name) : strlen f = 64 → strlen name ≤ iam.limits.displayNameMax →
      Changes iam.state iam'.state n (fun u => { u with fingerprints := u.fingerprints ++ [⟨f, some name⟩] }) →
      ApiEffect iam iam' d (.addUserFingerprint n f (some name))
  | removeUserFingerprint (n f u pre x post) : u.fingerprints = pre ++ x :: post → x.fingerprint = f →
      (∀ y ∈ pre, y.fingerprint ≠ f) →
      Replaced iam.state iam'.state n u { u with fingerprints := pre ++ post } →
      ApiEffect iam iam' d (.removeUserFingerprint n f)
  | setUserSct (n s) : strlen s ≤ iam.limits.sctMax →
      Changes iam.state iam'.state n (fun u => { u with sct := some s }) → ApiEffect iam iam' d (.setUserSct n s)
  | setUserPassword (n s) : strlen s ≤ iam.limits.passwordMax → iam.limits.passwordMin ≤ strlen s →
      Changes iam.state iam'.state n (fun u => { u with password := some s }) →
      ApiEffect iam iam' d (.setUserPassword n s)
  | setUserRole (n r) : (∃ x ∈ iam.conf.roles, x.id = r) →
      Changes iam.state iam'.state n (fun u => { u with role := some r }) → ApiEffect iam iam' d (.setUserRole n r)
  | setUserDisplayName (n s) : strlen s ≤ iam.limits.displayNameMax →
      Changes iam.state iam'.state n (fun u => { u with displayName := some s }) →
      ApiEffect iam iam' d (.setUserDisplayName n s)
  | setUserFcmToken (n s) : strlen s ≤ iam.limits.fcmTokenMax →
      Changes iam.state iam'.state n (fun u => { u with fcmToken := some s }) →
      ApiEffect iam iam' d (.setUserFcmToken n s)
  | setUserFcmProjectId (n s) : strlen s ≤ iam.limits.fcmProjectIdMax →
      Changes iam.state iam'.state n (fun u => { u with fcmProjectId := some s }) →
      ApiEffect iam iam' d (.setUserFcmProjectId n s)
  | setUserOauthSubject (n s) : strlen s ≤ iam.limits.oauthSubjectMax →
      Changes iam.state iam'.state n (fun u => { u with oauthSubject := some s }) →
      ApiEffect iam iam' d (.setUserOauthSubject n s)
  | setUserNotificationCategories (n cs ds) : (∀ c, c ∈ ds ↔ c ∈ cs) → ds.Nodup → (∀ c ∈ cs, c ∈ iam.categories) →
      Changes iam.state iam'.state n (fun u => { u with notificationCategories := ds }) →
      ApiEffect iam iam' d (.setUserNotificationCategories n cs)
  | deleteUser (n) : Removed iam.state iam'.state n → ApiEffect iam iam' d (.deleteUser n)
  | authorizeConnection (ref n u) : FirstWith (fun u => u.username = n) iam.state.users u →
      iam' = { iam with authorized := iam.authorized ++ [(ref, u.addr)] } →
      ApiEffect iam iam' d (.authorizeConnection ref n)
  | setLocalOpenPairing (b) : iam'.state = { iam.state with localOpenPairing := b } →
      ApiEffect iam iam' d (.setLocalOpenPairing b)
  | setPasswordOpenPairing (b) : iam'.state = { iam.state with passwordOpenPairing := b } →
      ApiEffect iam iam' d (.setPasswordOpenPairing b)
  | setPasswordInvitePairing (b) : iam'.state = { iam.state with passwordInvitePairing := b } →
      ApiEffect iam iam' d (.setPasswordInvitePairing b)
  | setLocalInitialPairing (b) : iam'.state = { iam.state with localInitialPairing := b } →
      ApiEffect iam iam' d (.setLocalInitialPairing b)
  | loadState (ok st us) : ok = true → us.map (fun u => { u with addr := 0 }) = st.users.map (fun u => { u with addr := 0 }) →
      iam'.state = { st with users := us } → ApiEffect iam iam' d (.loadState ok st)
  | loadConfiguration (c) : (∀ r, c.unpairedRole = some r → ∃ x ∈ c.roles, x.id = r) →
      iam' = { iam with conf := c } → ApiEffect iam iam' d (.loadConfiguration c)
  | setNotificationCategories (cs) : iam' = { iam with categories := cs } →
      ApiEffect iam iam' d (.setNotificationCategories cs)
  | setLimits (l) : iam' = { iam with limits := l } → ApiEffect iam iam' d (.setLimits l)

end Spec

open Spec

theorem setField_effect {iam iam' : Iam} (ha : AddrOk iam) {n : String} {f : User → User}
    (h : setField iam n f = (iam', .ok)) : Changes iam.state iam'.state n f := by
  unfold setField at h
  split at h
  · injection h with _ h; cases h
  · rename_i u hu
    injection h with h _; subst h
    exact changes_upd ha hu f

theorem freshen_clear (n : Nat) (us : List User) :
    (freshen n us).map (fun u => { u with addr := 0 }) = us.map (fun u => { u with addr := 0 }) := by
  induction us generalizing n with
  | nil => rfl
  | cons u us ih => simp [freshen, ih]

/-- C62: the property fails for creating a user: OK is returned although the user was thrown away,
because the device had no room for its server connect token. -/
theorem C62_api_took_effect_violated :
    ∃ i, api { openIam with limits := {} } { newSct := some "t", addSctOk := false } (.createUser "x") = .ok (i, .ok) ∧
      i.state = openIam.state := ⟨_, rfl, by decide +kernel⟩

/-- C62, when server connect tokens can be registered: an API function that returns OK has made exactly
the change it documents. -/
theorem C62_api_took_effect_partial (iam iam' : Iam) (d : Dev) (op : ApiOp) (hw : WellFormed iam)
    (htok : d.addSctOk = true) (h : api iam d op = .ok (iam', .ok)) : ApiEffect iam iam' d op := by
  have ha := wellFormed_addrOk hw
  cases op with
  | createUser n =>
    simp only [api, createUser, Res.ok.injEq] at h
    split at h
    · injection h with _ h; cases h
    rename_i hv
    split at h
    · injection h with _ h; cases h
    rename_i hroom
    split at h
    · injection h with _ h; cases h
    rename_i hfree
    split at h
    · injection h with _ h; cases h
    rename_i sct hsct
    simp only [allocUser, addUser, htok, Bool.not_true, Bool.and_false, Bool.false_eq_true, if_false] at h
    injection h with h _; subst h
    simp only [Bool.or_eq_true, decide_eq_true_eq, Bool.not_eq_true', not_or, Bool.not_eq_false] at hv
    rw [Option.not_isSome_iff_eq_none] at hfree
    exact .createUser n sct iam.nextAddr ((validateUsername_iff n).mp hv.2) (by omega) (by omega) hsct
      ⟨(findUser_none _ _).mp hfree, rfl⟩
  | setUserFingerprint n f =>
    simp only [api, setUserFingerprint, Res.ok.injEq] at h
    split at h
    · injection h with _ h; cases h
    rename_i hl
    have hl : strlen f = 64 := by omega
    split at h
    · injection h with _ h; cases h
    rename_i w hu
    cases hx : w.fingerprints with
    | nil =>
      simp only [userSetFingerprint, hx] at h
      injection h with h _; subst h
      exact .firstFingerprint n f w hl hx (replaced_upd ha hu _)
    | cons x xs =>
      simp only [userSetFingerprint, hx] at h
      injection h with h _; subst h
      exact .setUserFingerprint n f w x.fingerprint x.name xs hl hx (replaced_upd ha hu _)
  | addUserFingerprint n f name =>
    simp only [api, addUserFingerprint] at h
    split at h
    · injection h with h; injection h with _ h; cases h
    rename_i hl
    have hl : strlen f = 64 := by omega
    split at h
    · cases h
    split at h
    · injection h with h; injection h with _ h; cases h
    split at h
    · injection h with h; injection h with _ h; cases h
    rename_i w hu
    simp only [userAddFingerprint] at h
    injection h with h; injection h with h _; subst h
    exact .addUserFingerprint n f _ hl (by omega) (changes_const ha hu rfl)
  | removeUserFingerprint n f =>
    simp only [api, removeUserFingerprint, Res.ok.injEq] at h
    split at h
    · injection h with _ h; cases h
    rename_i w hu
    split at h
    · injection h with _ h; cases h
    rename_i u' hu'
    injection h with h _; subst h
    obtain ⟨pre, x, post, h1, h2, h3, rfl⟩ := remove_split hu'
    exact .removeUserFingerprint n f w pre x post h1 h2 h3 (replaced_upd ha hu _)
  | setUserSct n s =>
    simp only [api, Res.ok.injEq] at h
    split at h
    · injection h with _ h; cases h
    · exact .setUserSct n s (by omega) (setField_effect ha h)
  | setUserPassword n s =>
    simp only [api, Res.ok.injEq] at h
    split at h
    · injection h with _ h; cases h
    · rename_i hl
      simp only [Bool.or_eq_true, decide_eq_true_eq, not_or] at hl
      exact .setUserPassword n s (by omega) (by omega) (setField_effect ha h)
  | setUserRole n r =>
    simp only [api, setUserRole, Res.ok.injEq] at h
    split at h
    · injection h with _ h; cases h
    rename_i w hu
    split at h
    · injection h with _ h; cases h
    rename_i x hx
    injection h with h _; subst h
    obtain ⟨_, hx1, hx2⟩ := (findRole_some _ _ _).mp hx
    injection hx1 with hx1; subst hx1
    exact .setUserRole n r ⟨x, hx2.mem, hx2.prop⟩ (changes_upd ha hu _)
  | setUserDisplayName n s =>
    simp only [api, Res.ok.injEq] at h
    split at h
    · injection h with _ h; cases h
    · exact .setUserDisplayName n s (by omega) (setField_effect ha h)
  | setUserFcmToken n s =>
    simp only [api, Res.ok.injEq] at h
    split at h
    · injection h with _ h; cases h
    · exact .setUserFcmToken n s (by omega) (setField_effect ha h)
  | setUserFcmProjectId n s =>
    simp only [api, Res.ok.injEq] at h
    split at h
    · injection h with _ h; cases h
    · exact .setUserFcmProjectId n s (by omega) (setField_effect ha h)
  | setUserOauthSubject n s =>
    simp only [api, Res.ok.injEq] at h
    split at h
    · injection h with _ h; cases h
    · exact .setUserOauthSubject n s (by omega) (setField_effect ha h)
  | setUserNotificationCategories n cs =>
    simp only [api, setUserCategories, Res.ok.injEq] at h
    split at h
    · injection h with _ h; cases h
    rename_i w hu
    split at h
    · rename_i hall
      injection h with h _; subst h
      exact .setUserNotificationCategories n cs _ (categorySet_iff cs) (categorySet_nodup cs)
        (fun c hc => List.contains_iff_mem.mp (List.all_eq_true.mp hall c hc)) (changes_upd ha hu _)
    · injection h with _ h; cases h
  | deleteUser n =>
    simp only [api, deleteUser, Res.ok.injEq] at h
    split at h
    · injection h with _ h; cases h
    rename_i w hu
    injection h with h _; subst h
    exact .deleteUser n (removed_erase ha hu)
  | authorizeConnection ref n =>
    simp only [api, authorizeConnection, Res.ok.injEq] at h
    split at h
    · injection h with _ h; cases h
    rename_i w hu
    injection h with h _; subst h
    exact .authorizeConnection ref n w (findUser_first hu) rfl
  | setLocalOpenPairing b =>
    simp only [api, Res.ok.injEq] at h
    injection h with h _; subst h; exact .setLocalOpenPairing b rfl
  | setPasswordOpenPairing b =>
    simp only [api, Res.ok.injEq] at h
    injection h with h _; subst h; exact .setPasswordOpenPairing b rfl
  | setPasswordInvitePairing b =>
    simp only [api, Res.ok.injEq] at h
    injection h with h _; subst h; exact .setPasswordInvitePairing b rfl
  | setLocalInitialPairing b =>
    simp only [api, Res.ok.injEq] at h
    injection h with h _; subst h; exact .setLocalInitialPairing b rfl
  | loadState ok st =>
    simp only [api, loadState, Res.ok.injEq] at h
    split at h
    · injection h with _ h; simp at h
    · rename_i hc
      simp only [Bool.or_eq_true, Bool.not_eq_true', not_or, Bool.not_eq_false] at hc
      injection h with h _; subst h
      exact .loadState ok st _ hc.2 (freshen_clear _ _) rfl
  | loadConfiguration c =>
    simp only [api, loadConfiguration, Res.ok.injEq] at h
    split at h
    · injection h with _ h; simp at h
    · rename_i hc
      injection h with h _; subst h
      refine .loadConfiguration c ?_ rfl
      intro r hr
      rw [hr] at hc
      simp only [Option.isSome_some, Bool.true_and, Option.isNone_iff_eq_none] at hc
      cases hx : findRole c (some r) with
      | none => exact absurd hx hc
      | some x =>
        obtain ⟨_, hx1, hx2⟩ := (findRole_some _ _ _).mp hx
        injection hx1 with hx1; subst hx1
        exact ⟨x, hx2.mem, hx2.prop⟩
  | setNotificationCategories cs =>
    simp only [api, Res.ok.injEq] at h
    injection h with h _; exact .setNotificationCategories cs h.symm
  | setLimits l =>
    simp only [api, Res.ok.injEq] at h
    injection h with h _; exact .setLimits l h.symm

/-- C62: an API function that returns an error has changed neither the state nor the configuration. -/
theorem C62_api_error_changes_nothing (iam iam' : Iam) (d : Dev) (op : ApiOp) (e : Err)
    (h : api iam d op = .ok (iam', e)) (he : e ≠ .ok) :
    iam'.state = iam.state ∧ iam'.conf = iam.conf ∧ iam'.authorized = iam.authorized ∧
      iam'.limits = iam.limits ∧ iam'.categories = iam.categories := by
  have sf : ∀ {n f}, setField iam n f = (iam', e) → iam'.state = iam.state ∧ iam'.conf = iam.conf ∧
      iam'.authorized = iam.authorized ∧ iam'.limits = iam.limits ∧ iam'.categories = iam.categories := by
    intro n f h
    unfold setField at h
    split at h
    · injection h with h _; subst h; exact ⟨rfl, rfl, rfl, rfl, rfl⟩
    · injection h with _ h; exact absurd h.symm he
  cases op with
  | createUser n =>
    simp only [api, createUser, allocUser, Res.ok.injEq] at h
    repeat' split at h
    all_goals
      injection h with h h'
      first
      | exact absurd h'.symm he
      | (subst h; exact ⟨rfl, rfl, rfl, rfl, rfl⟩)
  | setUserFingerprint n f =>
    simp only [api, setUserFingerprint, Res.ok.injEq] at h
    repeat' split at h
    all_goals
      injection h with h h'
      first
      | exact absurd h'.symm he
      | (subst h; exact ⟨rfl, rfl, rfl, rfl, rfl⟩)
  | addUserFingerprint n f name =>
    simp only [api, addUserFingerprint] at h
    repeat' split at h
    all_goals first
      | cases h; done
      | (injection h with h; injection h with h h'
         first
         | exact absurd h'.symm he
         | (subst h; exact ⟨rfl, rfl, rfl, rfl, rfl⟩))
  | removeUserFingerprint n f =>
    simp only [api, removeUserFingerprint, Res.ok.injEq] at h
    repeat' split at h
    all_goals
      injection h with h h'
      first
      | exact absurd h'.symm he
      | (subst h; exact ⟨rfl, rfl, rfl, rfl, rfl⟩)
  | setUserRole n f =>
    simp only [api, setUserRole, Res.ok.injEq] at h
    repeat' split at h
    all_goals
      injection h with h h'
      first
      | exact absurd h'.symm he
      | (subst h; exact ⟨rfl, rfl, rfl, rfl, rfl⟩)
  | setUserNotificationCategories n cs =>
    simp only [api, setUserCategories, Res.ok.injEq] at h
    repeat' split at h
    all_goals
      injection h with h h'
      first
      | exact absurd h'.symm he
      | (subst h; exact ⟨rfl, rfl, rfl, rfl, rfl⟩)
  | deleteUser n =>
    simp only [api, deleteUser, Res.ok.injEq] at h
    repeat' split at h
    all_goals
      injection h with h h'
      first
      | exact absurd h'.symm he
      | (subst h; exact ⟨rfl, rfl, rfl, rfl, rfl⟩)
  | authorizeConnection ref n =>
    simp only [api, authorizeConnection, Res.ok.injEq] at h
    repeat' split at h
    all_goals
      injection h with h h'
      first
      | exact absurd h'.symm he
      | (subst h; exact ⟨rfl, rfl, rfl, rfl, rfl⟩)
  | loadState ok st =>
    simp only [api, loadState, Res.ok.injEq] at h
    split at h
    · injection h with h _; subst h; exact ⟨rfl, rfl, rfl, rfl, rfl⟩
    · injection h with _ h; exact absurd h.symm he
  | loadConfiguration c =>
    simp only [api, loadConfiguration, Res.ok.injEq] at h
    split at h
    · injection h with h _; subst h; exact ⟨rfl, rfl, rfl, rfl, rfl⟩
    · injection h with _ h; exact absurd h.symm he
  | setLocalOpenPairing b => injection h with h; injection h with _ h; exact absurd h.symm he
  | setPasswordOpenPairing b => injection h with h; injection h with _ h; exact absurd h.symm he
  | setPasswordInvitePairing b => injection h with h; injection h with _ h; exact absurd h.symm he
  | setLocalInitialPairing b => injection h with h; injection h with _ h; exact absurd h.symm he
  | setNotificationCategories b => injection h with h; injection h with _ h; exact absurd h.symm he
  | setLimits b => injection h with h; injection h with _ h; exact absurd h.symm he
  | setUserSct n s | setUserPassword n s | setUserDisplayName n s | setUserFcmToken n s
  | setUserFcmProjectId n s | setUserOauthSubject n s =>
    simp only [api, Res.ok.injEq] at h
    split at h
    · injection h with h _; subst h; exact ⟨rfl, rfl, rfl, rfl, rfl⟩
    · exact sf h

example : ∃ i, api openIam {} (.setUserPassword "guest" "secret2") = .ok (i, .ok) ∧ WellFormed openIam :=
  ⟨_, rfl, openIam_wellFormed⟩

example : ∃ i, api openIam {} (.setUserPassword "nobody" "secret2") = .ok (i, .noSuchUser) := ⟨_, rfl⟩

end Verif.Iam
