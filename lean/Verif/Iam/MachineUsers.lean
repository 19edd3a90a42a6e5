import Verif.Iam.MachineLemmas

/-! The classification of every handler and API function. -/

namespace Verif.Iam

open Spec

theorem done_inj {a b : Iam} {c c' : Nat} (h : HRes.done a c = HRes.done b c') : b = a ∧ c' = c := by
  injection h with h1 h2; exact ⟨h1.symm, h2.symm⟩

theorem setOptional_users {E : Env} {iam iam' : Iam} (ha : AddrOk iam) {d : Dev} {ref : Nat}
    {action username : String} {p : Payload} {valid : String → Bool} {f : Option String → User → User}
    {c : Nat} {e : Ev}
    (hf : ∀ u v, u.username = username → (∀ s, v = some s → valid s = true) → ModFacts e iam u (f v u))
    (h : hSetOptional E iam d ref action username p valid f = .done iam' c) :
    UsersUpd e iam iam'.state.users iam'.nextAddr := by
  unfold hSetOptional at h
  rcases withPayload_done h with ⟨rfl, _⟩ | ⟨v, _, h⟩
  · exact .keep _ (Nat.le_refl _)
  split at h
  · obtain ⟨rfl, _⟩ := done_inj h; exact .keep _ (Nat.le_refl _)
  · rename_i val hval
    split at h
    · obtain ⟨rfl, _⟩ := done_inj h; exact .keep _ (Nat.le_refl _)
    · rename_i hv
      rcases withAccess_done h with ⟨rfl, _⟩ | ⟨_, h⟩
      · exact .keep _ (Nat.le_refl _)
      split at h
      · obtain ⟨rfl, _⟩ := done_inj h; exact .keep _ (Nat.le_refl _)
      · rename_i u hu
        split at h
        · obtain ⟨rfl, _⟩ := done_inj h; exact .keep _ (Nat.le_refl _)
        · obtain ⟨rfl, _⟩ := done_inj h
          refine upd_mod ha (findUser_mem hu) (f val) (hf u val (findUser_name hu) ?_)
          intro s hs
          subst hs
          simp at hv
          exact hv

theorem handle_users {E : Env} {iam iam' : Iam} (ha : AddrOk iam) {d : Dev} {ref : Nat} {r : Req} {c : Nat}
    (h : handle E iam d ref r = .done iam' c) :
    UsersUpd (.coap ref d r) iam iam'.state.users iam'.nextAddr := by
  have keep : ∀ {x : Iam} {c c' : Nat}, HRes.done iam c = .done x c' →
      UsersUpd (.coap ref d r) iam x.state.users x.nextAddr := by
    intro x c c' hx
    obtain ⟨rfl, _⟩ := done_inj hx; exact .keep _ (Nat.le_refl _)
  cases r with
  | createUser p =>
    simp only [handle, hCreateUser] at h
    rcases withAccess_done h with ⟨rfl, _⟩ | ⟨_, h⟩
    · exact .keep _ (Nat.le_refl _)
    split at h
    · exact keep h
    rename_i hroom
    rcases withPayload_done h with ⟨rfl, _⟩ | ⟨v, _, h⟩
    · exact .keep _ (Nat.le_refl _)
    split at h
    · exact keep h
    · cases h
    rename_i username hdec
    split at h
    · exact keep h
    rename_i hv
    split at h
    · exact keep h
    rename_i hl
    split at h
    · exact keep h
    rename_i hfree
    split at h
    · exact keep h
    rename_i sct hsct
    split at h
    · exact keep h
    rename_i hsl
    have hres : iam' = (match addUser (allocUser iam { addr := 0, username := username, sct := some sct }).1
        d.addSctOk (allocUser iam { addr := 0, username := username, sct := some sct }).2 with
        | none => (allocUser iam { addr := 0, username := username, sct := some sct }).1
        | some x => x) := by
      split at h <;> exact (done_inj h).1
    split at hres
    · subst hres; exact .keep _ (Nat.le_succ _)
    · rename_i x hx
      subst hres
      refine addUser_upd ?_ hx
      simp only [Bool.not_eq_true', Bool.not_eq_false, Nat.not_lt, gt_iff_lt, ge_iff_le, Nat.not_le,
        Option.not_isSome_iff_eq_none] at hv hl hsl hroom hfree
      refine ⟨rfl, hv, hl, (findUser_none _ _).mp hfree, ?_, .inl hroom, ?_, rfl⟩
      · rintro g ⟨x, hx, _⟩; simp at hx
      · intro _ _
        rw [validateUser_iff]
        exact ⟨hl, rfl, rfl, by simp, (checkLength_some _ _ _).mpr ⟨Nat.zero_le _, hsl⟩, rfl, rfl, rfl, by simp⟩
  | deleteUser username =>
    simp only [handle, hDeleteUser] at h
    rcases withAccess_done h with ⟨rfl, _⟩ | ⟨_, h⟩
    · exact .keep _ (Nat.le_refl _)
    have hres : iam' = (deleteUser iam username).1 := by
      split at h <;> rename_i heq <;> rw [heq] <;> exact (done_inj h).1
    subst hres
    unfold deleteUser
    split
    · exact .keep _ (Nat.le_refl _)
    · rename_i u hu
      exact .delete u (findUser_mem hu) (by simp [Ev.deletes, findUser_name hu])
  | setRole username p =>
    simp only [handle, hSetRole] at h
    rcases withPayload_done h with ⟨rfl, _⟩ | ⟨v, _, h⟩
    · exact .keep _ (Nat.le_refl _)
    split at h
    · rename_i role hrole
      rcases withAccess_done h with ⟨rfl, _⟩ | ⟨_, h⟩
      · exact .keep _ (Nat.le_refl _)
      have hres : iam' = (setUserRole iam username role).1 := by
        split at h <;> rename_i heq <;> rw [heq] <;> exact (done_inj h).1
      subst hres
      unfold setUserRole
      split
      · exact .keep _ (Nat.le_refl _)
      · rename_i u hu
        split
        · exact .keep _ (Nat.le_refl _)
        · refine upd_mod ha (findUser_mem hu) _ (.plain rfl rfl rfl ?_ (.inr (.inl rfl)))
          rw [validateUser_iff, validateUser_iff]; exact id
    · exact keep h
  | setUsername old p =>
    simp only [handle, hSetUsername] at h
    rcases withPayload_done h with ⟨rfl, _⟩ | ⟨v, _, h⟩
    · exact .keep _ (Nat.le_refl _)
    split at h
    · rename_i new hnew
      split at h
      · exact keep h
      rename_i hv
      split at h
      · exact keep h
      rename_i hl
      rcases withAccess_done h with ⟨rfl, _⟩ | ⟨_, h⟩
      · exact .keep _ (Nat.le_refl _)
      split at h
      · exact keep h
      rename_i hfree
      split at h
      · exact keep h
      rename_i u hu
      split at h
      · exact keep h
      obtain ⟨rfl, _⟩ := done_inj h
      simp only [Bool.not_eq_true', Bool.not_eq_false, Nat.not_lt, gt_iff_lt,
        Option.not_isSome_iff_eq_none] at hv hl hfree
      refine upd_mod ha (findUser_mem hu) _ ⟨rfl, .inr ⟨hv, hl, (findUser_none _ _).mp hfree⟩,
        fun fp h => .inl h, ?_, .inr (.inl rfl)⟩
      intro _
      rw [validateUser_iff, validateUser_iff]
      rintro ⟨_, h⟩
      exact ⟨hl, h⟩
    · exact keep h
  | setDisplayName username p =>
    simp only [handle, hSetDisplayName] at h
    refine setOptional_users ha ?_ h
    intro u v _ hv
    refine .plain rfl rfl rfl ?_ (.inr (.inl rfl))
    rw [validateUser_iff, validateUser_iff]
    rintro ⟨h1, _, h⟩
    refine ⟨h1, ?_, h⟩
    cases v with
    | none => rfl
    | some s => have := hv s rfl; simp at this; exact (checkLength_some _ _ _).mpr ⟨Nat.zero_le _, this⟩
  | setFingerprint username p =>
    simp only [handle, hSetFingerprint] at h
    rcases withPayload_done h with ⟨rfl, _⟩ | ⟨v, _, h⟩
    · exact .keep _ (Nat.le_refl _)
    split at h
    · exact keep h
    rename_i fp hfp
    split at h
    · exact keep h
    rename_i hlen
    rcases withAccess_done h with ⟨rfl, _⟩ | ⟨_, h⟩
    · exact .keep _ (Nat.le_refl _)
    split at h
    · exact keep h
    rename_i hfree
    split at h
    · exact keep h
    rename_i u hu
    split at h
    · exact keep h
    split at h
    · exact keep h
    rename_i u' hu'
    obtain ⟨rfl, _⟩ := done_inj h
    refine mod_const ha (findUser_mem hu) (set_modFacts hu' (.inr ?_) ?_)
    · intro f hf; subst hf
      rw [Option.not_isSome_iff_eq_none] at hfree
      exact not_owned_of_find_none hfree
    · intro f hf; subst hf
      simpa using hlen
  | addFingerprint username fp p =>
    simp only [handle, hAddFingerprint] at h
    rcases withPayload_done h with ⟨rfl, _⟩ | ⟨v, _, h⟩
    · exact .keep _ (Nat.le_refl _)
    rcases withAccess_done h with ⟨rfl, _⟩ | ⟨_, h⟩
    · exact .keep _ (Nat.le_refl _)
    split at h
    · exact keep h
    rename_i hfree
    split at h
    · exact keep h
    rename_i u hu
    split at h
    · exact keep h
    split at h
    · exact keep h
    rename_i u' hu'
    obtain ⟨rfl, _⟩ := done_inj h
    refine mod_const ha (findUser_mem hu) ?_
    refine add_modFacts hu' (.inr ?_) ?_ false
    · intro f hf; injection hf with hf; subst hf
      rw [Option.not_isSome_iff_eq_none] at hfree
      exact not_owned_of_find_none hfree
    · intro hk f hf; injection hf with hf; subst hf
      simpa [Ev.keyLengthOk] using hk
  | deleteFingerprint username fp =>
    simp only [handle, hDeleteFingerprint] at h
    rcases withAccess_done h with ⟨rfl, _⟩ | ⟨_, h⟩
    · exact .keep _ (Nat.le_refl _)
    split at h
    · exact keep h
    rename_i u hu
    split at h
    · exact keep h
    rename_i u' hu'
    obtain ⟨rfl, _⟩ := done_inj h
    exact mod_const ha (findUser_mem hu) (remove_modFacts hu')
  | setSct username p =>
    simp only [handle, hSetSct] at h
    rcases withPayload_done h with ⟨rfl, _⟩ | ⟨v, _, h⟩
    · exact .keep _ (Nat.le_refl _)
    split at h
    · rename_i sct hsct
      split at h
      · exact keep h
      rename_i hl
      rcases withAccess_done h with ⟨rfl, _⟩ | ⟨_, h⟩
      · exact .keep _ (Nat.le_refl _)
      split at h
      · exact keep h
      rename_i u hu
      split at h
      · exact keep h
      obtain ⟨rfl, _⟩ := done_inj h
      refine upd_mod ha (findUser_mem hu) _ (.plain rfl rfl rfl ?_ (.inr (.inl rfl)))
      rw [validateUser_iff, validateUser_iff]
      rintro ⟨h1, h2, h3, h4, _, h⟩
      exact ⟨h1, h2, h3, h4, (checkLength_some _ _ _).mpr ⟨Nat.zero_le _, by omega⟩, h⟩
    · exact keep h
  | setPassword username p =>
    simp only [handle, hSetPassword] at h
    refine setOptional_users ha ?_ h
    intro u v hname hv
    refine .plain rfl rfl rfl ?_ (.inr (.inr (by simp [Ev.setsPassword, hname])))
    rw [validateUser_iff, validateUser_iff]
    rintro ⟨h1, h2, _, h⟩
    refine ⟨h1, h2, ?_, h⟩
    cases v with
    | none => rfl
    | some s =>
      have := hv s rfl
      simp only [Bool.not_eq_true', Bool.or_eq_false_iff, decide_eq_false_iff_not, Nat.not_lt, gt_iff_lt] at this
      exact (checkLength_some _ _ _).mpr ⟨this.2, this.1⟩
  | setFcm username p =>
    simp only [handle, hSetFcm] at h
    rcases withPayload_done h with ⟨rfl, _⟩ | ⟨v, _, h⟩
    · exact .keep _ (Nat.le_refl _)
    rcases withAccess_done h with ⟨rfl, _⟩ | ⟨_, h⟩
    · exact .keep _ (Nat.le_refl _)
    split at h
    · exact keep h
    rename_i u hu
    split at h
    · rename_i t i ht hi
      split at h
      · rename_i hl
        split at h
        · obtain ⟨rfl, _⟩ := done_inj h
          refine upd_mod ha (findUser_mem hu) _ (.plain rfl rfl rfl ?_ (.inr (.inl rfl)))
          simp only [Bool.and_eq_true, decide_eq_true_eq] at hl
          rw [validateUser_iff, validateUser_iff]
          rintro ⟨h1, h2, h3, h4, h5, _, _, h⟩
          exact ⟨h1, h2, h3, h4, h5, (checkLength_some _ _ _).mpr ⟨Nat.zero_le _, by omega⟩,
            (checkLength_some _ _ _).mpr ⟨Nat.zero_le _, by omega⟩, h⟩
        · obtain ⟨rfl, _⟩ := done_inj h; exact .keep _ (Nat.le_refl _)
      · exact keep h
    · exact keep h
  | setCategories username p =>
    simp only [handle, hSetCategories] at h
    rcases withPayload_done h with ⟨rfl, _⟩ | ⟨v, _, h⟩
    · exact .keep _ (Nat.le_refl _)
    split at h
    · cases h
    · exact keep h
    rename_i cs hcs
    rcases withAccess_done h with ⟨rfl, _⟩ | ⟨_, h⟩
    · exact .keep _ (Nat.le_refl _)
    have hres : iam' = (setUserCategories iam username cs).1 := by
      split at h <;> rename_i heq <;> rw [heq] <;> exact (done_inj h).1
    subst hres
    unfold setUserCategories
    split
    · exact .keep _ (Nat.le_refl _)
    · rename_i u hu
      split
      · rename_i hall
        refine upd_mod ha (findUser_mem hu) _ (.plain rfl rfl rfl ?_ (.inr (.inl rfl)))
        rw [validateUser_iff, validateUser_iff]
        rintro ⟨h1, h2, h3, h4, h5, h6, h7, h8, _⟩
        refine ⟨h1, h2, h3, h4, h5, h6, h7, h8, ?_⟩
        intro x hx
        have := categorySet_mem _ _ hx
        simp only [List.all_eq_true, List.contains_iff_mem] at hall
        exact hall x this
      · exact .keep _ (Nat.le_refl _)
  | setOauthSubject username p =>
    simp only [handle, hSetOauthSubject] at h
    refine setOptional_users ha ?_ h
    intro u v _ hv
    refine .plain rfl rfl rfl ?_ (.inr (.inl rfl))
    rw [validateUser_iff, validateUser_iff]
    rintro ⟨h1, h2, h3, h4, h5, h6, h7, _, h⟩
    refine ⟨h1, h2, h3, h4, h5, h6, h7, ?_, h⟩
    cases v with
    | none => rfl
    | some s => have := hv s rfl; simp at this; exact (checkLength_some _ _ _).mpr ⟨Nat.zero_le _, this⟩
  | setSettings key p =>
    simp only [handle, hSetSettings] at h
    rcases withAccess_done h with ⟨rfl, _⟩ | ⟨_, h⟩
    · exact .keep _ (Nat.le_refl _)
    rcases withPayload_done h with ⟨rfl, _⟩ | ⟨v, _, h⟩
    · exact .keep _ (Nat.le_refl _)
    repeat' split at h
    all_goals (obtain ⟨rfl, _⟩ := done_inj h; exact .keep _ (Nat.le_refl _))
  | setDeviceInfo key p =>
    simp only [handle, hSetDeviceInfo] at h
    rcases withAccess_done h with ⟨rfl, _⟩ | ⟨_, h⟩
    · exact .keep _ (Nat.le_refl _)
    rcases withPayload_done h with ⟨rfl, _⟩ | ⟨v, _, h⟩
    · exact .keep _ (Nat.le_refl _)
    repeat' split at h
    all_goals (obtain ⟨rfl, _⟩ := done_inj h; exact .keep _ (Nat.le_refl _))
  | pairLocalInitial p =>
    simp only [handle, hPairLocalInitial] at h
    split at h
    · exact keep h
    rcases withAccess_done h with ⟨rfl, _⟩ | ⟨_, h⟩
    · exact .keep _ (Nat.le_refl _)
    split at h
    · exact keep h
    split at h
    · exact keep h
    rename_i u hu
    split at h
    · exact keep h
    have pu : ∀ {p' : Payload} {fpName c'}, pairUser iam d u fpName = .done iam' c' →
        UsersUpd (.coap ref d (.pairLocalInitial p')) iam iam'.state.users iam'.nextAddr := by
      intro p' fpName c' h
      unfold pairUser at h
      split at h
      · obtain ⟨rfl, _⟩ := done_inj h; exact .keep _ (Nat.le_refl _)
      split at h
      · obtain ⟨rfl, _⟩ := done_inj h; exact .keep _ (Nat.le_refl _)
      rename_i u' hu'
      obtain ⟨rfl, _⟩ := done_inj h
      refine mod_const ha (findUser_mem hu) (add_modFacts hu' (.inl rfl) ?_ false)
      intro hk f hf
      simpa [Ev.keyLengthOk, hf] using hk
    split at h
    · exact pu h
    · exact keep h
    · exact keep h
    · split at h
      · exact keep h
      · exact pu h
  | pairLocalOpen p =>
    simp only [handle, hPairLocalOpen] at h
    split at h
    · exact keep h
    rcases withAccess_done h with ⟨rfl, _⟩ | ⟨_, h⟩
    · exact .keep _ (Nat.le_refl _)
    split at h
    · exact keep h
    split at h
    · exact keep h
    rcases withPayload_done h with ⟨rfl, _⟩ | ⟨v, _, h⟩
    · exact .keep _ (Nat.le_refl _)
    split at h
    · rw [pairResponse_done h]
      refine pairNewClient_upd rfl ?_
      intro hk f hf
      simpa [Ev.keyLengthOk, hf] using hk
    · exact keep h
  | pairPasswordInvite p =>
    simp only [handle, hPairPasswordInvite] at h
    split at h
    · exact keep h
    rcases withAccess_done h with ⟨rfl, _⟩ | ⟨_, h⟩
    · exact .keep _ (Nat.le_refl _)
    split at h
    · exact keep h
    split at h
    · exact keep h
    split at h
    · exact keep h
    rename_i username hun user hu
    split at h
    · exact keep h
    split at h
    · split at h <;> exact keep h
    rename_i hfree
    split at h
    · exact keep h
    split at h
    · exact keep h
    rename_i u' hu'
    obtain ⟨rfl, _⟩ := done_inj h
    refine mod_const ha (findUser_mem hu) (add_modFacts hu' (.inr ?_) ?_ true)
    · intro f hf
      rw [hf] at hfree
      exact not_owned_of_find_none hfree
    · intro hk f hf
      simpa [Ev.keyLengthOk, hf] using hk
  | pairPasswordOpen p =>
    simp only [handle, hPairPasswordOpen] at h
    split at h
    · exact keep h
    split at h
    · cases h
    · exact keep h
    split at h
    · exact keep h
    split at h
    · exact keep h
    rcases withPayload_done h with ⟨rfl, _⟩ | ⟨v, _, h⟩
    · exact .keep _ (Nat.le_refl _)
    split at h
    · exact keep h
    split at h
    · rw [pairResponse_done h]
      refine pairNewClient_upd rfl ?_
      intro hk f hf
      simpa [Ev.keyLengthOk, hf] using hk
    · exact keep h

theorem setField_users {iam : Iam} (ha : AddrOk iam) {username : String} {f : User → User} {e : Ev}
    (hf : ∀ u, u.username = username → ModFacts e iam u (f u)) :
    UsersUpd e iam (setField iam username f).1.state.users (setField iam username f).1.nextAddr := by
  unfold setField
  split
  · exact .keep _ (Nat.le_refl _)
  · rename_i u hu
    exact upd_mod ha (findUser_mem hu) f (hf u (findUser_name hu))

theorem api_users {iam iam' : Iam} (ha : AddrOk iam) {d : Dev} {op : ApiOp} {err : Err}
    (h : api iam d op = .ok (iam', err)) :
    UsersUpd (.api d op) iam iam'.state.users iam'.nextAddr := by
  have fin : ∀ {r : Iam × Err}, Res.ok r = .ok (iam', err) → iam' = r.1 := by
    intro r hr; injection hr with hr; rw [hr]
  cases op with
  | createUser username =>
    rw [fin h]
    unfold createUser
    split
    · exact .keep _ (Nat.le_refl _)
    rename_i hv
    split
    · exact .keep _ (Nat.le_refl _)
    rename_i hroom
    split
    · exact .keep _ (Nat.le_refl _)
    rename_i hfree
    split
    · exact .keep _ (Nat.le_refl _)
    rename_i sct hsct
    simp only
    split
    · exact .keep _ (Nat.le_succ _)
    · rename_i x hx
      refine addUser_upd ?_ hx
      simp only [Bool.or_eq_true, Bool.not_eq_true', decide_eq_true_eq, not_or, Bool.not_eq_false,
        Nat.not_lt, ge_iff_le, Nat.not_le, Option.not_isSome_iff_eq_none] at hv hroom hfree
      refine ⟨rfl, hv.2, hv.1, (findUser_none _ _).mp hfree, ?_, .inl hroom, ?_, rfl⟩
      · rintro g ⟨x, hx, _⟩; simp at hx
      · intro _ hs
        rw [validateUser_iff]
        simp [Ev.sctLengthOk, hsct] at hs
        exact ⟨hv.1, rfl, rfl, by simp, (checkLength_some _ _ _).mpr ⟨Nat.zero_le _, hs⟩, rfl, rfl, rfl, by simp⟩
  | setUserFingerprint username fp =>
    rw [fin h]
    unfold setUserFingerprint
    split
    · exact .keep _ (Nat.le_refl _)
    rename_i hl
    split
    · exact .keep _ (Nat.le_refl _)
    rename_i u hu
    split
    · exact .keep _ (Nat.le_refl _)
    rename_i u' hu'
    refine mod_const ha (findUser_mem hu) (set_modFacts hu' (.inl rfl) ?_)
    intro f hf; injection hf with hf; subst hf
    simpa using hl
  | addUserFingerprint username fp name =>
    simp only [api, addUserFingerprint] at h
    split at h
    · rw [fin h]; exact .keep _ (Nat.le_refl _)
    rename_i hl
    split at h
    · cases h
    split at h
    · rw [fin h]; exact .keep _ (Nat.le_refl _)
    split at h
    · rw [fin h]; exact .keep _ (Nat.le_refl _)
    rename_i u hu
    split at h
    · rw [fin h]; exact .keep _ (Nat.le_refl _)
    rename_i u' hu'
    rw [fin h]
    refine mod_const ha (findUser_mem hu) (add_modFacts hu' (.inl rfl) ?_ false)
    intro _ f hf; injection hf with hf; subst hf
    simpa using hl
  | removeUserFingerprint username fp =>
    rw [fin h]
    unfold removeUserFingerprint
    split
    · exact .keep _ (Nat.le_refl _)
    rename_i u hu
    split
    · exact .keep _ (Nat.le_refl _)
    rename_i u' hu'
    exact mod_const ha (findUser_mem hu) (remove_modFacts hu')
  | setUserSct username sct =>
    rw [fin h]
    split
    · exact .keep _ (Nat.le_refl _)
    rename_i hl
    refine setField_users ha ?_
    intro u _
    refine .plain rfl rfl rfl ?_ (.inr (.inl rfl))
    rw [validateUser_iff, validateUser_iff]
    rintro ⟨h1, h2, h3, h4, _, h⟩
    exact ⟨h1, h2, h3, h4, (checkLength_some _ _ _).mpr ⟨Nat.zero_le _, by omega⟩, h⟩
  | setUserPassword username password =>
    rw [fin h]
    split
    · exact .keep _ (Nat.le_refl _)
    rename_i hl
    refine setField_users ha ?_
    intro u hname
    refine .plain rfl rfl rfl ?_ (.inr (.inr (by simp [Ev.setsPassword, hname])))
    simp only [Bool.or_eq_true, decide_eq_true_eq, not_or, Nat.not_lt, gt_iff_lt] at hl
    rw [validateUser_iff, validateUser_iff]
    rintro ⟨h1, h2, _, h⟩
    exact ⟨h1, h2, (checkLength_some _ _ _).mpr ⟨hl.2, hl.1⟩, h⟩
  | setUserRole username role =>
    rw [fin h]
    unfold setUserRole
    split
    · exact .keep _ (Nat.le_refl _)
    rename_i u hu
    split
    · exact .keep _ (Nat.le_refl _)
    · refine upd_mod ha (findUser_mem hu) _ (.plain rfl rfl rfl ?_ (.inr (.inl rfl)))
      rw [validateUser_iff, validateUser_iff]; exact id
  | setUserDisplayName username name =>
    rw [fin h]
    split
    · exact .keep _ (Nat.le_refl _)
    rename_i hl
    refine setField_users ha ?_
    intro u _
    refine .plain rfl rfl rfl ?_ (.inr (.inl rfl))
    rw [validateUser_iff, validateUser_iff]
    rintro ⟨h1, _, h⟩
    exact ⟨h1, (checkLength_some _ _ _).mpr ⟨Nat.zero_le _, by omega⟩, h⟩
  | setUserFcmToken username token =>
    rw [fin h]
    split
    · exact .keep _ (Nat.le_refl _)
    rename_i hl
    refine setField_users ha ?_
    intro u _
    refine .plain rfl rfl rfl ?_ (.inr (.inl rfl))
    rw [validateUser_iff, validateUser_iff]
    rintro ⟨h1, h2, h3, h4, h5, _, h⟩
    exact ⟨h1, h2, h3, h4, h5, (checkLength_some _ _ _).mpr ⟨Nat.zero_le _, by omega⟩, h⟩
  | setUserFcmProjectId username id =>
    rw [fin h]
    split
    · exact .keep _ (Nat.le_refl _)
    rename_i hl
    refine setField_users ha ?_
    intro u _
    refine .plain rfl rfl rfl ?_ (.inr (.inl rfl))
    rw [validateUser_iff, validateUser_iff]
    rintro ⟨h1, h2, h3, h4, h5, h6, _, h⟩
    exact ⟨h1, h2, h3, h4, h5, h6, (checkLength_some _ _ _).mpr ⟨Nat.zero_le _, by omega⟩, h⟩
  | setUserNotificationCategories username cs =>
    rw [fin h]
    unfold setUserCategories
    split
    · exact .keep _ (Nat.le_refl _)
    · rename_i u hu
      split
      · rename_i hall
        refine upd_mod ha (findUser_mem hu) _ (.plain rfl rfl rfl ?_ (.inr (.inl rfl)))
        rw [validateUser_iff, validateUser_iff]
        rintro ⟨h1, h2, h3, h4, h5, h6, h7, h8, _⟩
        refine ⟨h1, h2, h3, h4, h5, h6, h7, h8, ?_⟩
        intro x hx
        have := categorySet_mem _ _ hx
        simp only [List.all_eq_true, List.contains_iff_mem] at hall
        exact hall x this
      · exact .keep _ (Nat.le_refl _)
  | setUserOauthSubject username subject =>
    rw [fin h]
    split
    · exact .keep _ (Nat.le_refl _)
    rename_i hl
    refine setField_users ha ?_
    intro u _
    refine .plain rfl rfl rfl ?_ (.inr (.inl rfl))
    rw [validateUser_iff, validateUser_iff]
    rintro ⟨h1, h2, h3, h4, h5, h6, h7, _, h⟩
    exact ⟨h1, h2, h3, h4, h5, h6, h7, (checkLength_some _ _ _).mpr ⟨Nat.zero_le _, by omega⟩, h⟩
  | deleteUser username =>
    rw [fin h]
    unfold deleteUser
    split
    · exact .keep _ (Nat.le_refl _)
    · rename_i u hu
      exact .delete u (findUser_mem hu) (by simp [Ev.deletes, findUser_name hu])
  | authorizeConnection ref username =>
    rw [fin h]
    unfold authorizeConnection
    split <;> exact .keep _ (Nat.le_refl _)
  | setLocalOpenPairing b => rw [fin h]; exact .keep _ (Nat.le_refl _)
  | setPasswordOpenPairing b => rw [fin h]; exact .keep _ (Nat.le_refl _)
  | setPasswordInvitePairing b => rw [fin h]; exact .keep _ (Nat.le_refl _)
  | setLocalInitialPairing b => rw [fin h]; exact .keep _ (Nat.le_refl _)
  | loadState devOk st =>
    have : iam' = (loadState iam devOk st).1 := by
      simp only [api] at h; injection h with h; injection h with h _; exact h.symm
    rw [this]
    unfold loadState
    split
    · exact .keep _ (Nat.le_refl _)
    · rename_i hv
      simp only [Bool.or_eq_true, Bool.not_eq_true', not_or, Bool.not_eq_false] at hv
      obtain ⟨h1, rfl⟩ := hv
      exact .load d st rfl h1
  | loadConfiguration conf =>
    have : iam' = (loadConfiguration iam conf).1 := by
      simp only [api] at h; injection h with h; injection h with h _; exact h.symm
    rw [this]
    unfold loadConfiguration
    split <;> exact .keep _ (Nat.le_refl _)
  | setNotificationCategories cs => rw [fin h]; exact .keep _ (Nat.le_refl _)
  | setLimits l => rw [fin h]; exact .keep _ (Nat.le_refl _)

theorem doCallbacks_frame (iam : Iam) :
    (doCallbacks iam).state = iam.state ∧ (doCallbacks iam).nextAddr = iam.nextAddr ∧
    (doCallbacks iam).limits = iam.limits ∧ (doCallbacks iam).categories = iam.categories ∧
    (doCallbacks iam).authorized = iam.authorized ∧ (doCallbacks iam).conf = iam.conf := by
  unfold doCallbacks
  split
  · simp
  · simp only; split <;> simp

theorem step_api {E : Env} {iam iam' : Iam} {d : Dev} {op : ApiOp} (h : step E iam (.api d op) = some iam') :
    ∃ x e, api iam d op = .ok (x, e) ∧
      (iam' = x ∨ ∃ b st, op = .loadState b st ∧ e = .ok ∧ iam' = { x with persisted := x.state }) := by
  simp only [step] at h
  split at h
  · cases h
  · rename_i x e hx
    refine ⟨x, e, hx, ?_⟩
    split at h
    · split at h
      · rename_i he; injection h with h; exact .inr ⟨_, _, rfl, he, h.symm⟩
      · injection h with h; exact .inl h.symm
    · injection h with h; exact .inl h.symm

theorem step_coap {E : Env} {iam iam' : Iam} {ref : Nat} {d : Dev} {r : Req}
    (h : step E iam (.coap ref d r) = some iam') :
    ∃ x c, handle E iam d ref r = .done x c ∧ iam' = { x with due := x.due + 1 } := by
  simp only [step] at h
  split at h
  · cases h
  · rename_i x c hx; injection h with h; exact ⟨x, c, hx, h.symm⟩

/-- Every step changes the users in one of the classified ways. -/
theorem step_users {E : Env} {iam iam' : Iam} {e : Ev} (ha : AddrOk iam) (h : step E iam e = some iam') :
    UsersUpd e iam iam'.state.users iam'.nextAddr := by
  cases e with
  | api d op =>
    obtain ⟨x, err, hx, hi⟩ := step_api h
    have := api_users ha hx
    rcases hi with rfl | ⟨_, _, _, _, rfl⟩ <;> exact this
  | coap ref d r =>
    obtain ⟨x, c, hx, rfl⟩ := step_coap h
    have := handle_users ha hx
    exact this
  | closed ref =>
    simp only [step, Option.some.injEq] at h; subst h
    exact .keep _ (Nat.le_refl _)
  | callbacks =>
    simp only [step, Option.some.injEq] at h; subst h
    obtain ⟨h1, h2, _⟩ := doCallbacks_frame iam
    rw [h1, h2]; exact .keep _ (Nat.le_refl _)

/-! ### Identities stay distinct -/

theorem freshen_addr (n : Nat) (us : List User) :
    (freshen n us).map User.addr = List.range' n us.length := by
  induction us generalizing n with
  | nil => rfl
  | cons u us ih => simp [freshen, ih, List.range'_succ]

theorem addrOk_of {iam : Iam} (hlt : ∀ u ∈ iam.state.users, u.addr < iam.nextAddr)
    (hnd : (iam.state.users.map User.addr).Nodup) : AddrOk iam := by
  refine ⟨hlt, ?_, hnd⟩
  intro u hu w hw he
  obtain ⟨i, hi, rfl⟩ := List.getElem_of_mem hu
  obtain ⟨j, hj, rfl⟩ := List.getElem_of_mem hw
  have hi' : i < (iam.state.users.map User.addr).length := by simpa using hi
  have hj' : j < (iam.state.users.map User.addr).length := by simpa using hj
  have : (iam.state.users.map User.addr)[i] = (iam.state.users.map User.addr)[j] := by simpa using he
  have := (List.getElem_inj hnd).mp this
  subst this; rfl

theorem addrOk_upd {e : Ev} {iam iam' : Iam} (ha : AddrOk iam)
    (h : UsersUpd e iam iam'.state.users iam'.nextAddr) : AddrOk iam' := by
  generalize hus : iam'.state.users = us at h
  generalize hn : iam'.nextAddr = n at h
  have key : (∀ u ∈ us, u.addr < n) ∧ (us.map User.addr).Nodup := by
    cases h with
    | keep n hle => exact ⟨fun u hu => Nat.lt_of_lt_of_le (ha.lt u hu) hle, ha.nodup⟩
    | add u hf =>
      constructor
      · intro w hw
        simp only [List.mem_append, List.mem_singleton] at hw
        rcases hw with hw | hw
        · have := ha.lt w hw; omega
        · subst hw; rw [hf.addr]; omega
      · rw [List.map_append, List.nodup_append]
        refine ⟨ha.nodup, by simp, ?_⟩
        intro a ha' b hb
        simp only [List.mem_map] at ha'
        obtain ⟨w, hw, rfl⟩ := ha'
        simp at hb; subst hb
        have := ha.lt w hw
        rw [hf.addr]; omega
    | mod u u' hu hf =>
      have heq : (iam.state.users.map (fun w => if w.addr = u.addr then u' else w)).map User.addr =
          iam.state.users.map User.addr := by
        rw [List.map_map]
        apply List.map_congr_left
        intro w _
        simp only [Function.comp]
        split
        · rename_i hw; rw [hf.addr, hw]
        · rfl
      constructor
      · intro w hw
        simp only [List.mem_map] at hw
        obtain ⟨x, hx, rfl⟩ := hw
        split
        · rw [hf.addr]; exact ha.lt u hu
        · exact ha.lt x hx
      · rw [heq]; exact ha.nodup
    | delete u hu _ =>
      constructor
      · intro w hw
        exact ha.lt w (List.mem_filter.mp hw).1
      · exact ha.nodup.sublist (List.Sublist.map _ List.filter_sublist)
    | load d st he hv =>
      constructor
      · intro u hu
        have : u.addr ∈ (freshen iam.nextAddr st.users).map User.addr := List.mem_map_of_mem hu
        rw [freshen_addr, List.mem_range'_1] at this
        exact this.2
      · rw [freshen_addr]; exact List.nodup_range'
  subst hus hn
  exact addrOk_of key.1 key.2

theorem addrOk_step {E : Env} {iam iam' : Iam} {e : Ev} (ha : AddrOk iam) (h : step E iam e = some iam') :
    AddrOk iam' := addrOk_upd ha (step_users ha h)

theorem addrOk_run {E : Env} {iam iam' : Iam} {es : List Ev} (ha : AddrOk iam)
    (h : run E iam es = some iam') : AddrOk iam' := by
  induction es generalizing iam with
  | nil => simp only [run, Option.some.injEq] at h; subst h; exact ha
  | cons e es ih =>
    simp only [run] at h
    split at h
    · cases h
    · rename_i x hx; exact ih (addrOk_step ha hx) h

end Verif.Iam
