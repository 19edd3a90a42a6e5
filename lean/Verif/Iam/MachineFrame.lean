import Verif.Iam.MachineUsers

/-! What a step leaves alone: everything but the users. -/

namespace Verif.Iam

open Spec

/-- The outcome of a handler satisfies `P` unless it is undefined. -/
def HRes.Sat (P : Iam → Nat → Prop) : HRes → Prop
  | .done i c => P i c
  | .ub => True

theorem HRes.Sat.elim {P : Iam → Nat → Prop} {r : HRes} (h : r.Sat P) {i : Iam} {c : Nat}
    (hr : r = .done i c) : P i c := by subst hr; exact h

theorem withAccess_sat {P : Iam → Nat → Prop} {E : Env} {iam : Iam} {d : Dev} {ref : Nat} {action : String}
    {attrs : Attrs} {k : HRes} (h1 : P iam 403)
    (h2 : checkAccess E iam d.ci ref action attrs = .ok true → k.Sat P) :
    (withAccess E iam d ref action attrs k).Sat P := by
  unfold withAccess
  split
  · trivial
  · exact h1
  · rename_i h; exact h2 h

theorem withPayload_sat {P : Iam → Nat → Prop} {iam : Iam} {p : Payload} {k : CV → HRes} (h1 : P iam 400)
    (h2 : ∀ v, p = .value v → (k v).Sat P) : (withPayload iam p k).Sat P := by
  unfold withPayload
  split
  · exact h2 _ rfl
  · exact h1

/-- The relation between the module before and after a CoAP request. -/
structure Frame (iam iam' : Iam) : Prop where
  limits : iam'.limits = iam.limits
  categories : iam'.categories = iam.categories
  authorized : iam'.authorized = iam.authorized
  conf : iam'.conf = iam.conf
  persisted : iam'.persisted = iam.persisted
  due : iam'.due = iam.due
  password : iam'.state.passwordOpenPassword = iam.state.passwordOpenPassword
  sct : iam'.state.passwordOpenSct = iam.state.passwordOpenSct
  role : iam'.state.openPairingRole = iam.state.openPairingRole
  initial : iam'.state.initialPairingUsername = iam.state.initialPairingUsername
  friendly : iam'.state.friendlyName = iam.state.friendlyName ∨
    checkLength 0 iam.limits.friendlyNameMax iam'.state.friendlyName = true
  mono : iam.changed = true → iam'.changed = true
  changed : iam'.state = iam.state ∨ iam'.changed = true

theorem Frame.refl (iam : Iam) : Frame iam iam :=
  ⟨rfl, rfl, rfl, rfl, rfl, rfl, rfl, rfl, rfl, rfl, .inl rfl, id, .inl rfl⟩

theorem Frame.alloc {iam iam' : Iam} (h : Frame iam iam') (n : Nat) : Frame iam { iam' with nextAddr := n } :=
  ⟨h.1, h.2, h.3, h.4, h.5, h.6, h.7, h.8, h.9, h.10, h.11, h.12, h.13⟩

theorem Frame.marked (iam : Iam) : Frame iam (hasChanged iam) :=
  ⟨rfl, rfl, rfl, rfl, rfl, rfl, rfl, rfl, rfl, rfl, .inl rfl, fun _ => rfl, .inr rfl⟩

theorem Frame.users (iam : Iam) (us : List User) :
    Frame iam (hasChanged { iam with state := { iam.state with users := us } }) :=
  ⟨rfl, rfl, rfl, rfl, rfl, rfl, rfl, rfl, rfl, rfl, .inl rfl, fun _ => rfl, .inr rfl⟩

theorem Frame.upd (iam : Iam) (a : Nat) (f : User → User) : Frame iam (hasChanged (updUser iam a f)) :=
  Frame.users iam _

theorem Frame.added {iam iam' : Iam} {u : User} {ok : Bool} {n : Nat}
    (h : addUser { iam with nextAddr := n } ok u = some iam') : Frame iam iam' := by
  unfold addUser at h
  split at h
  · cases h
  · injection h with h
    subst h
    exact ⟨rfl, rfl, rfl, rfl, rfl, rfl, rfl, rfl, rfl, rfl, .inl rfl, fun _ => rfl, .inr rfl⟩

theorem setUserRole_frame (iam : Iam) (u r : String) : Frame iam (setUserRole iam u r).1 := by
  unfold setUserRole
  split
  · exact .refl _
  · split
    · exact .refl _
    · exact .upd _ _ _

theorem setUserCategories_frame (iam : Iam) (u : String) (cs : List String) :
    Frame iam (setUserCategories iam u cs).1 := by
  unfold setUserCategories
  split
  · exact .refl _
  · split
    · exact .upd _ _ _
    · exact .refl _

theorem deleteUser_frame (iam : Iam) (u : String) : Frame iam (deleteUser iam u).1 := by
  unfold deleteUser
  split
  · exact .refl _
  · exact .users _ _

theorem createUser_frame (iam : Iam) (d : Dev) (u : String) : Frame iam (createUser iam d u).1 := by
  unfold createUser
  simp only [allocUser]
  repeat' split
  all_goals first
    | exact .refl _
    | (rename_i x hx; exact Frame.added hx)
    | exact (Frame.refl iam).alloc _

theorem setField_frame (iam : Iam) (u : String) (f : User → User) : Frame iam (setField iam u f).1 := by
  unfold setField
  split
  · exact .refl _
  · exact .upd _ _ _

theorem pairNewClient_frame (iam : Iam) (d : Dev) (u f n : Option String) :
    Frame iam (pairNewClient iam d u f n).1 := by
  unfold pairNewClient
  simp only [allocUser]
  repeat' split
  all_goals first
    | exact .refl _
    | (rename_i x hx; exact Frame.added hx)
    | exact (Frame.refl iam).alloc _

theorem handle_frame {E : Env} {iam iam' : Iam} {d : Dev} {ref : Nat} {r : Req} {c : Nat}
    (h : handle E iam d ref r = .done iam' c) : Frame iam iam' := by
  refine HRes.Sat.elim (P := fun i _ => Frame iam i) (r := handle E iam d ref r) ?_ h
  clear h
  have R := Frame.refl iam
  cases r with
  | createUser p =>
    refine withAccess_sat R fun _ => ?_
    split
    · exact R
    refine withPayload_sat R fun v _ => ?_
    split
    · exact R
    · trivial
    simp only [allocUser]
    repeat' split
    all_goals first
      | exact R
      | (rename_i x hx; exact Frame.added hx)
      | exact R.alloc _
      | (split
         all_goals first
          | exact R.alloc _
          | (rename_i x hx; exact Frame.added hx))
  | deleteUser u =>
    refine withAccess_sat R fun _ => ?_
    have := deleteUser_frame iam u
    split <;> rename_i heq <;> rw [heq] at this <;> exact this
  | setRole u p =>
    refine withPayload_sat R fun v _ => ?_
    split
    · rename_i role _
      refine withAccess_sat R fun _ => ?_
      have := setUserRole_frame iam u role
      split <;> rename_i heq <;> rw [heq] at this <;> exact this
    · exact R
  | setUsername u p =>
    refine withPayload_sat R fun v _ => ?_
    split
    · split
      · exact R
      split
      · exact R
      refine withAccess_sat R fun _ => ?_
      repeat' split
      all_goals first | exact R | exact .upd _ _ _
    · exact R
  | setDisplayName u p =>
    refine withPayload_sat R fun v _ => ?_
    split
    · exact R
    split
    · exact R
    refine withAccess_sat R fun _ => ?_
    repeat' split
    all_goals first | exact R | exact .upd _ _ _
  | setFingerprint u p =>
    refine withPayload_sat R fun v _ => ?_
    split
    · exact R
    split
    · exact R
    refine withAccess_sat R fun _ => ?_
    repeat' split
    all_goals first | exact R | exact .upd _ _ _
  | addFingerprint u fp p =>
    refine withPayload_sat R fun v _ => ?_
    refine withAccess_sat R fun _ => ?_
    repeat' split
    all_goals first | exact R | exact .upd _ _ _
  | deleteFingerprint u fp =>
    refine withAccess_sat R fun _ => ?_
    repeat' split
    all_goals first | exact R | exact .upd _ _ _
  | setSct u p =>
    refine withPayload_sat R fun v _ => ?_
    split
    · split
      · exact R
      refine withAccess_sat R fun _ => ?_
      repeat' split
      all_goals first | exact R | exact .upd _ _ _
    · exact R
  | setPassword u p =>
    refine withPayload_sat R fun v _ => ?_
    split
    · exact R
    split
    · exact R
    refine withAccess_sat R fun _ => ?_
    repeat' split
    all_goals first | exact R | exact .upd _ _ _
  | setFcm u p =>
    refine withPayload_sat R fun v _ => ?_
    refine withAccess_sat R fun _ => ?_
    repeat' split
    all_goals first | exact R | exact .upd _ _ _ | exact .marked _
  | setCategories u p =>
    refine withPayload_sat R fun v _ => ?_
    split
    · trivial
    · exact R
    rename_i cs _
    refine withAccess_sat R fun _ => ?_
    have := setUserCategories_frame iam u cs
    split <;> rename_i heq <;> rw [heq] at this <;> exact this
  | setOauthSubject u p =>
    refine withPayload_sat R fun v _ => ?_
    split
    · exact R
    split
    · exact R
    refine withAccess_sat R fun _ => ?_
    repeat' split
    all_goals first | exact R | exact .upd _ _ _
  | setSettings k p =>
    refine withAccess_sat R fun _ => ?_
    refine withPayload_sat R fun v _ => ?_
    repeat' split
    all_goals first
      | exact R
      | exact ⟨rfl, rfl, rfl, rfl, rfl, rfl, rfl, rfl, rfl, rfl, .inl rfl, fun _ => rfl, .inr rfl⟩
  | setDeviceInfo k p =>
    refine withAccess_sat R fun _ => ?_
    refine withPayload_sat R fun v _ => ?_
    split
    · split
      · split
        · exact R
        · rename_i fn _ hl
          split
          · refine ⟨rfl, rfl, rfl, rfl, rfl, rfl, rfl, rfl, rfl, rfl, .inr ?_, fun _ => rfl, .inr rfl⟩
            exact (checkLength_some _ _ _).mpr ⟨Nat.zero_le _, by omega⟩
          · exact .marked _
      · exact R
    · exact R
  | pairLocalInitial p =>
    simp only [handle, hPairLocalInitial]
    split
    · exact R
    refine withAccess_sat R fun _ => ?_
    have pu : ∀ u n, (pairUser iam d u n).Sat (fun i _ => Frame iam i) := by
      intro u n
      unfold pairUser
      repeat' split
      all_goals first | exact R | exact .upd _ _ _
    repeat' split
    all_goals first | exact R | exact pu _ _
  | pairLocalOpen p =>
    simp only [handle, hPairLocalOpen]
    split
    · exact R
    refine withAccess_sat R fun _ => ?_
    split
    · exact R
    split
    · exact R
    refine withPayload_sat R fun v _ => ?_
    split
    · rename_i username _
      have := pairNewClient_frame iam d (some username) d.ci2.fingerprint ((decodeKv v "FingerprintName").getD none)
      generalize pairNewClient iam d (some username) d.ci2.fingerprint ((decodeKv v "FingerprintName").getD none) = r at this
      obtain ⟨i, e⟩ := r
      cases e <;> exact this
    · exact R
  | pairPasswordInvite p =>
    simp only [handle, hPairPasswordInvite]
    split
    · exact R
    refine withAccess_sat R fun _ => ?_
    repeat' split
    all_goals first | exact R | exact .upd _ _ _
  | pairPasswordOpen p =>
    simp only [handle, hPairPasswordOpen]
    split
    · exact R
    split
    · trivial
    · exact R
    split
    · exact R
    split
    · exact R
    refine withPayload_sat R fun v _ => ?_
    split
    · exact R
    split
    · rename_i username _
      have := pairNewClient_frame iam d (some username) d.ci2.fingerprint ((decodeKv v "FingerprintName").getD none)
      generalize pairNewClient iam d (some username) d.ci2.fingerprint ((decodeKv v "FingerprintName").getD none) = r at this
      obtain ⟨i, e⟩ := r
      cases e <;> exact this
    · exact R

/-- The operation changes the settings of the module rather than its state. -/
def Ev.settings : Ev → Bool
  | .api _ (.loadState _ _) => true
  | .api _ (.loadConfiguration _) => true
  | .api _ (.setNotificationCategories _) => true
  | .api _ (.setLimits _) => true
  | .api _ (.authorizeConnection _ _) => true
  | .api _ (.setLocalOpenPairing _) => true
  | .api _ (.setPasswordOpenPairing _) => true
  | .api _ (.setPasswordInvitePairing _) => true
  | .api _ (.setLocalInitialPairing _) => true
  | _ => false

theorem api_frame {iam iam' : Iam} {d : Dev} {op : ApiOp} {err : Err} (hs : (Ev.api d op).settings = false)
    (h : api iam d op = .ok (iam', err)) : Frame iam iam' := by
  have fin : ∀ {r : Iam × Err}, Res.ok r = .ok (iam', err) → iam' = r.1 := by
    intro r hr; injection hr with hr; rw [hr]
  cases op with
  | createUser u => rw [fin h]; exact createUser_frame _ _ _
  | setUserFingerprint u f =>
    rw [fin h]; unfold setUserFingerprint
    repeat' split
    all_goals first | exact .refl _ | exact .upd _ _ _ | exact .marked _
  | addUserFingerprint u f n =>
    simp only [api, addUserFingerprint] at h
    repeat' split at h
    all_goals first
      | (exfalso; cases h; done)
      | (rw [fin h]; first | exact .refl _ | exact .upd _ _ _ | exact .marked _)
  | removeUserFingerprint u f =>
    rw [fin h]; unfold removeUserFingerprint
    repeat' split
    all_goals first | exact .refl _ | exact .upd _ _ _ | exact .marked _
  | setUserSct u s => rw [fin h]; split; exact .refl _; exact setField_frame _ _ _
  | setUserPassword u s => rw [fin h]; split; exact .refl _; exact setField_frame _ _ _
  | setUserRole u r => rw [fin h]; exact setUserRole_frame _ _ _
  | setUserDisplayName u s => rw [fin h]; split; exact .refl _; exact setField_frame _ _ _
  | setUserFcmToken u s => rw [fin h]; split; exact .refl _; exact setField_frame _ _ _
  | setUserFcmProjectId u s => rw [fin h]; split; exact .refl _; exact setField_frame _ _ _
  | setUserNotificationCategories u cs => rw [fin h]; exact setUserCategories_frame _ _ _
  | setUserOauthSubject u s => rw [fin h]; split; exact .refl _; exact setField_frame _ _ _
  | deleteUser u => rw [fin h]; exact deleteUser_frame _ _
  | authorizeConnection => cases hs
  | setLocalOpenPairing => cases hs
  | setPasswordOpenPairing => cases hs
  | setPasswordInvitePairing => cases hs
  | setLocalInitialPairing => cases hs
  | loadState => cases hs
  | loadConfiguration => cases hs
  | setNotificationCategories => cases hs
  | setLimits => cases hs

/-- The limits change only through the API for them. -/
theorem step_limits {E : Env} {iam iam' : Iam} {e : Ev} (h : step E iam e = some iam') :
    iam'.limits = iam.limits ∨ ∃ d l, e = .api d (.setLimits l) ∧ iam'.limits = l := by
  cases e with
  | api d op =>
    obtain ⟨x, err, hx, hi⟩ := step_api h
    have hl : iam'.limits = x.limits := by rcases hi with rfl | ⟨_, _, _, _, rfl⟩ <;> rfl
    by_cases hs : (Ev.api d op).settings = false
    · left; rw [hl]; exact (api_frame hs hx).limits
    · rw [hl]
      cases op <;> first | (exfalso; exact hs rfl) | skip
      all_goals simp only [api, Res.ok.injEq, Prod.mk.injEq] at hx
      case setLimits l => right; exact ⟨d, l, rfl, by rw [← hx.1]⟩
      all_goals left
      case authorizeConnection =>
        simp only [authorizeConnection] at hx; split at hx <;> (injection hx with hx _; rw [← hx])
      case loadState => rw [← hx.1]; unfold loadState; split <;> rfl
      case loadConfiguration => rw [← hx.1]; unfold loadConfiguration; split <;> rfl
      all_goals rw [← hx.1]
      all_goals rfl
  | coap ref d r =>
    obtain ⟨x, c, hx, rfl⟩ := step_coap h
    exact .inl (handle_frame hx).limits
  | closed ref => simp only [step, Option.some.injEq] at h; subst h; exact .inl rfl
  | callbacks =>
    simp only [step, Option.some.injEq] at h; subst h
    exact .inl (doCallbacks_frame iam).2.2.1

/-- The notification categories change only through the API for them. -/
theorem step_categories {E : Env} {iam iam' : Iam} {e : Ev} (h : step E iam e = some iam') :
    iam'.categories = iam.categories ∨ ∃ d l, e = .api d (.setNotificationCategories l) := by
  cases e with
  | api d op =>
    obtain ⟨x, err, hx, hi⟩ := step_api h
    have hl : iam'.categories = x.categories := by rcases hi with rfl | ⟨_, _, _, _, rfl⟩ <;> rfl
    by_cases hs : (Ev.api d op).settings = false
    · left; rw [hl]; exact (api_frame hs hx).categories
    · rw [hl]
      cases op <;> first | (exfalso; exact hs rfl) | skip
      all_goals simp only [api, Res.ok.injEq, Prod.mk.injEq] at hx
      case setNotificationCategories l => right; exact ⟨d, l, rfl⟩
      all_goals left
      case authorizeConnection =>
        simp only [authorizeConnection] at hx; split at hx <;> (injection hx with hx _; rw [← hx])
      case loadState => rw [← hx.1]; unfold loadState; split <;> rfl
      case loadConfiguration => rw [← hx.1]; unfold loadConfiguration; split <;> rfl
      all_goals rw [← hx.1]
      all_goals rfl
  | coap ref d r =>
    obtain ⟨x, c, hx, rfl⟩ := step_coap h
    exact .inl (handle_frame hx).categories
  | closed ref => simp only [step, Option.some.injEq] at h; subst h; exact .inl rfl
  | callbacks =>
    simp only [step, Option.some.injEq] at h; subst h
    exact .inl (doCallbacks_frame iam).2.2.2.1

/-- Authorisations change only when the application authorises a connection or a connection closes. -/
theorem step_authorized {E : Env} {iam iam' : Iam} {e : Ev} (h : step E iam e = some iam') :
    iam'.authorized = iam.authorized ∨
    (∃ d ref n u, e = .api d (.authorizeConnection ref n) ∧ findUser iam.state (some n) = some u ∧
      iam'.authorized = iam.authorized ++ [(ref, u.addr)]) ∨
    (∃ ref, e = .closed ref ∧ iam'.authorized = iam.authorized.eraseP (fun c => c.1 == ref)) := by
  cases e with
  | api d op =>
    obtain ⟨x, err, hx, hi⟩ := step_api h
    have hl : iam'.authorized = x.authorized := by rcases hi with rfl | ⟨_, _, _, _, rfl⟩ <;> rfl
    by_cases hs : (Ev.api d op).settings = false
    · left; rw [hl]; exact (api_frame hs hx).authorized
    · rw [hl]
      cases op <;> first | (exfalso; exact hs rfl) | skip
      all_goals simp only [api, Res.ok.injEq, Prod.mk.injEq] at hx
      case authorizeConnection ref n =>
        simp only [authorizeConnection] at hx
        split at hx
        · left; injection hx with hx _; rw [← hx]
        · rename_i u hu
          right; left
          injection hx with hx _
          exact ⟨d, ref, n, u, rfl, hu, by rw [← hx]⟩
      all_goals left
      case loadState => rw [← hx.1]; unfold loadState; split <;> rfl
      case loadConfiguration => rw [← hx.1]; unfold loadConfiguration; split <;> rfl
      all_goals rw [← hx.1]
      all_goals rfl
  | coap ref d r =>
    obtain ⟨x, c, hx, rfl⟩ := step_coap h
    exact .inl (handle_frame hx).authorized
  | closed ref =>
    simp only [step, Option.some.injEq] at h; subst h; exact .inr (.inr ⟨ref, rfl, rfl⟩)
  | callbacks =>
    simp only [step, Option.some.injEq] at h; subst h
    exact .inl (doCallbacks_frame iam).2.2.2.2.1

/-- The checked texts of the state outside the users. -/
theorem step_meta {E : Env} {iam iam' : Iam} {e : Ev} (h : step E iam e = some iam') :
    (∃ d st, e = .api d (.loadState true st) ∧ validateState iam.limits iam.categories st = true ∧
      iam'.state = { st with users := freshen iam.nextAddr st.users }) ∨
    (iam'.state.passwordOpenPassword = iam.state.passwordOpenPassword ∧
      iam'.state.passwordOpenSct = iam.state.passwordOpenSct ∧
      iam'.state.initialPairingUsername = iam.state.initialPairingUsername ∧
      (iam'.state.friendlyName = iam.state.friendlyName ∨
        checkLength 0 iam.limits.friendlyNameMax iam'.state.friendlyName = true)) := by
  cases e with
  | api d op =>
    obtain ⟨x, err, hx, hi⟩ := step_api h
    have hl : iam'.state = x.state := by rcases hi with rfl | ⟨_, _, _, _, rfl⟩ <;> rfl
    by_cases hs : (Ev.api d op).settings = false
    · right; rw [hl]; have f := api_frame hs hx; exact ⟨f.password, f.sct, f.initial, f.friendly⟩
    · rw [hl]
      cases op <;> first | (exfalso; exact hs rfl) | skip
      all_goals simp only [api, Res.ok.injEq, Prod.mk.injEq] at hx
      case authorizeConnection ref n =>
        right
        simp only [authorizeConnection] at hx
        split at hx <;> (injection hx with hx _; rw [← hx]; exact ⟨rfl, rfl, rfl, .inl rfl⟩)
      case loadState b st =>
        rw [← hx.1]; unfold loadState
        split
        · right; exact ⟨rfl, rfl, rfl, .inl rfl⟩
        · rename_i hv
          simp only [Bool.or_eq_true, Bool.not_eq_true', not_or, Bool.not_eq_false] at hv
          obtain ⟨h1, rfl⟩ := hv
          left; exact ⟨d, st, rfl, h1, rfl⟩
      all_goals right
      case loadConfiguration =>
        rw [← hx.1]; unfold loadConfiguration; split <;> exact ⟨rfl, rfl, rfl, .inl rfl⟩
      all_goals (rw [← hx.1]; exact ⟨rfl, rfl, rfl, .inl rfl⟩)
  | coap ref d r =>
    obtain ⟨x, c, hx, rfl⟩ := step_coap h
    have f := handle_frame hx
    exact .inr ⟨f.password, f.sct, f.initial, f.friendly⟩
  | closed ref =>
    simp only [step, Option.some.injEq] at h; subst h; exact .inr ⟨rfl, rfl, rfl, .inl rfl⟩
  | callbacks =>
    simp only [step, Option.some.injEq] at h; subst h
    rw [(doCallbacks_frame iam).1]
    exact .inr ⟨rfl, rfl, rfl, .inl rfl⟩

end Verif.Iam
