import Verif.Iam.MachineProps
import Verif.Iam.CoapSpec

/-!
# IAM CoAP requests — property theorems (C20, C22)
-/

namespace Verif.Iam

open Spec

/-! ## C22 -/

theorem decodeString_text {v : CV} {s : String} (h : decodeString v = some (some s)) :
    ∃ t, v = .text t ∧ s = cstr t := by
  unfold decodeString at h
  split at h
  · split at h
    · injection h with h; injection h with h; exact ⟨_, rfl, h.symm⟩
    · cases h
  · cases h
  · cases h

theorem decodeString_null {v : CV} (h : decodeString v = some none) : v = .null := by
  unfold decodeString at h
  split at h
  · split at h <;> cases h
  · rfl
  · cases h

theorem setUserRole_err {iam iam' : Iam} {u r : String} {e : Err} (h : setUserRole iam u r = (iam', e))
    (he : e ≠ .ok) : iam' = iam := by
  unfold setUserRole at h
  split at h
  · injection h with h _; exact h.symm
  · split at h
    · injection h with h _; exact h.symm
    · injection h with _ h; exact absurd h.symm he

theorem setUserCategories_err {iam iam' : Iam} {u : String} {cs : List String} {e : Err}
    (h : setUserCategories iam u cs = (iam', e)) (he : e ≠ .ok) : iam' = iam := by
  unfold setUserCategories at h
  split at h
  · injection h with h _; exact h.symm
  · split at h
    · injection h with _ h; exact absurd h.symm he
    · injection h with h _; exact h.symm

theorem deleteUser_err {iam iam' : Iam} {u : String} {e : Err} (h : deleteUser iam u = (iam', e))
    (he : e ≠ .ok) : iam' = iam := by
  unfold deleteUser at h
  split at h
  · injection h with h _; exact h.symm
  · injection h with _ h; exact absurd h.symm he

theorem pairNewClient_err {iam iam' : Iam} {d : Dev} {u f n : Option String} {e : Err}
    (h : pairNewClient iam d u f n = (iam', e)) (he : e ≠ .ok) : iam'.state = iam.state := by
  unfold pairNewClient at h
  simp only [allocUser] at h
  repeat' split at h
  all_goals injection h with h1 h2
  all_goals first
    | exact absurd h2.symm he
    | (subst h1; rfl)

/-- C22: a request changes the state only if the policies allow the caller the documented action with
the documented attributes. -/
theorem C22_change_needs_permission (E : Env) (iam iam' : Iam) (d : Dev) (ref : Nat) (r : Req) (c : Nat)
    (h : handle E iam d ref r = .done iam' c) (hchg : iam'.state ≠ iam.state) :
    ∃ action attrs, Needs r action attrs ∧ checkAccess E iam d.ci ref action attrs = .ok true := by
  refine HRes.Sat.elim (P := fun i _ => i.state ≠ iam.state →
    ∃ action attrs, Needs r action attrs ∧ checkAccess E iam d.ci ref action attrs = .ok true)
    (r := handle E iam d ref r) ?_ h hchg
  clear h hchg
  have R : iam.state ≠ iam.state → ∃ action attrs, Needs r action attrs ∧
      checkAccess E iam d.ci ref action attrs = .ok true := fun h => absurd rfl h
  have any : ∀ {action attrs} {k : HRes}, Needs r action attrs →
      checkAccess E iam d.ci ref action attrs = .ok true →
      k.Sat (fun i _ => i.state ≠ iam.state →
        ∃ action attrs, Needs r action attrs ∧ checkAccess E iam d.ci ref action attrs = .ok true) := by
    intro action attrs k hn ha
    cases k with
    | done i c => exact fun _ => ⟨_, _, hn, ha⟩
    | ub => trivial
  cases r with
  | createUser p => exact withAccess_sat R fun ha => any (.createUser p) ha
  | deleteUser u => exact withAccess_sat R fun ha => any (.deleteUser u) ha
  | setRole u p =>
    refine withPayload_sat R fun v hv => ?_
    split
    · rename_i role hr
      obtain ⟨t, ht, hs⟩ := decodeString_text hr
      subst hv ht hs
      exact withAccess_sat R fun ha => any (.setRole u t) ha
    · exact R
  | setUsername u p =>
    refine withPayload_sat R fun v hv => ?_
    split
    · split
      · exact R
      split
      · exact R
      exact withAccess_sat R fun ha => any (.setUsername u p) ha
    · exact R
  | setDisplayName u p =>
    refine withPayload_sat R fun v hv => ?_
    split
    · exact R
    split
    · exact R
    exact withAccess_sat R fun ha => any (.setDisplayName u p) ha
  | setFingerprint u p =>
    refine withPayload_sat R fun v hv => ?_
    split
    · exact R
    split
    · exact R
    exact withAccess_sat R fun ha => any (.setFingerprint u p) ha
  | addFingerprint u f p =>
    refine withPayload_sat R fun v hv => ?_
    exact withAccess_sat R fun ha => any (.addFingerprint u f p) ha
  | deleteFingerprint u f => exact withAccess_sat R fun ha => any (.deleteFingerprint u f) ha
  | setSct u p =>
    refine withPayload_sat R fun v hv => ?_
    split
    · split
      · exact R
      exact withAccess_sat R fun ha => any (.setSct u p) ha
    · exact R
  | setPassword u p =>
    refine withPayload_sat R fun v hv => ?_
    split
    · exact R
    split
    · exact R
    exact withAccess_sat R fun ha => any (.setPassword u p) ha
  | setFcm u p =>
    refine withPayload_sat R fun v hv => ?_
    exact withAccess_sat R fun ha => any (.setFcm u p) ha
  | setCategories u p =>
    refine withPayload_sat R fun v hv => ?_
    split
    · trivial
    · exact R
    exact withAccess_sat R fun ha => any (.setCategories u p) ha
  | setOauthSubject u p =>
    refine withPayload_sat R fun v hv => ?_
    split
    · exact R
    split
    · exact R
    exact withAccess_sat R fun ha => any (.setOauthSubject u p) ha
  | setSettings k p => exact withAccess_sat R fun ha => any (.setSettings k p) ha
  | setDeviceInfo k p => exact withAccess_sat R fun ha => any (.setDeviceInfo k p) ha
  | pairLocalInitial p =>
    simp only [handle, hPairLocalInitial]
    split
    · exact R
    exact withAccess_sat R fun ha => any (.pairLocalInitial p) ha
  | pairLocalOpen p =>
    simp only [handle, hPairLocalOpen]
    split
    · exact R
    exact withAccess_sat R fun ha => any (.pairLocalOpen p) ha
  | pairPasswordInvite p =>
    simp only [handle, hPairPasswordInvite]
    split
    · exact R
    exact withAccess_sat R fun ha => any (.pairPasswordInvite p) ha
  | pairPasswordOpen p =>
    simp only [handle, hPairPasswordOpen]
    split
    · exact R
    split
    · trivial
    · exact R
    · rename_i hpos
      refine any (.pairPasswordOpen p) ?_
      unfold passwordOpenPossible at hpos
      split at hpos
      · cases hpos
      · rename_i a ha
        rw [ha]
        injection hpos with hpos
        simp only [Bool.and_eq_true] at hpos
        rw [hpos.1.1.1]

/-- C22: a request of a caller without the permission is refused and changes nothing. -/
theorem C22_denied_is_refused (E : Env) (iam iam' : Iam) (d : Dev) (ref : Nat) (r : Req) (c : Nat)
    (hden : ∀ action attrs, Needs r action attrs → checkAccess E iam d.ci ref action attrs = .ok false)
    (h : handle E iam d ref r = .done iam' c) : iam'.state = iam.state := by
  by_cases hchg : iam'.state = iam.state
  · exact hchg
  · obtain ⟨action, attrs, hn, ha⟩ := C22_change_needs_permission E iam iam' d ref r c h hchg
    rw [hden action attrs hn] at ha; cases ha

/-- C22: the atomicity part fails. A create request answered with 500, because the response could not
be built, has created the user. -/
theorem C22_error_changes_nothing_violated :
    ∃ iam', handle demoEnv { openIam with limits := {} } { newSct := some "t", respOk := false } 5
        (.createUser (.value (.map [("Username", .text "x")]))) = .done iam' 500 ∧
      iam'.state.users.length = openIam.state.users.length + 1 := ⟨_, rfl, by decide +kernel⟩

/-- C22, atomicity when responses can be built: a request answered with an error code leaves the state as
it was. -/
theorem C22_error_changes_nothing_partial (E : Env) (iam iam' : Iam) (d : Dev) (ref : Nat) (r : Req) (c : Nat)
    (hresp : d.respOk = true) (h : handle E iam d ref r = .done iam' c) (hc : 400 ≤ c) :
    iam'.state = iam.state := by
  refine HRes.Sat.elim (P := fun i c => 400 ≤ c → i.state = iam.state)
    (r := handle E iam d ref r) ?_ h hc
  clear h hc
  have R : ∀ c, 400 ≤ c → iam.state = iam.state := fun _ _ => rfl
  cases r with
  | createUser p =>
    refine withAccess_sat (R _) fun _ => ?_
    split
    · exact R _
    refine withPayload_sat (R _) fun v _ => ?_
    split
    · exact R _
    · trivial
    simp only [allocUser]
    repeat' split
    all_goals first
      | exact R _
      | (intro h; omega)
      | (rename_i h; exact absurd hresp h)
  | deleteUser u =>
    refine withAccess_sat (R _) fun _ => ?_
    split
    · rename_i heq; intro _; rw [deleteUser_err heq (by simp)]
    · intro h; omega
    · rename_i h1 h2 heq; intro _; rw [deleteUser_err heq h2]
  | setRole u p =>
    refine withPayload_sat (R _) fun v _ => ?_
    split
    · refine withAccess_sat (R _) fun _ => ?_
      split
      · intro h; omega
      · rename_i h1 heq; intro _; rw [setUserRole_err heq h1]
    · exact R _
  | setUsername u p =>
    refine withPayload_sat (R _) fun v _ => ?_
    split
    · split
      · exact R _
      split
      · exact R _
      refine withAccess_sat (R _) fun _ => ?_
      repeat' split
      all_goals first | exact R _ | (intro h; omega)
    · exact R _
  | setDisplayName u p =>
    refine withPayload_sat (R _) fun v _ => ?_
    split
    · exact R _
    split
    · exact R _
    refine withAccess_sat (R _) fun _ => ?_
    repeat' split
    all_goals first | exact R _ | (intro h; omega)
  | setFingerprint u p =>
    refine withPayload_sat (R _) fun v _ => ?_
    split
    · exact R _
    split
    · exact R _
    refine withAccess_sat (R _) fun _ => ?_
    repeat' split
    all_goals first | exact R _ | (intro h; omega)
  | addFingerprint u f p =>
    refine withPayload_sat (R _) fun v _ => ?_
    refine withAccess_sat (R _) fun _ => ?_
    repeat' split
    all_goals first | exact R _ | (intro h; omega)
  | deleteFingerprint u f =>
    refine withAccess_sat (R _) fun _ => ?_
    repeat' split
    all_goals first | exact R _ | (intro h; omega)
  | setSct u p =>
    refine withPayload_sat (R _) fun v _ => ?_
    split
    · split
      · exact R _
      refine withAccess_sat (R _) fun _ => ?_
      repeat' split
      all_goals first | exact R _ | (intro h; omega)
    · exact R _
  | setPassword u p =>
    refine withPayload_sat (R _) fun v _ => ?_
    split
    · exact R _
    split
    · exact R _
    refine withAccess_sat (R _) fun _ => ?_
    repeat' split
    all_goals first | exact R _ | (intro h; omega)
  | setFcm u p =>
    refine withPayload_sat (R _) fun v _ => ?_
    refine withAccess_sat (R _) fun _ => ?_
    repeat' split
    all_goals first | exact R _ | (intro h; omega)
  | setCategories u p =>
    refine withPayload_sat (R _) fun v _ => ?_
    split
    · trivial
    · exact R _
    refine withAccess_sat (R _) fun _ => ?_
    split
    · rename_i heq; intro _; rw [setUserCategories_err heq (by simp)]
    · intro h; omega
    · rename_i heq; intro _; rw [setUserCategories_err heq (by simp)]
    · rename_i h1 h2 h3 heq; intro _; rw [setUserCategories_err heq h2]
  | setOauthSubject u p =>
    refine withPayload_sat (R _) fun v _ => ?_
    split
    · exact R _
    split
    · exact R _
    refine withAccess_sat (R _) fun _ => ?_
    repeat' split
    all_goals first | exact R _ | (intro h; omega)
  | setSettings k p =>
    refine withAccess_sat (R _) fun _ => ?_
    refine withPayload_sat (R _) fun v _ => ?_
    repeat' split
    all_goals first | exact R _ | (intro h; omega)
  | setDeviceInfo k p =>
    refine withAccess_sat (R _) fun _ => ?_
    refine withPayload_sat (R _) fun v _ => ?_
    repeat' split
    all_goals first | exact R _ | (intro h; omega)
  | pairLocalInitial p =>
    simp only [handle, hPairLocalInitial]
    split
    · exact R _
    refine withAccess_sat (R _) fun _ => ?_
    have pu : ∀ u n, (pairUser iam d u n).Sat (fun i c => 400 ≤ c → i.state = iam.state) := by
      intro u n
      unfold pairUser
      repeat' split
      all_goals first | exact R _ | (intro h; omega)
    repeat' split
    all_goals first | exact R _ | exact pu _ _
  | pairLocalOpen p =>
    simp only [handle, hPairLocalOpen]
    split
    · exact R _
    refine withAccess_sat (R _) fun _ => ?_
    split
    · exact R _
    split
    · exact R _
    refine withPayload_sat (R _) fun v _ => ?_
    split
    · unfold pairResponse
      split <;> rename_i heq <;> intro hc <;>
        first | omega | exact pairNewClient_err heq Err.noConfusion | exact pairNewClient_err heq (by assumption)
    · exact R _
  | pairPasswordInvite p =>
    simp only [handle, hPairPasswordInvite]
    split
    · exact R _
    refine withAccess_sat (R _) fun _ => ?_
    repeat' split
    all_goals first | exact R _ | (intro h; omega)
  | pairPasswordOpen p =>
    simp only [handle, hPairPasswordOpen]
    split
    · exact R _
    split
    · trivial
    · exact R _
    split
    · exact R _
    split
    · exact R _
    refine withPayload_sat (R _) fun v _ => ?_
    split
    · exact R _
    split
    · unfold pairResponse
      split <;> rename_i heq <;> intro hc <;>
        first | omega | exact pairNewClient_err heq Err.noConfusion | exact pairNewClient_err heq (by assumption)
    · exact R _

-- a permitted change, a refused one, an erroneous one
example : ∃ i, handle demoEnv openIam {} 5 (.setPassword "guest" (.value (.text "other"))) = .done i 204 ∧
    i.state ≠ openIam.state := ⟨_, rfl, by decide +kernel⟩
example : handle demoEnv { openIam with conf := ⟨[], [], none⟩ } {} 5
    (.setPassword "guest" (.value (.text "other"))) = .done { openIam with conf := ⟨[], [], none⟩ } 403 := by rfl
example : handle demoEnv openIam {} 5 (.setPassword "guest" (.value (.text "abc"))) = .done openIam 400 := by rfl

/-! ## C20 -/

theorem possible_true {E : Env} {iam : Iam} {ci : ConnInfo} {ref : Nat}
    (h : passwordOpenPossible E iam ci ref = .ok true) :
    checkAccess E iam ci ref "IAM:PairingPasswordOpen" [] = .ok true ∧ iam.state.passwordOpenPairing = true ∧
    iam.state.passwordOpenPassword ≠ none ∧ iam.state.openPairingRole ≠ none := by
  unfold passwordOpenPossible at h
  split at h
  · cases h
  · rename_i a ha
    injection h with h
    simp only [Bool.and_eq_true] at h
    obtain ⟨⟨⟨h1, h2⟩, h3⟩, h4⟩ := h
    rw [ha, h1]
    exact ⟨rfl, h2, fun h => by (rw [h] at h3; cases h3), fun h => by (rw [h] at h4; cases h4)⟩

theorem findUser_first {st : IamState} {n : String} {u : User} (h : findUser st (some n) = some u) :
    FirstWith (fun u => u.username = n) st.users u := by
  obtain ⟨m, hm, hf⟩ := (findUser_some _ _ _).mp h
  injection hm with hm; subst hm; exact hf

/-- C20: a pairing request succeeds, or changes anything, only if its mode is enabled and possible, the
policies allow the caller the pairing action, and the client is local respectively password
authenticated. -/
theorem C20_pairing_only_when_allowed (E : Env) (iam iam' : Iam) (d : Dev) (ref : Nat) (r : Req) (c : Nat)
    (hr : IsPairing r) (h : handle E iam d ref r = .done iam' c) (hsucc : c < 400 ∨ iam'.state ≠ iam.state) :
    PairingOk iam d r ∧
    ∃ action, Needs r action [] ∧ checkAccess E iam d.ci ref action [] = .ok true := by
  refine HRes.Sat.elim (P := fun i c => (c < 400 ∨ i.state ≠ iam.state) → PairingOk iam d r ∧
    ∃ action, Needs r action [] ∧ checkAccess E iam d.ci ref action [] = .ok true)
    (r := handle E iam d ref r) ?_ h hsucc
  clear h hsucc
  have R : ∀ c, 400 ≤ c → (c < 400 ∨ iam.state ≠ iam.state) → PairingOk iam d r ∧
      ∃ action, Needs r action [] ∧ checkAccess E iam d.ci ref action [] = .ok true := by
    rintro c hc (h | h)
    · omega
    · exact absurd rfl h
  have any : ∀ {action} {k : HRes}, PairingOk iam d r → Needs r action [] →
      checkAccess E iam d.ci ref action [] = .ok true →
      k.Sat (fun i c => (c < 400 ∨ i.state ≠ iam.state) → PairingOk iam d r ∧
        ∃ action, Needs r action [] ∧ checkAccess E iam d.ci ref action [] = .ok true) := by
    intro action k hp hn ha
    cases k with
    | done i c => exact fun _ => ⟨hp, _, hn, ha⟩
    | ub => trivial
  cases r with
  | pairLocalInitial p =>
    simp only [handle, hPairLocalInitial]
    split
    · exact R _ (by omega)
    rename_i hmode
    refine withAccess_sat (R _ (by omega)) fun ha => ?_
    split
    · exact R _ (by omega)
    rename_i hloc
    split
    · exact R _ (by omega)
    rename_i u hu
    split
    · exact R _ (by omega)
    rename_i hpaired
    obtain ⟨n, hn, hf⟩ := (findUser_some _ _ _).mp hu
    simp [isUserPaired] at hpaired
    exact any (.localInitial p n u (by simpa using hmode) (by simpa using hloc) hn hf
      hpaired.1 hpaired.2) (.pairLocalInitial p) ha
  | pairLocalOpen p =>
    simp only [handle, hPairLocalOpen]
    split
    · exact R _ (by omega)
    rename_i hmode
    refine withAccess_sat (R _ (by omega)) fun ha => ?_
    split
    · exact R _ (by omega)
    rename_i hloc
    exact any (.localOpen p (by simpa using hmode) (by simpa using hloc)) (.pairLocalOpen p) ha
  | pairPasswordInvite p =>
    simp only [handle, hPairPasswordInvite]
    split
    · exact R _ (by omega)
    rename_i hmode
    refine withAccess_sat (R _ (by omega)) fun ha => ?_
    split
    · exact R _ (by omega)
    rename_i hpw
    split
    · exact R _ (by omega)
    rename_i n hn
    split
    · exact R _ (by omega)
    rename_i u hu
    exact any (.passwordInvite p n u (by simpa using hmode) (by simpa using hpw) hn (findUser_first hu))
      (.pairPasswordInvite p) ha
  | pairPasswordOpen p =>
    simp only [handle, hPairPasswordOpen]
    split
    · exact R _ (by omega)
    split
    · trivial
    · exact R _ (by omega)
    rename_i hpos
    split
    · exact R _ (by omega)
    rename_i hpw
    obtain ⟨h1, h2, h3, h4⟩ := possible_true hpos
    exact any (.passwordOpen p h2 h3 h4 (by simpa using hpw)) (.pairPasswordOpen p) h1
  | _ => exact absurd hr id

-- each mode succeeds in some state
example : ∃ i, handle demoEnv openIam pairDev 5 pairReq = .done i 201 := ⟨_, rfl⟩
example : ∃ i, handle demoEnv openIam pairDev 5 (.pairLocalInitial .notCbor) = .done i 201 := ⟨_, rfl⟩
example : ∃ i, handle demoEnv openIam (inviteDev k65) 5 (.pairPasswordInvite .missing) = .done i 201 := ⟨_, rfl⟩

/-- A module with password open pairing enabled and an invited user. -/
def passwordIam : Iam :=
  { openIam with state :=
    { openState with passwordOpenPassword := some "the open password", passwordOpenPairing := true } }

example : ∃ i, handle demoEnv passwordIam { inviteDev k65 with newSct := some "t" } 5
    (.pairPasswordOpen (.value (.map [("Username", .text "new")]))) = .done i 201 := ⟨_, rfl⟩

/-! ## C61 -/

/-- C61: the property fails. A client that is password authenticated as the invited user `guest`, that
is with the invitation password of `guest`, pairs through password open pairing as a new user without
ever having proved the open pairing password. -/
theorem C61_open_password_violated :
    pakePassword passwordIam.state "guest" = some "secret" ∧
    passwordIam.state.passwordOpenPassword = some "the open password" ∧
    ∃ i, handle demoEnv passwordIam
        { ci := { fingerprint := some k65, pwAuth := true, pwUser := some "guest" },
          ci2 := { fingerprint := some k65, pwAuth := true, pwUser := some "guest" }, newSct := some "t" } 5
        (.pairPasswordOpen (.value (.map [("Username", .text "new")]))) = .done i 201 ∧
      i.state.users.length = 3 := by
  refine ⟨by decide +kernel, by decide +kernel, _, rfl, by decide +kernel⟩

/-- C61, what does hold: a client that paired through password open pairing is password authenticated, as
some username, and the mode has a password. Missing: that it proved that password. -/
theorem C61_open_password_partial (E : Env) (iam iam' : Iam) (d : Dev) (ref : Nat) (p : Payload)
    (h : handle E iam d ref (.pairPasswordOpen p) = .done iam' 201) :
    d.ci2.pwAuth = true ∧ iam.state.passwordOpenPassword ≠ none := by
  have := (C20_pairing_only_when_allowed E iam iam' d ref (.pairPasswordOpen p) 201 trivial h (.inl (by omega))).1
  cases this with
  | passwordOpen _ _ h2 _ h4 => exact ⟨h4, h2⟩

end Verif.Iam
