import Verif.Iam.ListingLemmas
import Verif.Iam.CoapProps

/-!
# IAM resources which are read: properties

C24: users are shown without their passwords, C25: lists of users and roles, C72: the other resources.
-/

namespace Verif.Iam.Listing.Props
open Verif.Cbor Verif.Iam

/-! ## C24 -/

/-- C24. `GET /iam/users/{user}` gives exactly the document of the user. -/
theorem C24_get_user (E : Env) (iam : Iam) (ci : ConnInfo) (ref : Nat) (mem : Mem) (username : String) (u : User)
    (ha : checkAccess E iam ci ref "IAM:GetUser" (E.ins [] "IAM:Username" username) = .ok true)
    (hu : findUser iam.state (some username) = some u) (hm : mem.alloc (Spec.userItem u).enc.length = true) (hs : mem.setOk = true) :
    getUser E iam ci ref mem username = .content (Spec.userItem u).enc := by
  unfold getUser guarded
  simp only [ha, hu]
  rw [twoPass_same (puts_user u)]
  simp [hm, hs]

/-- C24. `GET /iam/me` gives exactly the document of the user of the connection. -/
theorem C24_get_me (iam : Iam) (ci : ConnInfo) (ref : Nat) (mem : Mem) (u : User)
    (hu : actingUser iam ci ref = .ok (some u)) (hm : mem.alloc (Spec.userItem u).enc.length = true) (hs : mem.setOk = true) :
    getMe iam ci ref mem = .content (Spec.userItem u).enc := by
  unfold getMe
  rw [hu]
  simp only
  rw [twoPass_same (puts_user u)]
  simp [hm, hs]

/-- C24. No content of a resource depends on the passwords of the users. -/
theorem C24_no_passwords (pw : User → Option String) (E : Env) (iam : Iam) (ci ci1 ci2 : ConnInfo) (ref : Nat) (mem : Mem)
    (username : String) (a : About) :
    getUser E (Spec.withPasswords pw iam) ci ref mem username = getUser E iam ci ref mem username ∧
    getMe (Spec.withPasswords pw iam) ci ref mem = getMe iam ci ref mem ∧
    listUsers E (Spec.withPasswords pw iam) ci ref mem = listUsers E iam ci ref mem ∧
    listRoles E (Spec.withPasswords pw iam) ci ref mem = listRoles E iam ci ref mem ∧
    getSettings E (Spec.withPasswords pw iam) ci ref mem = getSettings E iam ci ref mem ∧
    getPairing E (Spec.withPasswords pw iam) ci ci1 ci2 ref mem a = getPairing E iam ci ci1 ci2 ref mem a ∧
    getCategories E (Spec.withPasswords pw iam) ci ref mem = getCategories E iam ci ref mem := by
  refine ⟨?_, ?_, ?_, ?_, ?_, ?_, ?_⟩
  · unfold getUser
    rw [guarded_pw, findUser_pw]
    cases findUser iam.state (some username) <;> rfl
  · unfold getMe
    rw [actingUser_pw]
    cases actingUser iam ci ref with
    | ub => rfl
    | ok o => cases o <;> rfl
  · unfold listUsers
    rw [guarded_pw]
    have : (Spec.withPasswords pw iam).state.users.map (·.username) = iam.state.users.map (·.username) := by
      simp [Spec.withPasswords]
    rw [this]
  · unfold listRoles
    rw [guarded_pw]
    rfl
  · unfold getSettings
    rw [guarded_pw]
    rfl
  · unfold getPairing
    rw [guarded_pw, modes_pw, modes_pw]
    rfl
  · unfold getCategories
    rw [guarded_pw]
    rfl

theorem depthm_append (p q : List (Item × Item)) : Item.depthm (p ++ q) = max (Item.depthm p) (Item.depthm q) := by
  induction p with
  | nil => simp [Item.depthm]
  | cons x p ih => obtain ⟨k, v⟩ := x; simp only [List.cons_append, Item.depthm, ih]; omega

theorem depthm_opt (k : String) (v : Option String) : Item.depthm (Spec.optField k v) = 0 := by
  cases v <;> simp [Spec.optField, Spec.field, Spec.text, Item.depthm, Item.depth]

theorem depths_le {α : Type} {f : α → Item} {n : Nat} (h : ∀ a, (f a).depth ≤ n) (l : List α) : Item.depths (l.map f) ≤ n := by
  induction l with
  | nil => simp [Item.depths]
  | cons a l ih => simp only [List.map_cons, Item.depths]; have := h a; omega

theorem depth_user (u : User) : (Spec.userItem u).depth ≤ 3 := by
  have h1 : Item.depths (u.fingerprints.map Spec.fpItem) ≤ 1 := depths_le (fun fp => by
    simp [Spec.fpItem, Item.depth, depthm_opt, Spec.field, Spec.text, Item.depthm]) _
  have h2 : Item.depths (u.notificationCategories.map Spec.text) ≤ 0 := depths_le (fun s => by simp [Spec.text, Item.depth]) _
  have h3 : Item.depthm (Spec.fcmField u) ≤ 1 := by
    unfold Spec.fcmField
    split
    · simp [Spec.field, Item.depthm, Item.depth, depthm_append, depthm_opt, Spec.text]
    · simp [Item.depthm]
  simp only [Spec.userItem, Item.depth, depthm_append, depthm_opt, Spec.field, Item.depthm, Spec.text] at *
  omega

/-- C24. The document of a user contains everything else: two users with the same answer differ only in the password (and
in the identity of the object). The document has to be readable: strings shorter than `2^64`, less than `2^31` elements. -/
theorem C24_complete (u v : User) (hu : (Spec.userItem u).Plain) (hv : (Spec.userItem v).Plain)
    (h : (Spec.userItem u).enc = (Spec.userItem v).enc) : Spec.publicOf u = Spec.publicOf v := by
  have du := depth_user u
  have dv := depth_user v
  exact user_inj (Verif.Cbor.Props.encode_prefix_free _ _ hu hv (by omega) (by omega) [] [] (by simpa using h)).1

/-- C24. A client can read the document. -/
theorem C24_readable (u : User) (hu : (Spec.userItem u).Plain) (tl : Bytes) :
    ∃ v, parserInit ((Spec.userItem u).enc ++ tl) = .ok v ∧ readItem 1024 v = .ok (Spec.userItem u) := by
  have du := depth_user u
  exact Verif.Cbor.Props.decode_encode _ hu (by omega) tl

/-- A user with a password. -/
def alice : User :=
  { addr := 1, username := "a", role := some "R", password := some "secret", fcmToken := some "t",
    fingerprints := [⟨"f", some "n"⟩, ⟨"g", none⟩], notificationCategories := ["x"] }

/-- All resources succeed. -/
def plenty : Mem := ⟨fun _ => true, true⟩

/-- The policy of users. -/
def users : Policy :=
  { id := "u"
    statements := [{ effect := .allow, actions := ["IAM:PairingPasswordInvite"], conditions := [] }] }

/-- The policy of everybody. -/
def everybody : Policy :=
  { id := "e"
    statements := [{ effect := .allow, actions := ["IAM:GetUser", "IAM:ListUsers", "IAM:ListRoles", "IAM:GetSettings",
                     "IAM:GetPairing", "IAM:ListNotificationCategories"], conditions := [] }] }

/-- Everybody may read, users may pair by invitation. -/
def openIam : Iam :=
  { conf := { policies := [users, everybody], roles := [⟨"R", ["u", "e"]⟩, ⟨"Q", ["e"]⟩], unpairedRole := some "Q" }
    state := { users := [alice], passwordInvitePairing := true } }

example : checkAccess demoEnv openIam {} 1 "IAM:GetUser" (demoEnv.ins [] "IAM:Username" "a") = .ok true ∧
    findUser openIam.state (some "a") = some alice := by decide

example : (Spec.userItem alice).Plain := by
  simp [Spec.userItem, alice, Spec.field, Spec.optField, Spec.text, Spec.fcmField, Spec.fpItem, Item.Plain, Item.Plainm,
    Item.Plains]
  decide

/-! ## C25 -/

/-- C25, violated. `GET /iam/users` never gives the names: the answer is empty (which is not CBOR), an error, or there is
none. -/
theorem C25_list_users_violated (E : Env) (iam : Iam) (ci : ConnInfo) (ref : Nat) (mem : Mem)
    (ha : checkAccess E iam ci ref "IAM:ListUsers" [] = .ok true) :
    listUsers E iam ci ref mem = (if !mem.alloc 0 then .nothing else if mem.setOk then .content [] else .error 500) ∧
    listUsers E iam ci ref mem ≠ .content (Spec.names (iam.state.users.map (·.username))).enc := by
  have h : listUsers E iam ci ref mem =
      (if !mem.alloc 0 then .nothing else if mem.setOk then .content [] else .error 500) := by
    unfold listUsers guarded
    simp only [ha, (names_fail _).1, (names_fail _).2, extra, if_true]
  refine ⟨h, ?_⟩
  rw [h]
  cases mem.alloc 0 <;> cases mem.setOk <;> simp [Spec.names, Item.enc]

/-- C25, violated. `GET /iam/roles` always fails. -/
theorem C25_list_roles_violated (E : Env) (iam : Iam) (ci : ConnInfo) (ref : Nat) (mem : Mem)
    (ha : checkAccess E iam ci ref "IAM:ListRoles" [] = .ok true) : listRoles E iam ci ref mem = .error 500 := by
  unfold listRoles guarded
  simp only [ha, (names_fail _).1, extra, if_true]

example : checkAccess demoEnv openIam {} 1 "IAM:ListUsers" [] = .ok true ∧
    checkAccess demoEnv openIam {} 1 "IAM:ListRoles" [] = .ok true := by decide

/-- C25. `GET /iam/notification-categories` gives all categories; a caller without permission gets no list. -/
theorem C25_lists_partial (E : Env) (iam : Iam) (ci : ConnInfo) (ref : Nat) (mem : Mem) :
    (checkAccess E iam ci ref "IAM:ListNotificationCategories" [] = .ok true →
      getCategories E iam ci ref mem = if mem.alloc (Spec.names iam.categories).enc.length && mem.setOk
        then .content (Spec.names iam.categories).enc else .error 500) ∧
    (checkAccess E iam ci ref "IAM:ListNotificationCategories" [] = .ok false → getCategories E iam ci ref mem = .error 403) ∧
    (checkAccess E iam ci ref "IAM:ListUsers" [] = .ok false → listUsers E iam ci ref mem = .error 403) ∧
    (checkAccess E iam ci ref "IAM:ListRoles" [] = .ok false → listRoles E iam ci ref mem = .error 403) := by
  refine ⟨fun ha => ?_, fun h => by unfold getCategories guarded; rw [h], fun h => by unfold listUsers guarded; rw [h],
    fun h => by unfold listRoles guarded; rw [h]⟩
  obtain ⟨m1, m2⟩ := categories_done iam.categories none [] (Enc.init none) rfl
  obtain ⟨w1, w2⟩ := categories_done iam.categories (some (Spec.names iam.categories).enc.length) []
    (Enc.init (some (Spec.names iam.categories).enc.length)) (by simp [Buf.Is, Enc.init])
  simp only [Buf.Is, List.nil_append] at m1 m2
  simp only [Buf.Is, fitErr, List.nil_append, Nat.le_refl, if_true, Nat.sub_self] at w1 w2
  have hx : (encCategories iam.categories (Enc.init none)).1.extra = (Spec.names iam.categories).enc.length := by
    unfold Enc.extra; rw [m1]
  unfold getCategories guarded
  simp only [ha, m2, fitErr, hx, w2, respond, w1, payload, ne_eq, not_true_eq_false, if_false, List.replicate_zero,
    List.append_nil]
  cases mem.alloc (Spec.names iam.categories).enc.length <;> cases mem.setOk <;> rfl

example : checkAccess demoEnv openIam {} 1 "IAM:ListNotificationCategories" [] = .ok true := by decide

/-! ## C72 -/

/-- C72. `GET /iam/settings` gives the settings. -/
theorem C72_settings (E : Env) (iam : Iam) (ci : ConnInfo) (ref : Nat) (mem : Mem)
    (ha : checkAccess E iam ci ref "IAM:GetSettings" [] = .ok true)
    (hm : mem.alloc (Spec.settingsItem iam.state).enc.length = true) (hs : mem.setOk = true) :
    getSettings E iam ci ref mem = .content (Spec.settingsItem iam.state).enc := by
  unfold getSettings guarded
  simp only [ha]
  rw [twoPass_same (puts_settings iam.state)]
  simp [hm, hs]

example : checkAccess demoEnv openIam {} 1 "IAM:GetSettings" [] = .ok true := by decide

/-- C72. `GET /iam/pairing` gives the modes, as long as the connection does not change meanwhile. -/
theorem C72_pairing_partial (E : Env) (iam : Iam) (ci ci1 : ConnInfo) (ref : Nat) (mem : Mem) (a : About) (modes : List String)
    (ha : checkAccess E iam ci ref "IAM:GetPairing" [] = .ok true) (hp : pairingModes E iam ci1 ref = .ok modes)
    (hm : mem.alloc (Spec.pairingItem modes (aboutFields a iam.state.friendlyName)).enc.length = true) (hs : mem.setOk = true) :
    getPairing E iam ci ci1 ci1 ref mem a = .content (Spec.pairingItem modes (aboutFields a iam.state.friendlyName)).enc := by
  unfold getPairing guarded
  simp only [ha, hp]
  rw [twoPass_same (puts_pairing modes a iam.state.friendlyName)]
  simp [hm, hs]

example : checkAccess demoEnv openIam {} 1 "IAM:GetPairing" [] = .ok true ∧
    pairingModes demoEnv openIam { fingerprint := some "f" } 1 = .ok ["PasswordInvite"] := by decide

/-- The mode is offered. -/
def Offered (E : Env) (iam : Iam) (ci : ConnInfo) (ref : Nat) (mode : String) : Prop :=
  ∃ modes, pairingModes E iam ci ref = .ok modes ∧ mode ∈ modes

theorem modes_of {E : Env} {iam : Iam} {ci : ConnInfo} {ref : Nat} {modes : List String}
    (h : pairingModes E iam ci ref = .ok modes) : ∃ a b c d, passwordOpenPossible E iam ci ref = .ok a ∧
    localOpenPossible E iam ci ref = .ok b ∧ passwordInvitePossible E iam ci ref = .ok c ∧
    localInitialPossible E iam ci ref = .ok d ∧ modes = ((if a then ["PasswordOpen"] else []) ++ (if b then ["LocalOpen"] else []) ++
      (if c then ["PasswordInvite"] else []) ++ (if d then ["LocalInitial"] else [])) := by
  unfold pairingModes at h
  split at h
  · rename_i a b c d h1 h2 h3 h4
    injection h with h
    exact ⟨a, b, c, d, h1, h2, h3, h4, h.symm⟩
  · cases h

/-- C72. A mode is offered exactly if it is enabled and the caller may use it here. -/
theorem C72_modes_exact (E : Env) (iam : Iam) (ci : ConnInfo) (ref : Nat) (modes : List String)
    (h : pairingModes E iam ci ref = .ok modes) :
    ("PasswordOpen" ∈ modes ↔ checkAccess E iam ci ref "IAM:PairingPasswordOpen" [] = .ok true ∧
      iam.state.passwordOpenPairing = true ∧ iam.state.passwordOpenPassword ≠ none ∧ iam.state.openPairingRole ≠ none) ∧
    ("LocalOpen" ∈ modes ↔ checkAccess E iam ci ref "IAM:PairingLocalOpen" [] = .ok true ∧ ci.isLocal = true ∧
      iam.state.localOpenPairing = true ∧ iam.state.openPairingRole ≠ none) ∧
    ("PasswordInvite" ∈ modes ↔ checkAccess E iam ci ref "IAM:PairingPasswordInvite" [] = .ok true ∧
      iam.state.passwordInvitePairing = true) ∧
    ("LocalInitial" ∈ modes ↔ checkAccess E iam ci ref "IAM:PairingLocalInitial" [] = .ok true ∧ ci.isLocal = true ∧
      iam.state.localInitialPairing = true ∧
      ∃ u, findUser iam.state iam.state.initialPairingUsername = some u ∧ u.fingerprints = [] ∧ u.oauthSubject = none) := by
  obtain ⟨a, b, c, d, h1, h2, h3, h4, rfl⟩ := modes_of h
  have e1 : ("PasswordOpen" ∈ (if a then ["PasswordOpen"] else []) ++ (if b then ["LocalOpen"] else []) ++
      (if c then ["PasswordInvite"] else []) ++ (if d then ["LocalInitial"] else [])) ↔ a = true := by
    cases a <;> cases b <;> cases c <;> cases d <;> decide
  have e2 : ("LocalOpen" ∈ (if a then ["PasswordOpen"] else []) ++ (if b then ["LocalOpen"] else []) ++
      (if c then ["PasswordInvite"] else []) ++ (if d then ["LocalInitial"] else [])) ↔ b = true := by
    cases a <;> cases b <;> cases c <;> cases d <;> decide
  have e3 : ("PasswordInvite" ∈ (if a then ["PasswordOpen"] else []) ++ (if b then ["LocalOpen"] else []) ++
      (if c then ["PasswordInvite"] else []) ++ (if d then ["LocalInitial"] else [])) ↔ c = true := by
    cases a <;> cases b <;> cases c <;> cases d <;> decide
  have e4 : ("LocalInitial" ∈ (if a then ["PasswordOpen"] else []) ++ (if b then ["LocalOpen"] else []) ++
      (if c then ["PasswordInvite"] else []) ++ (if d then ["LocalInitial"] else [])) ↔ d = true := by
    cases a <;> cases b <;> cases c <;> cases d <;> decide
  rw [e1, e2, e3, e4]
  refine ⟨?_, ?_, ?_, ?_⟩
  · unfold passwordOpenPossible at h1
    cases hc : checkAccess E iam ci ref "IAM:PairingPasswordOpen" [] with
    | ub => rw [hc] at h1; cases h1
    | ok x =>
      rw [hc] at h1
      injection h1 with h1
      rw [← h1]
      simp [Option.isSome_iff_ne_none, and_assoc]
  · unfold localOpenPossible at h2
    cases hl : ci.isLocal with
    | false => rw [hl] at h2; injection h2 with h2; simp [← h2]
    | true =>
      cases ho : iam.state.localOpenPairing with
      | false => rw [hl, ho] at h2; injection h2 with h2; simp [← h2]
      | true =>
        rw [hl, ho] at h2
        cases hc : checkAccess E iam ci ref "IAM:PairingLocalOpen" [] with
        | ub => rw [hc] at h2; cases h2
        | ok x =>
          rw [hc] at h2
          injection h2 with h2
          rw [← h2]
          simp [Option.isSome_iff_ne_none]
  · unfold passwordInvitePossible at h3
    cases hc : checkAccess E iam ci ref "IAM:PairingPasswordInvite" [] with
    | ub => rw [hc] at h3; cases h3
    | ok x =>
      rw [hc] at h3
      injection h3 with h3
      rw [← h3]
      simp
  · unfold localInitialPossible at h4
    cases hl : ci.isLocal with
    | false => rw [hl] at h4; injection h4 with h4; simp [← h4]
    | true =>
      rw [hl] at h4
      cases hc : checkAccess E iam ci ref "IAM:PairingLocalInitial" [] with
      | ub => rw [hc] at h4; cases h4
      | ok x =>
        rw [hc] at h4
        injection h4 with h4
        rw [← h4]
        unfold initialUnpaired isUserPaired
        cases findUser iam.state iam.state.initialPairingUsername with
        | none => simp
        | some u => simp [and_assoc]

/-- C72. A pairing by invitation or of the initial user which succeeds had been offered. -/
theorem C72_paired_was_offered (E : Env) (iam iam' : Iam) (d : Dev) (ref : Nat) (p : Payload) (modes : List String)
    (hci : d.ci2 = d.ci) (h : pairingModes E iam d.ci ref = .ok modes) :
    (hPairPasswordInvite E iam d ref p = .done iam' 201 → "PasswordInvite" ∈ modes) ∧
    (hPairLocalInitial E iam d ref p = .done iam' 201 → "LocalInitial" ∈ modes) ∧
    (hPairPasswordOpen E iam d ref p = .done iam' 201 → "PasswordOpen" ∈ modes) := by
  have hex := C72_modes_exact E iam d.ci ref modes h
  refine ⟨fun hp => hex.2.2.1.2 ?_, fun hp => hex.2.2.2.2 ?_, fun hp => ?_⟩
  · unfold hPairPasswordInvite at hp
    split at hp
    · simp at hp
    · rename_i h1
      unfold withAccess at hp
      split at hp
      · cases hp
      · simp at hp
      · rename_i h2; exact ⟨h2, by simpa using h1⟩
  · unfold hPairLocalInitial at hp
    split at hp
    · simp at hp
    · rename_i h1
      unfold withAccess at hp
      split at hp
      · cases hp
      · simp at hp
      · rename_i h2
        split at hp
        · simp at hp
        · rename_i h3
          split at hp
          · simp at hp
          · rename_i u hu
            split at hp
            · simp at hp
            · rename_i h4
              rw [hci] at h3
              simp [isUserPaired] at h4
              exact ⟨h2, by simpa using h3, by simpa using h1, u, hu, h4⟩
  · obtain ⟨a, b, c, e, h1, h2, h3, h4, rfl⟩ := modes_of h
    unfold hPairPasswordOpen at hp
    rw [h1] at hp
    split at hp
    · simp at hp
    · cases a with
      | false => simp at hp
      | true => simp

/-- C72. A caller who is refused gets 403 and nothing else, whatever the state; who asks for an unknown user gets 404, also for
the user of a connection without one. -/
theorem C72_refused (E : Env) (iam : Iam) (ci ci1 ci2 : ConnInfo) (ref : Nat) (mem : Mem) (username : String) (a : About) :
    (checkAccess E iam ci ref "IAM:GetUser" (E.ins [] "IAM:Username" username) = .ok false →
      getUser E iam ci ref mem username = .error 403) ∧
    (checkAccess E iam ci ref "IAM:GetUser" (E.ins [] "IAM:Username" username) = .ok true →
      (∀ u ∈ iam.state.users, u.username ≠ username) → getUser E iam ci ref mem username = .error 404) ∧
    (actingUser iam ci ref = .ok none → getMe iam ci ref mem = .error 404) ∧
    (checkAccess E iam ci ref "IAM:ListUsers" [] = .ok false → listUsers E iam ci ref mem = .error 403) ∧
    (checkAccess E iam ci ref "IAM:ListRoles" [] = .ok false → listRoles E iam ci ref mem = .error 403) ∧
    (checkAccess E iam ci ref "IAM:GetSettings" [] = .ok false → getSettings E iam ci ref mem = .error 403) ∧
    (checkAccess E iam ci ref "IAM:GetPairing" [] = .ok false → getPairing E iam ci ci1 ci2 ref mem a = .error 403) := by
  refine ⟨fun h => ?_, fun h hu => ?_, fun h => ?_, fun h => ?_, fun h => ?_, fun h => ?_, fun h => ?_⟩
  · unfold getUser guarded; rw [h]
  · unfold getUser guarded
    have : findUser iam.state (some username) = none := by
      unfold findUser
      simp only [List.find?_eq_none]
      intro u hu'
      have := hu u hu'
      simpa using this
    simp only [h, this]
  · unfold getMe; rw [h]
  · unfold listUsers guarded; rw [h]
  · unfold listRoles guarded; rw [h]
  · unfold getSettings guarded; rw [h]
  · unfold getPairing guarded; rw [h]

/-- C72. With memory, everyone is answered. -/
theorem C72_answered_partial (E : Env) (iam : Iam) (ci ci1 ci2 : ConnInfo) (ref : Nat) (mem : Mem) (username : String) (a : About)
    (hm : ∀ n, mem.alloc n = true) :
    getUser E iam ci ref mem username ≠ .nothing ∧ getMe iam ci ref mem ≠ .nothing ∧ listUsers E iam ci ref mem ≠ .nothing ∧
    listRoles E iam ci ref mem ≠ .nothing ∧ getSettings E iam ci ref mem ≠ .nothing ∧
    getPairing E iam ci ci1 ci2 ref mem a ≠ .nothing ∧ getCategories E iam ci ref mem ≠ .nothing := by
  have hr : ∀ n r, respond mem n r ≠ .nothing := fun n r => by
    unfold respond
    (repeat' split) <;> simp
  have ht : ∀ o f g, twoPass mem o f g ≠ .nothing := fun o f g => by
    unfold twoPass
    simp only [hm]
    exact hr _ _
  refine ⟨?_, ?_, ?_, ?_, ?_, ?_, ?_⟩
  · unfold getUser guarded
    (repeat' split) <;> simp [ht]
  · unfold getMe
    (repeat' split) <;> simp [ht]
  · unfold listUsers guarded
    simp only [hm, Bool.not_true, Bool.false_eq_true, if_false]
    (repeat' split) <;> simp [hr]
  · unfold listRoles guarded
    simp only [hm]
    (repeat' split) <;> simp [hr]
  · unfold getSettings guarded
    (repeat' split) <;> simp [ht]
  · unfold getPairing guarded
    (repeat' split) <;> simp [ht]
  · unfold getCategories guarded
    simp only [hm]
    (repeat' split) <;> simp [hr]

example : actingUser openIam {} 1 = .ok none ∧
    checkAccess demoEnv { openIam with conf := ⟨[], [], none⟩ } {} 1 "IAM:ListRoles" [] = .ok false := by
  decide +kernel

/-- C72, violated. The device is asked about the connection in both passes: if the caller finishes the password
authentication in between and a mode is offered then, the answer is cut off. -/
theorem C72_pairing_race_violated :
    let ci2 : ConnInfo := { pwAuth := true, pwUser := some "a" }
    let p : Bytes := [0xbf, 0x65, 0x4d, 0x6f, 0x64, 0x65, 0x73, 0x9f, 0x6e, 0]
    pairingModes demoEnv openIam {} 1 = .ok [] ∧ pairingModes demoEnv openIam ci2 1 = .ok ["PasswordInvite"] ∧
    getPairing demoEnv openIam {} {} ci2 1 plenty {} = .content p ∧
    (parserInit p >>= fun v => readItem 1024 v) = .err .eof := by
  refine ⟨by decide +kernel, by decide +kernel, by decide +kernel, by rfl⟩

/-- C72, violated. Without memory for the answer, `GET /iam/me`, `/iam/settings` and `/iam/pairing` are not answered at all,
and the request is never freed. -/
theorem C72_unanswered_violated :
    getMe openIam { fingerprint := some "f" } 1 ⟨fun _ => false, true⟩ = .nothing ∧
    getSettings demoEnv openIam {} 1 ⟨fun _ => false, true⟩ = .nothing ∧
    getPairing demoEnv openIam {} {} {} 1 ⟨fun _ => false, true⟩ {} = .nothing ∧
    listUsers demoEnv openIam {} 1 ⟨fun n => n ≠ 0, true⟩ = .nothing := by
  refine ⟨?_, ?_, ?_, ?_⟩ <;> decide +kernel

end Verif.Iam.Listing.Props
