import Verif.Iam.RecordLoad

/-!
# Users and states of the IAM module as blocks of memory — properties

C134. A program that builds users and states with the State Builder API, copies a state (`nm_iam_state_copy`,
`nm_iam_dump_state`), loads one from JSON and frees them, while any request for memory may fail.
-/

namespace Verif.Iam.Record.Props

open Verif.Iam Verif.Iam.Record Verif.Json Spec

/-- **C134 (copy).** Whatever requests for memory fail, a copy of a state is either refused, and then the memory in use
is what it was, or it says exactly what the original says and is made of memory of its own: the memory in use is then
what it was and the blocks of the copy, each once. Freeing the copy gives back exactly its blocks. It is refused only if
a request failed. -/
theorem C134_copy (m : Mem) (s : RState) (others : List Nat) (hm : Holds m (ofState s) others)
    (hs : ∀ u ∈ s.users, WellFormed u) :
    match stateCopy m s with
    | (none, m') => Holds m' (ofState s) others ∧ ¬ Plenty m
    | (some c, m') => stateValue c = stateValue s ∧ Holds m' (ofState c ++ ofState s) others ∧
        Holds (stateFree m' c) (ofState s) others := by
  rcases e : stateCopy m s with ⟨x, m'⟩
  have h := stateCopy_spec (ok := m.ok) ⟨hm, rfl⟩ (fun u hu => (hs u hu).2) e
  cases x with
  | none => exact ⟨h.1.holds, fun hp => h.2 hp (fun u hu => (hs u hu).1)⟩
  | some c => exact ⟨h.2, h.1.holds, (stateFree_mine h.1).holds⟩

/-- **C134 (building a user).** A user is made and then changed by any calls of the setters of strings, of the username
and of the fingerprints, in any order, with any requests for memory failing. The user says exactly what the calls that
answered success asked for, in their order; a call that answered failure changed nothing. The memory in use is that of
the user and nothing else, and freeing the user gives it all back. -/
theorem C134_user (m : Mem) (name : String) (others : List Nat) (hm : Holds m [] others) (l : List Call)
    (hl : ∀ c ∈ l, c.plain = true) :
    match userNew m name with
    | (none, m') => Holds m' [] others ∧ (Plenty m → validateUsername name = false)
    | (some u, m1) =>
      match calls m1 u l with
      | (answers, u', m') => answers.length = l.length ∧
          value u' = applyAll { addr := 0, username := name } (l.zip answers) ∧ WellFormed u' ∧
          Holds m' (ofUser u') others ∧ Holds (userFree m' u') [] others := by
  rcases e : userNew m name with ⟨x, m1⟩
  have h := userNew_spec (ok := m.ok) ⟨hm, rfl⟩ e
  cases x with
  | none => exact ⟨h.1.holds, h.2⟩
  | some u =>
    obtain ⟨h1, h2, h3, h4⟩ := h
    simp only
    rcases e2 : calls m1 u l with ⟨answers, u', m'⟩
    have hu : u.username.val = name := by
      have := congrArg User.username h2
      simpa [value] using this
    obtain ⟨k1, k2, k3, k4, k5⟩ := calls_spec h1 (by rw [hu]; exact h3) (by rw [h4]; simp) e2
    refine ⟨k2, ?_, ⟨k4, k5⟩, by simpa using k1.holds, (userFree_mine k1).holds⟩
    rw [k3 (Or.inl hl), h2]

/-- **C134 (one call).** A call on a user, of any kind, that answers failure changed nothing; with enough memory a
sensible call answers success and the user says what was asked for. -/
theorem C134_call (m : Mem) (u : RUser) (c : Call) (others : List Nat) (hm : Holds m (ofUser u) others) :
    match call m u c with
    | (answer, u', m') => Holds m' (ofUser u') others ∧ (answer = false → u' = u) ∧
        (Plenty m → sensible (value u) c = true → answer = true ∧ value u' = apply (value u) c) ∧
        (WellFormed u → WellFormed u') := by
  rcases e : call m u c with ⟨f, u', m'⟩
  obtain ⟨h1, h2, h3, h4, h5, h6⟩ := call_spec (ok := m.ok) (a := []) (r := others) ⟨by simpa using hm, rfl⟩ e
  exact ⟨by simpa using h1.holds, h2, fun hp hs => ⟨h4 hp hs, h3 (Or.inr hp) (h4 hp hs)⟩,
    fun hw => ⟨h5 hw.1, h6 hw.2⟩⟩

/-- **C134 (categories, partial).** The setter of the notification categories answers success. Missing: the categories of
the user are then those that were asked for, see `C134_categories_violated`. They are some of them, each once, and all
of them if no request for memory fails. -/
theorem C134_categories_partial (m : Mem) (u : RUser) (l : List String) (others : List Nat)
    (hm : Holds m (ofUser u) others) :
    match setCategories m u l with
    | (answer, u', m') => answer = true ∧ Holds m' (ofUser u') others ∧
        (value u').notificationCategories.Sublist l ∧ (value u').notificationCategories.Nodup ∧
        (Plenty m → (value u').notificationCategories = setOf l) := by
  rcases e : setCategories m u l with ⟨f, u', m'⟩
  obtain ⟨s, rfl, h1, h2, h3, h4, h5⟩ := setCategories_spec (ok := m.ok) (a := []) (r := others)
    ⟨by simpa using hm, rfl⟩ e
  exact ⟨h2, by simpa using h1.holds, h4, h3, h5⟩

/-! ## Without memory -/

/-- No request will succeed any more. -/
def Dry (m : Mem) : Prop := ∀ n, m.asked ≤ n → m.ok n = false

theorem alloc_dry {m : Mem} (h : Dry m) : ∃ m', alloc m = (none, m') ∧ Dry m' := by
  refine ⟨{ m with asked := m.asked + 1 }, ?_, fun n hn => h n (Nat.le_of_succ_le hn)⟩
  unfold alloc
  rw [if_neg (by rw [h _ (Nat.le_refl _)]; simp)]

theorem strdup_dry {m : Mem} (h : Dry m) (s : String) : ∃ m', strdup m s = (none, m') ∧ Dry m' := by
  obtain ⟨m', h1, h2⟩ := alloc_dry h
  exact ⟨m', by simp [strdup, h1], h2⟩

theorem free_dry {m : Mem} (h : Dry m) (b : Nat) : Dry (free m b) := by
  unfold free; split <;> exact h

theorem insertAll_dry {m : Mem} (h : Dry m) (l : List String) :
    ∃ m', insertAll m [] l = ([], m') ∧ Dry m' := by
  induction l generalizing m with
  | nil => exact ⟨m, rfl, h⟩
  | cons s l ih =>
    obtain ⟨m1, h1, h2⟩ := strdup_dry h s
    obtain ⟨m2, h3, h4⟩ := ih h2
    exact ⟨m2, by simp [insertAll, insert, h1, h3], h4⟩

/-- **C134 (categories, violated).** Whatever categories are asked for, when no request for memory succeeds the setter
answers success and leaves the user without any category, also without those it had. -/
theorem C134_categories_violated (m : Mem) (u : RUser) (l : List String) (hm : Dry m) :
    (setCategories m u l).1 = true ∧ (value (setCategories m u l).2.1).notificationCategories = [] := by
  have hd : Dry (freeSet m u.categories) := by
    unfold freeSet
    generalize u.categories = cs
    induction cs generalizing m with
    | nil => exact hm
    | cons s cs ih => exact ih (free m s.blk) (free_dry hm _)
  obtain ⟨m', h1, _⟩ := insertAll_dry hd l
  simp only [setCategories, h1]
  exact ⟨trivial, rfl⟩

/-! ## Loading -/

/-- **C134 (load, partial).** Loading a parsed document into a state. If it answers failure the state is as it was. With
enough memory it answers success exactly for the documents that mean a state, and the state is then that one. Missing:
without enough memory success means the same, see `C134_load_violated`, and the document is always given back, see
`C134_load_leak_violated`. What holds with any failures: a success is only given to a document that means a state, each
user that is loaded says nothing that the document does not say, the order is kept, each string is the old one or that
of the document, the four switches are those of the document, what is loaded is well formed, and all memory is accounted
for if the version of the document is not too high. -/
theorem C134_load_partial (m : Mem) (s : RState) (root : Doc) (others : List Nat) (hm : Holds m (ofState s) others)
    (hs : ∀ u ∈ s.users, WellFormed u) :
    match loadState m s root with
    | (answer, s', m') =>
      (leaked root = false → Holds m' (ofState s') others) ∧
      (∀ u ∈ s'.users, WellFormed u) ∧
      (answer = false → s' = s) ∧
      (Plenty m → (if answer then some (stateValue s') else none) = stateFromJson (stateValue s) root) ∧
      (answer = true → ∃ w new, stateFromJson (stateValue s) root = some w ∧
        (∃ l, (stateValue s').users = (stateValue s).users ++ l ∧ w.users = (stateValue s).users ++ new ∧
          Spec.Some l new) ∧
        (∀ f, Spec.text (s'.get f) = Spec.text (s.get f) ∨ Spec.text (s'.get f) = sfield w f) ∧
        s'.passwordOpenPairing = w.passwordOpenPairing ∧ s'.localOpenPairing = w.localOpenPairing ∧
        s'.passwordInvitePairing = w.passwordInvitePairing ∧ s'.localInitialPairing = w.localInitialPairing) := by
  rcases e : loadState m s root with ⟨f, s', m'⟩
  obtain ⟨⟨l, h1, h1'⟩, h2, h3, h4⟩ := loadState_spec (ok := m.ok) (a := []) (r := others)
    ⟨by simpa using hm, rfl⟩ e
  refine ⟨fun hl => ?_, ?_, h2, fun hp => ?_, fun hf => ?_⟩
  · rw [h1' hl] at h1; simpa using h1.holds
  · cases f with
    | false => rw [h2 rfl]; exact hs
    | true =>
      obtain ⟨w, n, _, _, _, _, k5, k6, _⟩ := h4 rfl
      intro u hu
      rcases k5 u hu with hu | hu
      · exact hs u hu
      · exact k6 u hu
  · have := h3 hp
    cases f <;> simp_all
  · obtain ⟨w, n, k1, k2, ⟨d, k3, k3'⟩, _, _, _, k7, k8⟩ := h4 hf
    exact ⟨w, d, k1, ⟨_, k2, k3, k3'⟩, k7, k8⟩

theorem loadSField_dry {m : Mem} (h : Dry m) (s : RState) (f : SField) (v : Option String) :
    ∃ m', loadSField m s f v = (s, m') ∧ Dry m' := by
  cases v with
  | none => exact ⟨m, rfl, h⟩
  | some v =>
    obtain ⟨m1, h1, h2⟩ := strdup_dry h v
    refine ⟨m1, ?_, h2⟩
    simp [loadSField, setSField, setStr, h1, sput_get]

theorem loadUser_dry {m : Mem} (h : Dry m) (d : Doc) (v : Int) : ∃ m', loadUser m d v = (none, m') ∧ Dry m' := by
  unfold loadUser
  cases asStr (getItem d "Username") with
  | none => exact ⟨m, rfl, h⟩
  | some n =>
    obtain ⟨m1, h1, h2⟩ := strdup_dry h n
    obtain ⟨m2, h3, h4⟩ := alloc_dry h2
    exact ⟨m2, by simp [userNew, h1, h3, freeOpt, freeStr], h4⟩

theorem loadUsers_dry {m : Mem} (h : Dry m) (l : List Doc) (v : Int) (us : List RUser) :
    ∃ m', loadUsers m v us l = (us, m') ∧ Dry m' := by
  induction l generalizing m with
  | nil => exact ⟨m, rfl, h⟩
  | cons d l ih =>
    obtain ⟨m1, h1, h2⟩ := loadUser_dry h d v
    obtain ⟨m2, h3, h4⟩ := ih h2
    exact ⟨m2, by simp [loadUsers, h1, h3], h4⟩

/-- **C134 (load, violated).** Whatever document is loaded into whatever state: if it means a state and memory runs out
once it is parsed, the load answers success, and no user and no string of the document is in the state. A program that
stores the state afterwards deletes all users from the storage. -/
theorem C134_load_violated (m : Mem) (s : RState) (root : Doc) (w : IamState)
    (hw : stateFromJson (stateValue s) root = some w) (hm : m.ok m.asked = true)
    (hd : ∀ n, m.asked < n → m.ok n = false) :
    (loadState m s root).1 = true ∧ (loadState m s root).2.1.users = s.users ∧
      ∀ f, (loadState m s root).2.1.get f = s.get f := by
  unfold stateFromJson at hw
  unfold loadState
  have ha : alloc m = (some m.asked, { m with asked := m.asked + 1, live := m.asked :: m.live }) := by
    unfold alloc; rw [if_pos hm]
  simp only [ha]
  have hd0 : Dry { m with asked := m.asked + 1, live := m.asked :: m.live } := fun n hn => hd n hn
  generalize ({ m with asked := m.asked + 1, live := m.asked :: m.live } : Mem) = m0 at hd0
  cases ho : isObj (some root) with
  | false => simp [ho] at hw
  | true =>
    cases hv : asNum (getItem root "Version") with
    | none => simp [ho, hv] at hw
    | some v =>
      by_cases hgt : v > 2
      · simp [ho, hv, hgt] at hw
      · simp only [hgt, Bool.not_true, Bool.false_eq_true, if_false]
        obtain ⟨m1, e1, d1⟩ := loadSField_dry hd0 s .passwordOpenPassword (asStr (getItem root "OpenPairingPassword"))
        simp only [e1]
        obtain ⟨m2, e2, d2⟩ := loadSField_dry d1 s .passwordOpenSct (asStr (getItem root "OpenPairingSct"))
        simp only [e2]
        generalize (asBool (getItem root "LocalOpenPairing")).getD s.localOpenPairing = b1
        generalize (asBool (getItem root "PasswordOpenPairing")).getD s.passwordOpenPairing = b2
        generalize (asBool (getItem root "PasswordInvitePairing")).getD s.passwordInvitePairing = b3
        generalize (asBool (getItem root "LocalInitialPairing")).getD s.localInitialPairing = b4
        obtain ⟨m3, e3, d3⟩ := loadSField_dry d2 ⟨s.self, s.users, s.passwordOpenPassword, s.passwordOpenSct, b2, b1, b3,
          b4, s.openPairingRole, s.initialPairingUsername, s.friendlyName⟩ .initialPairingUsername
          (asStr (getItem root "InitialPairingUsername"))
        simp only [e3]
        obtain ⟨m4, e4, d4⟩ := loadSField_dry d3 ⟨s.self, s.users, s.passwordOpenPassword, s.passwordOpenSct, b2, b1, b3,
          b4, s.openPairingRole, s.initialPairingUsername, s.friendlyName⟩ .friendlyName
          (asStr (getItem root "FriendlyName"))
        simp only [e4]
        obtain ⟨m5, e5, d5⟩ := loadSField_dry d4 ⟨s.self, s.users, s.passwordOpenPassword, s.passwordOpenSct, b2, b1, b3,
          b4, s.openPairingRole, s.initialPairingUsername, s.friendlyName⟩ .openPairingRole
          (asStr (getItem root "OpenPairingRole"))
        simp only [e5]
        obtain ⟨m6, e6⟩ : ∃ m6, loadArray m5 v s.users (asArr (getItem root "Users")) = (s.users, m6) := by
          cases asArr (getItem root "Users") with
          | none => exact ⟨m5, rfl⟩
          | some l =>
            obtain ⟨m6, e6, _⟩ := loadUsers_dry d5 l v s.users
            exact ⟨m6, e6⟩
        simp only [e6]
        refine ⟨trivial, trivial, fun f => ?_⟩
        cases f <;> rfl

/-- **C134 (load, leak).** Every load of a document whose version is too high leaves a block of memory that nothing
refers to, whatever the state and the rest of the document are. -/
theorem C134_load_leak_violated (m : Mem) (s : RState) (root : Doc) (hm : m.ok m.asked = true)
    (hl : leaked root = true) :
    (loadState m s root).1 = false ∧ (loadState m s root).2.1 = s ∧
      (loadState m s root).2.2.live = m.asked :: m.live := by
  unfold leaked at hl
  simp only [Bool.and_eq_true] at hl
  obtain ⟨h1, h2⟩ := hl
  unfold loadState
  have ha : alloc m = (some m.asked, { m with asked := m.asked + 1, live := m.asked :: m.live }) := by
    unfold alloc; rw [if_pos hm]
  simp only [ha, h1]
  cases hv : asNum (getItem root "Version") with
  | none => simp [hv] at h2
  | some v =>
    rw [hv] at h2
    have : v > 2 := by simpa using h2
    simp only [this, Bool.not_true, Bool.false_eq_true, if_false, if_true]
    exact ⟨trivial, trivial, trivial⟩

/-! ## Non-trivial cases -/

/-- Memory where the requests with these numbers fail. -/
def mem (fails : List Nat) : Mem := { ok := fun n => !fails.contains n }

example (f : List Nat) : Holds (mem f) [] [] := ⟨List.Perm.refl _, by simp [mem], by simp [mem], rfl⟩

/-- A state with a user who has a role, a password, a category and a named fingerprint. -/
def sample : RState × Mem :=
  let m := mem []
  match stateNew m with
  | (none, m) => ({ self := 0 }, m)
  | (some s, m) =>
    match userNew m "admin" with
    | (none, m) => (s, m)
    | (some u, m) =>
      let (_, u, m) := calls m u [.field .role (some "Administrator"), .field .password (some "secret"),
        .addFp (some "aabb") (some "phone"), .categories ["Info", "Warn"], .field .password (some "better")]
      ({ s with users := [u] }, m)

example : (stateValue sample.1).users = [{
      addr := 0, username := "admin", role := some "Administrator", password := some "better"
      notificationCategories := ["Info", "Warn"], fingerprints := [⟨"aabb", some "phone"⟩] }] := by
  decide +kernel

example : (∀ u ∈ sample.1.users, WellFormed u) := by
  unfold WellFormed
  decide +kernel

example : sample.2.live.Perm (ofState sample.1) ∧ sample.2.live.Nodup ∧ sample.2.live.length = 10 := by
  decide +kernel

/-- The copy succeeds, and it fails without a leak when its seventh request fails. -/
example : ((stateCopy sample.2 sample.1).1.map stateValue = some (stateValue sample.1)) ∧
    (stateCopy { sample.2 with ok := fun n => n != sample.2.asked + 6 } sample.1).1 = none ∧
    (stateCopy { sample.2 with ok := fun n => n != sample.2.asked + 6 } sample.1).2.live = sample.2.live := by
  decide +kernel

/-- A setter that fails and one that succeeds. -/
example : (match userNew (mem [2]) "admin" with
    | (none, _) => ([], none)
    | (some u, m) =>
      let (rs, u, _) := calls m u [.field .password (some "one"), .field .role (some "Guest")]
      (rs, some (value u))) =
    ([false, true], some { addr := 0, username := "admin", role := some "Guest" }) := by decide +kernel

/-- A document with one user. -/
def doc : Doc := .obj [("Version", .num 2), ("FriendlyName", .str "Hall"), ("Users", .arr [.obj [
  ("Username", .str "admin"), ("Role", .str "Administrator"), ("Password", .str "secret")]])]

example : (stateFromJson {} doc).map (fun w => w.users) =
    some [{ addr := 0, username := "admin", role := some "Administrator", password := some "secret" }] := by
  decide +kernel

/-- One failing request, and the user is loaded without password. -/
example : (loadState { mem [5] with asked := 1, live := [0] } { self := 0 } doc).1 = true ∧
    (stateValue (loadState { mem [5] with asked := 1, live := [0] } { self := 0 } doc).2.1).users =
      [{ addr := 0, username := "admin", role := some "Administrator" }] := by
  decide +kernel

example : leaked (.obj [("Version", .num 3)]) = true := by decide +kernel

end Verif.Iam.Record.Props
