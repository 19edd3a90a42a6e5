import Verif.Iam.MachineFrame
import Verif.Iam.MachineSpec

/-!
# IAM histories — property theorems (C11, C12, C13, C14, C18, C19, C21, C23)
-/

namespace Verif.Iam

open Spec

/-! ### Helpers -/

theorem wellFormed_addrOk {iam : Iam} (h : WellFormed iam) : AddrOk iam := addrOk_of h.1 h.2
theorem addrOk_wellFormed {iam : Iam} (h : AddrOk iam) : WellFormed iam := ⟨h.lt, h.nodup⟩

/-- Induction over histories: well-formedness and an invariant. -/
theorem exec_inv {E : Env} {P : Iam → Ev → Prop} (I : Iam → Prop)
    (hstep : ∀ iam e iam', AddrOk iam → I iam → P iam e → step E iam e = some iam' → I iam')
    {iam iam' : Iam} {es : List Ev} (h : Exec E P iam es iam') (hw : AddrOk iam) (hi : I iam) :
    AddrOk iam' ∧ I iam' := by
  induction h with
  | nil => exact ⟨hw, hi⟩
  | cons iam iam1 iam2 e es hp hs _ ih =>
    exact ih (addrOk_step hw hs) (hstep _ _ _ hw hi hp hs)

/-- The operation does not change the limits beyond `M` for usernames, and loads only states with good
usernames. -/
def NamesBounded (M : Nat) : Ev → Prop
  | .api _ (.setLimits l) => l.usernameMax ≤ M
  | .api _ (.loadState _ st) => NamesOk M st.users
  | _ => True

theorem validateUsername_iff (s : String) : validateUsername s = true ↔ ValidName s := by
  have small : ∀ n : Fin 123, (('a' ≤ Char.ofNat n ∧ Char.ofNat n ≤ 'z') ∨
      ('0' ≤ Char.ofNat n ∧ Char.ofNat n ≤ '9') ∨ Char.ofNat n = '_' ∨ Char.ofNat n = '.' ∨
      Char.ofNat n = '-') → Char.ofNat n ∈ nameChars := by decide +kernel
  have large : ∀ c ∈ nameChars, ('a' ≤ c ∧ c ≤ 'z') ∨ ('0' ≤ c ∧ c ≤ '9') ∨ c = '_' ∨ c = '.' ∨ c = '-' := by
    decide +kernel
  have chr : ∀ c : Char, c ≤ 'z' → c = Char.ofNat c.toNat ∧ c.toNat < 123 := by
    intro c hc
    refine ⟨(Char.ofNat_toNat c).symm, ?_⟩
    have : c.val ≤ 'z'.val := hc
    have : c.val.toNat ≤ 122 := UInt32.le_iff_toNat_le.mp this
    exact Nat.lt_succ_of_le this
  have key : ∀ c : Char, (('a' ≤ c ∧ c ≤ 'z') ∨ ('0' ≤ c ∧ c ≤ '9') ∨ c = '_' ∨ c = '.' ∨ c = '-') ↔
      c ∈ nameChars := by
    intro c
    constructor
    · intro h
      have hz : c ≤ 'z' := by
        rcases h with h | h | h | h | h
        · exact h.2
        · have h9 : c.val ≤ '9'.val := h.2
          show c.val ≤ 'z'.val
          exact UInt32.le_trans h9 (by decide)
        all_goals (subst h; decide)
      obtain ⟨h1, h2⟩ := chr c hz
      have := small ⟨c.toNat, h2⟩
      simp only [Char.ofNat_toNat] at this
      exact this h
    · exact large c
  simp only [validateUsername, ValidName, Bool.and_eq_true, decide_eq_true_eq, ne_eq, List.all_eq_true,
    Bool.or_eq_true]
  constructor
  · rintro ⟨h1, h2⟩
    refine ⟨h1, fun c hc => (key c).mp ?_⟩
    have := h2 c hc
    simpa only [or_assoc] using this
  · rintro ⟨h1, h2⟩
    refine ⟨h1, fun c hc => ?_⟩
    have := (key c).mpr (h2 c hc)
    simpa only [or_assoc] using this

theorem freshen_map {β : Type} (g : User → β) (hg : ∀ u n, g { u with addr := n } = g u) (n : Nat)
    (us : List User) : (freshen n us).map g = us.map g := by
  induction us generalizing n with
  | nil => rfl
  | cons u us ih => simp [freshen, hg, ih]

theorem freshen_mem {n : Nat} {us : List User} {u : User} (h : u ∈ freshen n us) :
    ∃ w ∈ us, ∃ m, u = { w with addr := m } := by
  induction us generalizing n with
  | nil => simp [freshen] at h
  | cons w us ih =>
    simp only [freshen, List.mem_cons] at h
    rcases h with h | h
    · exact ⟨w, by simp, n, h⟩
    · obtain ⟨x, hx, m, hm⟩ := ih h
      exact ⟨x, by simp [hx], m, hm⟩

theorem freshen_length (n : Nat) (us : List User) : (freshen n us).length = us.length := by
  have := congrArg List.length (freshen_addr n us); simpa using this

theorem names_nodup_map {us : List User} {a : Nat} {u' : User} (hnd : (us.map User.username).Nodup)
    (haddr : ∀ u ∈ us, ∀ w ∈ us, u.addr = w.addr → u = w)
    (hfresh : (∃ u ∈ us, u.addr = a ∧ u'.username = u.username) ∨ ∀ w ∈ us, w.username ≠ u'.username)
    (hadn : (us.map User.addr).Nodup) :
    ((us.map (fun w => if w.addr = a then u' else w)).map User.username).Nodup := by
  rcases hfresh with ⟨u, hu, hua, hname⟩ | hfresh
  · have : (us.map (fun w => if w.addr = a then u' else w)).map User.username = us.map User.username := by
      rw [List.map_map]
      apply List.map_congr_left
      intro w hw
      simp only [Function.comp]
      split
      · rename_i h
        rw [hname, haddr w hw u hu (by rw [h, hua])]
      · rfl
    rw [this]; exact hnd
  · clear haddr
    induction us with
    | nil => simp
    | cons x xs ih =>
      simp only [List.map_cons, List.nodup_cons, List.mem_map] at hnd hadn ⊢
      have ih' := ih hnd.2 hadn.2 (fun w hw => hfresh w (List.mem_cons_of_mem _ hw))
      refine ⟨?_, ih'⟩
      rintro ⟨y, ⟨z, hz, rfl⟩, hy⟩
      by_cases hx : x.addr = a
      · rw [if_pos hx] at hy
        have hz' : z.addr ≠ a := fun h => hadn.1 ⟨z, hz, by rw [h, hx]⟩
        rw [if_neg hz'] at hy
        exact hfresh z (List.mem_cons_of_mem _ hz) hy
      · rw [if_neg hx] at hy
        by_cases hz' : z.addr = a
        · rw [if_pos hz'] at hy
          exact hfresh x (List.mem_cons_self ..) hy.symm
        · rw [if_neg hz'] at hy
          exact hnd.1 ⟨z, hz, hy⟩

/-! ## C11 -/

theorem names_step {E : Env} {M : Nat} {iam iam' : Iam} {e : Ev} (ha : AddrOk iam)
    (hn : NamesOk M iam.state.users) (hl : iam.limits.usernameMax ≤ M) (hb : NamesBounded M e)
    (h : step E iam e = some iam') : NamesOk M iam'.state.users := by
  have hu := step_users ha h
  generalize iam'.state.users = us at hu
  generalize iam'.nextAddr = n at hu
  cases hu with
  | keep => exact hn
  | add u hf =>
    refine ⟨?_, ?_, ?_⟩
    · rw [List.map_append, List.nodup_append]
      refine ⟨hn.distinct, by simp, ?_⟩
      intro a ha' b hb'
      simp only [List.mem_map] at ha'
      obtain ⟨w, hw, rfl⟩ := ha'
      simp at hb'; subst hb'
      exact hf.fresh w hw
    · intro w hw
      simp only [List.mem_append, List.mem_singleton] at hw
      rcases hw with hw | rfl
      · exact hn.valid w hw
      · exact (validateUsername_iff _).mp hf.valid
    · intro w hw
      simp only [List.mem_append, List.mem_singleton] at hw
      rcases hw with hw | rfl
      · exact hn.length w hw
      · exact Nat.le_trans hf.length hl
  | mod u u' hu hf =>
    refine ⟨names_nodup_map hn.distinct ha.inj ?_ ha.nodup, ?_, ?_⟩
    · rcases hf.name with h | ⟨_, _, h⟩
      · exact .inl ⟨u, hu, rfl, h⟩
      · exact .inr h
    · intro w hw
      simp only [List.mem_map] at hw
      obtain ⟨x, hx, rfl⟩ := hw
      split
      · rcases hf.name with h | ⟨h, _, _⟩
        · rw [h]; exact hn.valid u hu
        · exact (validateUsername_iff _).mp h
      · exact hn.valid x hx
    · intro w hw
      simp only [List.mem_map] at hw
      obtain ⟨x, hx, rfl⟩ := hw
      split
      · rcases hf.name with h | ⟨_, h, _⟩
        · rw [h]; exact hn.length u hu
        · exact Nat.le_trans h hl
      · exact hn.length x hx
  | delete u hu _ =>
    refine ⟨hn.distinct.sublist (List.Sublist.map _ List.filter_sublist), ?_, ?_⟩
    · intro w hw; exact hn.valid w (List.mem_filter.mp hw).1
    · intro w hw; exact hn.length w (List.mem_filter.mp hw).1
  | load d st he hv =>
    subst he
    have hst : NamesOk M st.users := hb
    refine ⟨?_, ?_, ?_⟩
    · rw [freshen_map User.username (fun _ _ => rfl)]; exact hst.distinct
    · intro w hw
      obtain ⟨x, hx, m, rfl⟩ := freshen_mem hw
      exact hst.valid x hx
    · intro w hw
      obtain ⟨x, hx, m, rfl⟩ := freshen_mem hw
      exact hst.length x hx

/-- C11: usernames stay pairwise different, non-empty, over the documented alphabet, and within every
bound `M` on the limits configured during the history. States loaded by the application must have good
usernames themselves (loading does not check it). -/
theorem C11_usernames_valid_and_unique (E : Env) (M : Nat) (iam iam' : Iam) (es : List Ev)
    (hw : WellFormed iam) (hn : NamesOk M iam.state.users) (hl : iam.limits.usernameMax ≤ M)
    (hb : ∀ e ∈ es, NamesBounded M e) (h : run E iam es = some iam') :
    NamesOk M iam'.state.users := by
  have ha := wellFormed_addrOk hw
  clear hw
  induction es generalizing iam with
  | nil => simp only [run, Option.some.injEq] at h; subst h; exact hn
  | cons e es ih =>
    simp only [run] at h
    split at h
    · cases h
    · rename_i x hx
      have hbe := hb e (List.mem_cons_self ..)
      refine ih x (names_step ha hn hl hbe hx) ?_ (fun e he => hb e (List.mem_cons_of_mem _ he)) h
        (addrOk_step ha hx)
      rcases step_limits hx with h | ⟨d, l, rfl, h⟩
      · rw [h]; exact hl
      · rw [h]; exact hbe

/-- A state with a user that has a client key of full length. -/
def k64 : String := "0123456789abcdef0123456789abcdef0123456789abcdef0123456789abcdef"

/-- Everything is allowed for everyone. -/
def openConf : Config :=
  { policies := [⟨"All", [⟨.allow, ["IAM:CreateUser", "IAM:DeleteUser", "IAM:SetUserUsername",
      "IAM:PairingLocalOpen", "IAM:PairingLocalInitial", "IAM:PairingPasswordInvite",
      "IAM:PairingPasswordOpen", "IAM:SetUserPassword", "IAM:SetUserFingerprint", "IAM:SetUserFcm",
      "IAM:SetDeviceInfo"], []⟩]⟩],
    roles := [⟨"Guest", ["All"]⟩, ⟨"User", ["All"]⟩], unpairedRole := some "Guest" }

/-- A state with two users. -/
def openState : IamState :=
  { users := [⟨0, "admin", none, some "User", none, none, none, none, [], none, [⟨k64, none⟩]⟩,
      ⟨1, "guest", none, some "User", some "secret", none, none, none, [], none, []⟩],
    localOpenPairing := true, passwordInvitePairing := true, localInitialPairing := true,
    initialPairingUsername := some "guest", openPairingRole := some "User" }

/-- A module with these users and room for no more. -/
def openIam : Iam :=
  { conf := openConf, state := openState, limits := { maxUsers := 2 }, nextAddr := 2, persisted := openState }

theorem openIam_wellFormed : WellFormed openIam := ⟨by decide, by decide⟩

instance (s : String) : Decidable (ValidName s) := inferInstanceAs (Decidable (_ ∧ _))

theorem openIam_names : NamesOk 64 openIam.state.users :=
  ⟨by decide, by decide +kernel, by decide +kernel⟩

/-- Renaming, creating and deleting users. -/
def renameRun : List Ev :=
  [.coap 5 {} (.setUsername "guest" (.value (.text "visitor"))),
   .api {} (.deleteUser "admin"),
   .api { newSct := some "tok" } (.createUser "guest")]

example : (run demoEnv openIam renameRun).map (fun i => i.state.users.map User.username) =
    some ["visitor", "guest"] := by decide +kernel
-- an existing name is refused
example : (run demoEnv openIam [.coap 5 {} (.setUsername "guest" (.value (.text "admin")))]).map
    (fun i => i.state.users.map User.username) = some ["admin", "guest"] := by decide +kernel
example : ∀ e ∈ renameRun, NamesBounded 64 e := by
  intro e he; simp [renameRun] at he; rcases he with rfl | rfl | rfl <;> trivial

/-! ## C12 -/

/-- The client key and name used by the pairing examples. -/
def k65 : String := "1123456789abcdef0123456789abcdef0123456789abcdef0123456789abcdef"

def pairDev : Dev :=
  { ci := { fingerprint := some k65, isLocal := true },
    ci2 := { fingerprint := some k65, isLocal := true }, newSct := some "tok" }

def pairReq : Req := .pairLocalOpen (.value (.map [("Username", .text "new")]))

/-- C12: the property fails. With a limit of two users and two users present, a local open pairing
request creates a third. -/
theorem C12_max_users_violated :
    openIam.limits.maxUsers = 2 ∧ openIam.state.users.length = 2 ∧
    (run demoEnv openIam [.coap 5 pairDev pairReq]).map (fun i => i.state.users.length) = some 3 := by
  decide +kernel

/-- C12, all other operations: no step other than an open pairing request makes the number of users
exceed the limit in force (or the number already there). Missing: open pairing. -/
theorem C12_max_users_partial (E : Env) (iam iam' : Iam) (e : Ev) (hw : WellFormed iam)
    (he : e.openPairing = false) (h : step E iam e = some iam') :
    iam'.state.users.length ≤ max iam.state.users.length iam.limits.maxUsers := by
  have hu := step_users (wellFormed_addrOk hw) h
  generalize iam'.state.users = us at hu
  generalize iam'.nextAddr = n at hu
  cases hu with
  | keep => exact Nat.le_max_left ..
  | add u hf =>
    have : iam.state.users.length < iam.limits.maxUsers := by
      rcases hf.room with h | h
      · exact h
      · rw [he] at h; cases h
    simp; omega
  | mod => simp; omega
  | delete u hu _ => exact Nat.le_trans (List.length_filter_le ..) (Nat.le_max_left ..)
  | load d st he hv =>
    simp only [validateState, Bool.and_eq_true, Bool.not_eq_true', decide_eq_false_iff_not, Nat.not_lt,
      gt_iff_lt] at hv
    rw [freshen_length]; omega

/-- C12 over histories: without open pairing requests, a bound on all limits ever configured bounds the
number of users. -/
theorem C12_max_users_history_partial (E : Env) (M : Nat) (iam iam' : Iam) (es : List Ev)
    (hw : WellFormed iam) (hn : iam.state.users.length ≤ M) (hl : iam.limits.maxUsers ≤ M)
    (hlim : ∀ d l, Ev.api d (.setLimits l) ∈ es → l.maxUsers ≤ M)
    (hopen : ∀ e ∈ es, e.openPairing = false) (h : run E iam es = some iam') :
    iam'.state.users.length ≤ M := by
  induction es generalizing iam with
  | nil => simp only [run, Option.some.injEq] at h; subst h; exact hn
  | cons e es ih =>
    simp only [run] at h
    split at h
    · cases h
    · rename_i x hx
      have h1 := C12_max_users_partial E iam x e hw (hopen e (List.mem_cons_self ..)) hx
      refine ih x (addrOk_wellFormed (addrOk_step (wellFormed_addrOk hw) hx)) (by omega) ?_
        (fun d l hd => hlim d l (List.mem_cons_of_mem _ hd))
        (fun e he => hopen e (List.mem_cons_of_mem _ he)) h
      rcases step_limits hx with h | ⟨d, l, rfl, h⟩
      · rw [h]; exact hl
      · rw [h]; exact hlim d l (List.mem_cons_self ..)

-- creating a user at the limit is refused, below the limit it succeeds
example : (run demoEnv openIam [.coap 5 { newSct := some "t" } (.createUser (.value (.map [("Username", .text "x")])))]).map
    (fun i => i.state.users.length) = some 2 := by decide +kernel
example : (run demoEnv { openIam with limits := {} }
    [.coap 5 { newSct := some "t" } (.createUser (.value (.map [("Username", .text "x")])))]).map
    (fun i => i.state.users.length) = some 3 := by decide +kernel

/-! ## C13 -/

/-- The module accepts the state: `nm_iam_load_state` with the same limits and categories succeeds. -/
def Accepts (iam : Iam) (st : IamState) : Prop := ∀ d, ∃ iam', api iam d (.loadState true st) = .ok (iam', .ok)

theorem accepts_iff (iam : Iam) (st : IamState) :
    Accepts iam st ↔ validateState iam.limits iam.categories st = true := by
  have key : (loadState iam true st).2 = validateState iam.limits iam.categories st := by
    unfold loadState
    cases validateState iam.limits iam.categories st <;> rfl
  constructor
  · intro h
    obtain ⟨x, hx⟩ := h {}
    simp only [api, key, Res.ok.injEq, Prod.mk.injEq] at hx
    cases hv : validateState iam.limits iam.categories st with
    | true => rfl
    | false => rw [hv] at hx; simp at hx
  · intro h d
    refine ⟨(loadState iam true st).1, ?_⟩
    simp only [api, key, h, Res.ok.injEq, Prod.mk.injEq]
    simp

/-- C13: the property fails. A permitted client can store a key of any length for a user, and the state
is then refused when it is loaded again. -/
theorem C13_reload_fingerprint_violated :
    Accepts openIam openIam.state ∧
    ∃ iam', run demoEnv openIam [.coap 5 {} (.addFingerprint "guest" "short" (.value (.map [])))] = some iam' ∧
      ¬ Accepts iam' iam'.state := by
  refine ⟨(accepts_iff _ _).mpr (by decide +kernel), _, rfl, ?_⟩
  rw [accepts_iff]; decide +kernel

/-- C13: the same through a pairing request above the user limit. -/
theorem C13_reload_pairing_violated :
    Accepts openIam openIam.state ∧
    ∃ iam', run demoEnv openIam [.coap 5 pairDev pairReq] = some iam' ∧ ¬ Accepts iam' iam'.state := by
  refine ⟨(accepts_iff _ _).mpr (by decide +kernel), _, rfl, ?_⟩
  rw [accepts_iff]; decide +kernel

/-- The conditions under which C13 holds: stored client keys have 64 characters, tokens generated for
users created through the API are within the limit, open pairing only happens below the user limit, and
limits and categories are not changed after loading. -/
def Careful (iam : Iam) (e : Ev) : Prop :=
  e.keyLengthOk = true ∧ e.sctLengthOk iam.limits = true ∧
  (e.openPairing = true → iam.state.users.length < iam.limits.maxUsers) ∧
  (∀ d l, e ≠ .api d (.setLimits l)) ∧ (∀ d c, e ≠ .api d (.setNotificationCategories c))

theorem validateUser_addr (l : Limits) (cats : List String) (u : User) (n : Nat) :
    validateUser l cats { u with addr := n } = validateUser l cats u := rfl

theorem validateState_step {E : Env} {iam iam' : Iam} {e : Ev} (ha : AddrOk iam)
    (hv : validateState iam.limits iam.categories iam.state = true) (hc : Careful iam e)
    (h : step E iam e = some iam') :
    validateState iam'.limits iam'.categories iam'.state = true := by
  obtain ⟨hk, hsct, hroom, hnl, hnc⟩ := hc
  have hlim : iam'.limits = iam.limits := by
    rcases step_limits h with h | ⟨d, l, rfl, _⟩
    · exact h
    · exact absurd rfl (hnl d l)
  have hcat : iam'.categories = iam.categories := by
    rcases step_categories h with h | ⟨d, l, rfl⟩
    · exact h
    · exact absurd rfl (hnc d l)
  rw [hlim, hcat]
  have hu := step_users ha h
  have users : iam'.state.users.length ≤ iam.limits.maxUsers ∧
      ∀ u ∈ iam'.state.users, validateUser iam.limits iam.categories u = true := by
    simp only [validateState, Bool.and_eq_true, Bool.not_eq_true', decide_eq_false_iff_not, Nat.not_lt,
      gt_iff_lt, List.all_eq_true] at hv
    obtain ⟨⟨⟨⟨⟨h1, _⟩, _⟩, _⟩, _⟩, h6⟩ := hv
    generalize iam'.state.users = us at hu
    generalize iam'.nextAddr = n at hu
    cases hu with
    | keep => exact ⟨h1, h6⟩
    | add u hf =>
      constructor
      · have : iam.state.users.length < iam.limits.maxUsers := by
          rcases hf.room with h | h
          · exact h
          · exact hroom h
        simp; omega
      · intro w hw
        simp only [List.mem_append, List.mem_singleton] at hw
        rcases hw with hw | rfl
        · exact h6 w hw
        · exact hf.ok hk hsct
    | mod u u' hu hf =>
      refine ⟨by simpa using h1, ?_⟩
      intro w hw
      simp only [List.mem_map] at hw
      obtain ⟨x, hx, rfl⟩ := hw
      split
      · exact hf.valid hk (h6 u hu)
      · exact h6 x hx
    | delete u hu _ =>
      exact ⟨Nat.le_trans (List.length_filter_le ..) h1, fun w hw => h6 w (List.mem_filter.mp hw).1⟩
    | load d st he hv =>
      simp only [validateState, Bool.and_eq_true, Bool.not_eq_true', decide_eq_false_iff_not, Nat.not_lt,
        gt_iff_lt, List.all_eq_true] at hv
      refine ⟨by rw [freshen_length]; exact hv.1.1.1.1.1, ?_⟩
      intro w hw
      obtain ⟨x, hx, m, rfl⟩ := freshen_mem hw
      rw [validateUser_addr]; exact hv.2 x hx
  rcases step_meta h with ⟨d, st, rfl, hst, hs⟩ | ⟨m1, m2, m3, m4⟩
  · simp only [validateState, Bool.and_eq_true, Bool.not_eq_true', decide_eq_false_iff_not, Nat.not_lt,
      gt_iff_lt, List.all_eq_true] at hst ⊢
    refine ⟨⟨⟨⟨⟨users.1, ?_⟩, ?_⟩, ?_⟩, ?_⟩, users.2⟩
    · rw [hs]; exact hst.1.1.1.1.2
    · rw [hs]; exact hst.1.1.1.2
    · rw [hs]; exact hst.1.1.2
    · rw [hs]; exact hst.1.2
  · simp only [validateState, Bool.and_eq_true, Bool.not_eq_true', decide_eq_false_iff_not, Nat.not_lt,
      gt_iff_lt, List.all_eq_true] at hv ⊢
    refine ⟨⟨⟨⟨⟨users.1, ?_⟩, ?_⟩, ?_⟩, ?_⟩, users.2⟩
    · rw [m1]; exact hv.1.1.1.1.2
    · rw [m2]; exact hv.1.1.1.2
    · rw [m3]; exact hv.1.1.2
    · rcases m4 with m4 | m4
      · rw [m4]; exact hv.1.2
      · exact m4

/-- C13, careful histories: at every point of such a history the state can be loaded again.
Missing: the operations `Careful` excludes, for which it is false. -/
theorem C13_reload_partial (E : Env) (iam iam' : Iam) (es : List Ev) (hw : WellFormed iam)
    (hv : Accepts iam iam.state) (h : Exec E Careful iam es iam') : Accepts iam' iam'.state := by
  rw [accepts_iff] at hv ⊢
  exact (exec_inv (I := fun i => validateState i.limits i.categories i.state = true)
    (fun _ _ _ ha hi hp hs => validateState_step ha hi hp hs) h (wellFormed_addrOk hw) hv).2

example : Exec demoEnv Careful openIam [.api {} (.setUserPassword "admin" "longer password"),
    .coap 5 {} (.addFingerprint "guest" k65 (.value (.map []))), .api {} (.deleteUser "admin"),
    .coap 5 pairDev (.pairLocalOpen (.value (.map [("Username", .text "new")])))]
    ((run demoEnv openIam [.api {} (.setUserPassword "admin" "longer password"),
    .coap 5 {} (.addFingerprint "guest" k65 (.value (.map []))), .api {} (.deleteUser "admin"),
    .coap 5 pairDev (.pairLocalOpen (.value (.map [("Username", .text "new")])))]).getD openIam) := by
  refine .cons _ _ _ _ _ ⟨by decide +kernel, by decide +kernel, by decide +kernel, by simp, by simp⟩ rfl ?_
  refine .cons _ _ _ _ _ ⟨by decide +kernel, by decide +kernel, by decide +kernel, by simp, by simp⟩ rfl ?_
  refine .cons _ _ _ _ _ ⟨by decide +kernel, by decide +kernel, by decide +kernel, by simp, by simp⟩ rfl ?_
  refine .cons _ _ _ _ _ ⟨by decide +kernel, by decide +kernel, by decide +kernel, by simp, by simp⟩ rfl ?_
  exact .nil _

/-! ## C14 -/

/-- C14: the property fails. The application can register one client key for two users; nothing checks. -/
theorem C14_unique_keys_api_violated :
    KeysUnique openIam.state.users ∧
    ∃ iam', run demoEnv openIam [.api {} (.addUserFingerprint "guest" k64 (some "phone"))] = some iam' ∧
      ¬ KeysUnique iam'.state.users := by
  refine ⟨?_, _, rfl, ?_⟩
  · intro u hu w hw fp h1 h2
    simp only [openIam, openState, List.mem_cons, List.not_mem_nil, or_false] at hu hw
    rcases hu with rfl | rfl <;> rcases hw with rfl | rfl <;> simp [Owns] at h1 h2 ⊢
  · intro h
    have := h ⟨0, "admin", none, some "User", none, none, none, none, [], none, [⟨k64, none⟩]⟩ (by decide +kernel)
      ⟨1, "guest", none, some "User", some "secret", none, none, none, [], none, [⟨k64, some "phone"⟩]⟩
      (by decide +kernel) k64 ⟨_, List.mem_singleton.mpr rfl, rfl⟩ ⟨_, List.mem_singleton.mpr rfl, rfl⟩
    simp at this

/-- C14: it also fails without the API. A client whose key belongs to one user can pair as the initial
user as well. -/
theorem C14_unique_keys_pairing_violated :
    ∃ iam', run demoEnv openIam [.coap 5
        { ci := { fingerprint := some k64, isLocal := true }, ci2 := { fingerprint := some k64, isLocal := true } }
        (.pairLocalInitial .notCbor)] = some iam' ∧ ¬ KeysUnique iam'.state.users := by
  refine ⟨_, rfl, ?_⟩
  intro h
  have := h ⟨0, "admin", none, some "User", none, none, none, none, [], none, [⟨k64, none⟩]⟩ (by decide +kernel)
    ⟨1, "guest", none, some "User", some "secret", none, none, none, [], none, [⟨k64, none⟩]⟩
    (by decide +kernel) k64 ⟨_, List.mem_singleton.mpr rfl, rfl⟩ ⟨_, List.mem_singleton.mpr rfl, rfl⟩
  simp at this

/-- C14 for all operations except the fingerprint functions of the API and local initial pairing, and
for loads of states that satisfy it: a client key stays registered for at most one user. -/
theorem C14_unique_keys_partial (E : Env) (iam iam' : Iam) (es : List Ev) (hw : WellFormed iam)
    (hk : KeysUnique iam.state.users)
    (h : Exec E (fun _ e => e.uncheckedKey = false ∧
      ∀ d b st, e = .api d (.loadState b st) → ∀ n, KeysUnique (freshen n st.users)) iam es iam') :
    KeysUnique iam'.state.users := by
  refine (exec_inv (I := fun i => KeysUnique i.state.users) ?_ h (wellFormed_addrOk hw) hk).2
  clear h hk hw
  intro iam e iam' ha hk ⟨hp, hload⟩ h
  have hu := step_users ha h
  show KeysUnique iam'.state.users
  generalize iam'.state.users = us at hu
  generalize iam'.nextAddr = n at hu
  cases hu with
  | keep => exact hk
  | add u hf =>
    intro x hx y hy fp h1 h2
    simp only [List.mem_append, List.mem_singleton] at hx hy
    rcases hx with hx | rfl <;> rcases hy with hy | rfl
    · exact hk x hx y hy fp h1 h2
    · exact absurd h1 (hf.keys fp h2 x hx)
    · exact absurd h2 (hf.keys fp h1 y hy)
    · rfl
  | mod u u' hu hf =>
    have old : ∀ x ∈ iam.state.users, x.addr ≠ u.addr → ∀ fp, Owns fp u' → Owns fp x → False := by
      intro x hx hne fp h1 h2
      rcases hf.keys fp h1 with h | h | h
      · exact hne (hk x hx u hu fp h2 h)
      · rw [hp] at h; cases h
      · exact h x hx h2
    intro x hx y hy fp h1 h2
    simp only [List.mem_map] at hx hy
    obtain ⟨x, hx, rfl⟩ := hx
    obtain ⟨y, hy, rfl⟩ := hy
    by_cases hxa : x.addr = u.addr
    · rw [if_pos hxa] at h1 ⊢
      by_cases hya : y.addr = u.addr
      · rw [if_pos hya]
      · rw [if_neg hya] at h2; exact absurd h2 (old y hy hya fp h1)
    · rw [if_neg hxa] at h1 ⊢
      by_cases hya : y.addr = u.addr
      · rw [if_pos hya] at h2; exact absurd h1 (old x hx hxa fp h2)
      · rw [if_neg hya] at h2 ⊢; exact hk x hx y hy fp h1 h2
  | delete u hu _ =>
    intro x hx y hy
    exact hk x (List.mem_filter.mp hx).1 y (List.mem_filter.mp hy).1
  | load d st he hv => exact hload d _ st he _

example : ∃ iam', Exec demoEnv (fun _ e => e.uncheckedKey = false ∧
      ∀ d b st, e = .api d (.loadState b st) → ∀ n, KeysUnique (freshen n st.users)) openIam
      [.coap 5 {} (.addFingerprint "guest" k65 (.value (.map []))),
       .coap 5 {} (.setFingerprint "guest" (.value (.text k64)))] iam' ∧
      iam'.state.users.map (fun u => u.fingerprints.map Fp.fingerprint) = [[k64], [k65]] :=
  ⟨_, .cons _ _ _ _ _ ⟨rfl, by simp⟩ rfl (.cons _ _ _ _ _ ⟨rfl, by simp⟩ rfl (.nil _)), by decide +kernel⟩

/-! ## C18 -/

/-- A connection authorised as `guest`, then `guest` is deleted, then the connection makes a request. -/
def danglingRun : List Ev :=
  [.api {} (.authorizeConnection 7 "guest"), .api {} (.deleteUser "guest"),
   .coap 7 { ci := { fingerprint := some "unknown" } } (.deleteUser "admin")]

/-- C18: the property fails. The access check of a connection authorised as a user that has been deleted
uses the freed user object. -/
theorem C18_deleted_user_violated :
    (run demoEnv openIam (danglingRun.take 2)).isSome = true ∧ run demoEnv openIam danglingRun = none := by
  decide +kernel

/-- C18: a deleted user object is gone for good: whatever happens afterwards, a connection is never
treated as that user object. -/
theorem C18_deleted_user_gone (E : Env) (iam iam' : Iam) (es : List Ev) (a : Nat) (hw : WellFormed iam)
    (ha : a < iam.nextAddr) (hgone : ∀ u ∈ iam.state.users, u.addr ≠ a) (h : run E iam es = some iam')
    (ci : ConnInfo) (ref : Nat) (w : User) (hact : actingUser iam' ci ref = .ok (some w)) : w.addr ≠ a := by
  have inv : ∀ (es : List Ev) (iam : Iam), AddrOk iam → a < iam.nextAddr →
      (∀ u ∈ iam.state.users, u.addr ≠ a) → run E iam es = some iam' →
      ∀ u ∈ iam'.state.users, u.addr ≠ a := by
    intro es
    induction es with
    | nil => intro iam _ _ hg h; simp only [run, Option.some.injEq] at h; subst h; exact hg
    | cons e es ih =>
      intro iam hao ha hg h
      simp only [run] at h
      split at h
      · cases h
      · rename_i x hx
        have hu := step_users hao hx
        have hao' := addrOk_step hao hx
        have key : a < x.nextAddr ∧ ∀ u ∈ x.state.users, u.addr ≠ a := by
          generalize x.state.users = us at hu
          generalize x.nextAddr = n at hu
          cases hu with
          | keep n hn => exact ⟨by omega, hg⟩
          | add u hf =>
            refine ⟨by omega, ?_⟩
            intro w hw
            simp only [List.mem_append, List.mem_singleton] at hw
            rcases hw with hw | rfl
            · exact hg w hw
            · rw [hf.addr]; omega
          | mod u u' hu hf =>
            refine ⟨ha, ?_⟩
            intro w hw
            simp only [List.mem_map] at hw
            obtain ⟨y, hy, rfl⟩ := hw
            split
            · rw [hf.addr]; exact hg u hu
            · exact hg y hy
          | delete u hu _ => exact ⟨ha, fun w hw => hg w (List.mem_filter.mp hw).1⟩
          | load d st he hv =>
            refine ⟨by omega, ?_⟩
            intro u hu
            have : u.addr ∈ (freshen iam.nextAddr st.users).map User.addr := List.mem_map_of_mem hu
            rw [freshen_addr, List.mem_range'_1] at this
            omega
        exact ih x hao' key.1 key.2 h
  have hmem : w ∈ iam'.state.users := by
    have := actingUser_actsAs iam' ci ref (some w) hact
    cases this with
    | key fp _ _ h => exact h.mem
    | password n _ _ _ _ h => exact h.mem
    | authorized c _ _ _ _ h => exact h.mem
  exact inv es iam (wellFormed_addrOk hw) ha hgone h w hmem

/-- C18: deleting a user removes its object (so that `C18_deleted_user_gone` applies to the result). -/
theorem C18_delete_removes (iam : Iam) (n : String) (u : User) (hw : WellFormed iam)
    (hu : FirstWith (fun u => u.username = n) iam.state.users u) (d : Dev) :
    ∃ iam', api iam d (.deleteUser n) = .ok (iam', .ok) ∧ u.addr < iam'.nextAddr ∧
      (∀ w ∈ iam'.state.users, w.addr ≠ u.addr) ∧
      ∀ w ∈ iam.state.users, w.addr ≠ u.addr → w ∈ iam'.state.users := by
  have hf : findUser iam.state (some n) = some u := (findUser_some _ _ _).mpr ⟨n, rfl, hu⟩
  refine ⟨hasChanged (eraseUser iam u.addr), ?_, ?_, ?_, ?_⟩
  · simp only [api, deleteUser, hf]
  · exact hw.allocated u hu.mem
  · intro w hw
    have := (List.mem_filter.mp hw).2
    simpa using this
  · intro w hw hne
    exact List.mem_filter.mpr ⟨hw, by simpa using hne⟩

theorem pointers_step {E : Env} {iam iam' : Iam} {e : Ev} (ha : AddrOk iam) (hp : PointersLive iam)
    (hk : KeepsPointers iam e) (h : step E iam e = some iam') : PointersLive iam' := by
  have hu := step_users ha h
  have live : ∀ c ∈ iam.authorized, (∃ u ∈ iam.state.users, u.addr = c.2) →
      ∃ u ∈ iam'.state.users, u.addr = c.2 := by
    intro c hc ⟨w, hw, hwc⟩
    generalize iam'.state.users = us at hu
    generalize iam'.nextAddr = n at hu
    cases hu with
    | keep => exact ⟨w, hw, hwc⟩
    | add u hf => exact ⟨w, List.mem_append_left _ hw, hwc⟩
    | mod u u' hu hf =>
      refine ⟨_, List.mem_map_of_mem hw, ?_⟩
      split
      · rename_i h; rw [hf.addr, ← h, hwc]
      · exact hwc
    | delete u hu hd =>
      have hne : ∀ c ∈ iam.authorized, c.2 ≠ u.addr := by
        unfold Ev.deletes at hd
        split at hd
        · exact hk u hu ((beq_iff_eq.mp hd).symm)
        · exact hk u hu ((beq_iff_eq.mp hd).symm)
        · cases hd
      refine ⟨w, List.mem_filter.mpr ⟨hw, ?_⟩, hwc⟩
      simp only [bne_iff_ne, ne_eq]
      intro h; exact hne c hc (by rw [← hwc, h])
    | load d st he hv =>
      subst he
      have : iam.authorized = [] := hk
      rw [this] at hc; simp at hc
  rcases step_authorized h with hau | ⟨d, ref, n, u, rfl, hu', hau⟩ | ⟨ref, rfl, hau⟩
  · intro c hc; rw [hau] at hc; exact live c hc (hp c hc)
  · intro c hc
    rw [hau] at hc
    simp only [List.mem_append, List.mem_singleton] at hc
    rcases hc with hc | rfl
    · exact live c hc (hp c hc)
    · have : iam'.state = iam.state := by
        obtain ⟨x, err, hx, hi⟩ := step_api h
        simp only [api, authorizeConnection, hu', Res.ok.injEq, Prod.mk.injEq] at hx
        rcases hi with rfl | ⟨_, _, h, _⟩
        · rw [← hx.1]
        · cases h
      rw [this]
      exact ⟨u, findUser_mem hu', rfl⟩
  · intro c hc
    rw [hau] at hc
    have hc' := List.mem_of_mem_eraseP hc
    exact live c hc' (hp c hc')

/-- C18, as long as no user is deleted (and no state is loaded) while a connection is authorised as that
user: the access check is defined for every connection after every such history. -/
theorem C18_no_dangling_partial (E : Env) (iam iam' : Iam) (es : List Ev) (hw : WellFormed iam)
    (hp : PointersLive iam) (h : Exec E KeepsPointers iam es iam') (ci : ConnInfo) (ref : Nat)
    (action : String) (attrs : Attrs) : checkAccess E iam' ci ref action attrs ≠ .ub := by
  have hlive := (exec_inv (I := PointersLive)
    (fun _ _ _ ha hi hp hs => pointers_step ha hi hp hs) h (wellFormed_addrOk hw) hp).2
  have hact : actingUser iam' ci ref ≠ .ub := by
    intro hub
    obtain ⟨_, _, c, hc, hno⟩ := (C08_identity_undefined _ _ _).mp hub
    obtain ⟨u, hu, he⟩ := hlive c hc.mem
    exact hno u hu he
  unfold checkAccess
  split
  · simp
  · split
    · rename_i hub; exact absurd hub hact
    · simp only; split <;> simp

example : ∃ iam', Exec demoEnv KeepsPointers openIam
    [.api {} (.authorizeConnection 7 "guest"), .api {} (.deleteUser "admin"), .closed 7,
     .api {} (.deleteUser "guest")] iam' ∧ iam'.state.users = [] := by
  refine ⟨_, .cons _ _ _ _ _ trivial rfl (.cons _ _ _ _ _ ?_ rfl (.cons _ _ _ _ _ trivial rfl
    (.cons _ _ _ _ _ ?_ rfl (.nil _)))), by decide +kernel⟩
  · show ∀ u ∈ _, _
    decide +kernel
  · show ∀ u ∈ _, _
    decide +kernel

/-! ## C19 -/

/-- C19: the property fails. A connection that was authorised twice keeps one authorisation after it is
closed. -/
theorem C19_authorization_ends_violated :
    (run demoEnv openIam [.api {} (.authorizeConnection 7 "guest"), .api {} (.authorizeConnection 7 "admin"),
      .closed 7]).map (fun i => i.authorized) = some [(7, 0)] := by decide +kernel

/-- C19: if connections are authorised at most once while open, closing a connection ends its
authorisation and no other one. -/
theorem C19_authorization_ends_partial (E : Env) (iam x iam' : Iam) (es : List Ev) (ref : Nat)
    (hw : WellFormed iam) (h0 : (iam.authorized.map Prod.fst).Nodup) (h : Exec E AuthorizesOnce iam es x)
    (hc : step E x (.closed ref) = some iam') :
    (∀ c ∈ iam'.authorized, c.1 ≠ ref) ∧ ∀ c ∈ x.authorized, c.1 ≠ ref → c ∈ iam'.authorized := by
  have hnd : (x.authorized.map Prod.fst).Nodup := by
    refine (exec_inv (I := fun i => (i.authorized.map Prod.fst).Nodup) ?_ h (wellFormed_addrOk hw) h0).2
    intro iam e iam' _ hnd hp hs
    show (iam'.authorized.map Prod.fst).Nodup
    rcases step_authorized hs with hau | ⟨d, ref, n, u, rfl, _, hau⟩ | ⟨ref, rfl, hau⟩
    · rw [hau]; exact hnd
    · rw [hau, List.map_append, List.nodup_append]
      refine ⟨hnd, by simp, ?_⟩
      intro a ha b hb
      simp only [List.mem_map] at ha
      obtain ⟨c, hc, rfl⟩ := ha
      simp at hb; subst hb
      exact hp c hc
    · rw [hau]; exact hnd.sublist (List.Sublist.map _ List.eraseP_sublist)
  simp only [step, Option.some.injEq] at hc
  subst hc
  simp only [connectionClosed]
  constructor
  · intro c hc hcr
    generalize x.authorized = l at hnd hc
    induction l with
    | nil => simp at hc
    | cons y ys ih =>
      simp only [List.map_cons, List.nodup_cons, List.mem_map] at hnd
      by_cases hy : y.1 = ref
      · rw [List.eraseP_cons_of_pos (by simpa using hy)] at hc
        exact hnd.1 ⟨c, hc, by rw [hcr, hy]⟩
      · rw [List.eraseP_cons_of_neg (by simpa using hy)] at hc
        simp only [List.mem_cons] at hc
        rcases hc with rfl | hc
        · exact hy hcr
        · exact ih hnd.2 hc
  · intro c hc hcr
    exact (List.mem_eraseP_of_neg (by simpa using hcr)).mpr hc

example : ∃ x, Exec demoEnv AuthorizesOnce openIam
    [.api {} (.authorizeConnection 7 "guest"), .api {} (.authorizeConnection 8 "admin"), .closed 7,
     .api {} (.authorizeConnection 7 "admin")] x ∧ x.authorized = [(8, 0), (7, 0)] := by
  refine ⟨_, .cons _ _ _ _ _ ?_ rfl (.cons _ _ _ _ _ ?_ rfl (.cons _ _ _ _ _ trivial rfl
    (.cons _ _ _ _ _ ?_ rfl (.nil _)))), by decide +kernel⟩
  all_goals (show ∀ c ∈ _, _; decide +kernel)

/-! ## C21 -/

/-- Two clients that both proved the invitation password before either pairs. -/
def inviteDev (k : String) : Dev :=
  { ci := { fingerprint := some k, pwAuth := true, pwUser := some "guest" },
    ci2 := { fingerprint := some k, pwAuth := true, pwUser := some "guest" } }

/-- C21: the property fails. Two clients that have both authenticated with the invitation password can
both pair as the invited user: the second one after the password was cleared. -/
theorem C21_invite_once_violated :
    (run demoEnv openIam [.coap 5 (inviteDev k65) (.pairPasswordInvite .missing)]).map
      (fun i => i.state.users.map User.password) = some [none, none] ∧
    (run demoEnv openIam [.coap 5 (inviteDev k65) (.pairPasswordInvite .missing),
      .coap 6 (inviteDev "other") (.pairPasswordInvite .missing)]).map
      (fun i => i.state.users.map (fun u => u.fingerprints.map Fp.fingerprint)) =
      some [[k64], [k65, "other"]] := by decide +kernel

/-- C21: a successful invite pairing clears the password of the invited user. -/
theorem C21_invite_clears_password (E : Env) (iam iam' : Iam) (d : Dev) (ref : Nat) (p : Payload)
    (hw : WellFormed iam) (h : handle E iam d ref (.pairPasswordInvite p) = .done iam' 201)
    (hnew : iam'.state ≠ iam.state) :
    ∃ n u, d.ci2.pwAuth = true ∧ d.ci2.pwUser = some n ∧ FirstWith (fun u => u.username = n) iam.state.users u ∧
      ∀ w ∈ iam'.state.users, w.addr = u.addr → w.password = none := by
  simp only [handle, hPairPasswordInvite] at h
  split at h
  · exact absurd (congrArg Iam.state (done_inj h).1) hnew
  rcases withAccess_done h with ⟨rfl, _⟩ | ⟨_, h⟩
  · exact absurd rfl hnew
  split at h
  · exact absurd (congrArg Iam.state (done_inj h).1) hnew
  rename_i hpw
  split at h
  · exact absurd (congrArg Iam.state (done_inj h).1) hnew
  rename_i username hun
  split at h
  · exact absurd (congrArg Iam.state (done_inj h).1) hnew
  rename_i u hu
  refine ⟨username, u, by simpa using hpw, hun, ?_, ?_⟩
  · obtain ⟨m, hm, hf⟩ := (findUser_some _ _ _).mp hu
    injection hm with hm; subst hm; exact hf
  split at h
  · exact absurd (congrArg Iam.state (done_inj h).1) hnew
  split at h
  · split at h <;> exact absurd (congrArg Iam.state (done_inj h).1) hnew
  split at h
  · exact absurd (congrArg Iam.state (done_inj h).1) hnew
  split at h
  · exact absurd (congrArg Iam.state (done_inj h).1) hnew
  rename_i u' hu'
  obtain ⟨rfl, _⟩ := done_inj h
  intro w hw ha
  simp only [hasChanged, updUser, List.mem_map] at hw
  obtain ⟨x, hx, rfl⟩ := hw
  by_cases hxa : x.addr = u.addr
  · rw [if_pos hxa]
  · rw [if_neg hxa] at ha; exact absurd ha hxa

/-- C21: once the password of a user is cleared, no history without setting a password for that user
(under the name it has then) brings a password back; so nobody can prove the invitation password any
more. Missing: clients that have proved it before. -/
theorem C21_invite_once_partial (E : Env) (iam iam' : Iam) (es : List Ev) (a : Nat) (hw : WellFormed iam)
    (ha : a < iam.nextAddr) (hnone : ∀ u ∈ iam.state.users, u.addr = a → u.password = none)
    (h : Exec E (fun i e => ∀ u ∈ i.state.users, u.addr = a → e.setsPassword u.username = false) iam es iam') :
    ∀ n u, FirstWith (fun u => u.username = n) iam'.state.users u → u.addr = a → n ≠ "" →
      pakePassword iam'.state n = none := by
  have inv := (exec_inv (I := fun i => a < i.nextAddr ∧ ∀ u ∈ i.state.users, u.addr = a → u.password = none)
    ?_ h (wellFormed_addrOk hw) ⟨ha, hnone⟩).2.2
  · intro n u hu hua hn
    unfold pakePassword
    rw [if_neg hn]
    have : findUser iam'.state (some n) = some u := (findUser_some _ _ _).mpr ⟨n, rfl, hu⟩
    rw [this]
    exact inv u hu.mem hua
  · clear h hnone ha hw
    intro iam e iam' hao ⟨ha, hnone⟩ hp hs
    have hu := step_users hao hs
    show a < iam'.nextAddr ∧ ∀ u ∈ iam'.state.users, u.addr = a → u.password = none
    generalize iam'.state.users = us at hu
    generalize iam'.nextAddr = n at hu
    cases hu with
    | keep n hn => exact ⟨by omega, hnone⟩
    | add u hf =>
      refine ⟨by omega, ?_⟩
      intro w hw hwa
      simp only [List.mem_append, List.mem_singleton] at hw
      rcases hw with hw | rfl
      · exact hnone w hw hwa
      · exact hf.password
    | mod u u' hu hf =>
      refine ⟨ha, ?_⟩
      intro w hw hwa
      simp only [List.mem_map] at hw
      obtain ⟨x, hx, rfl⟩ := hw
      by_cases hxa : x.addr = u.addr
      · rw [if_pos hxa] at hwa ⊢
        have hua : u.addr = a := by rw [← hf.addr]; exact hwa
        rcases hf.password with h | h | h
        · exact h
        · rw [h]; exact hnone u hu hua
        · rw [hp u hu hua] at h; cases h
      · rw [if_neg hxa] at hwa ⊢; exact hnone x hx hwa
    | delete u hu _ => exact ⟨ha, fun w hw => hnone w (List.mem_filter.mp hw).1⟩
    | load d st he hv =>
      refine ⟨by omega, ?_⟩
      intro u hu hua
      have : u.addr ∈ (freshen iam.nextAddr st.users).map User.addr := List.mem_map_of_mem hu
      rw [freshen_addr, List.mem_range'_1] at this
      omega

example : ∃ i, Exec demoEnv (fun i e => ∀ u ∈ i.state.users, u.addr = 0 → e.setsPassword u.username = false)
    openIam [.coap 5 {} (.setUsername "admin" (.value (.text "boss"))),
      .api {} (.setUserPassword "guest" "qwerty")] i ∧ pakePassword i.state "boss" = none ∧
    pakePassword i.state "guest" = some "qwerty" := by
  refine ⟨_, .cons _ _ _ _ _ (by decide +kernel) rfl (.cons _ _ _ _ _ (by decide +kernel) rfl (.nil _)), ?_⟩
  decide +kernel

/-! ## C23 -/

/-- C23: the property fails. After `nm_iam_create_user` the state has changed and no thread is going to
report it: the application is not told. -/
theorem C23_reported_api_violated :
    Reported openIam ∧
    ∃ iam', run demoEnv openIam [.api {} (.setUserPassword "guest" "new password")] = some iam' ∧
      ¬ Reported iam' ∧ run demoEnv iam' [.callbacks, .callbacks] = some iam' := by
  refine ⟨.inl (by decide +kernel), _, rfl, ?_, by decide +kernel⟩
  rintro (h | h)
  · revert h; decide +kernel
  · revert h; decide +kernel

theorem reported_coap {iam x : Iam} (hf : Frame iam x) (h : Reported iam) :
    Reported { x with due := x.due + 1 } := by
  rcases hf.changed with hs | hc
  · rcases h with h | ⟨h1, h2⟩
    · left
      show x.persisted = x.state
      rw [hf.persisted, hs]; exact h
    · right; exact ⟨hf.mono h1, Nat.succ_pos _⟩
  · right; exact ⟨hc, Nat.succ_pos _⟩

theorem reported_step {E : Env} {iam iam' : Iam} {e : Ev} (hr : Reported iam) (he : Reports e = true)
    (h : step E iam e = some iam') : Reported iam' := by
  cases e with
  | coap ref d r =>
    obtain ⟨x, c, hx, rfl⟩ := step_coap h
    exact reported_coap (handle_frame hx) hr
  | closed ref => simp only [step, Option.some.injEq] at h; subst h; exact hr
  | callbacks =>
    simp only [step, Option.some.injEq] at h; subst h
    unfold doCallbacks
    split
    · exact hr
    · rename_i hd
      simp only
      split
      · exact .inl rfl
      · rename_i hc
        rcases hr with hr | ⟨h1, _⟩
        · exact .inl hr
        · exact absurd h1 hc
  | api d op =>
    obtain ⟨x, err, hx, hi⟩ := step_api h
    cases op <;> first | (exfalso; simp [Reports] at he; done) | skip
    all_goals simp only [api, Res.ok.injEq, Prod.mk.injEq] at hx
    case authorizeConnection ref n =>
      rcases hi with rfl | ⟨_, _, h, _⟩
      · simp only [authorizeConnection] at hx
        split at hx <;> (injection hx with hx _; rw [← hx]; exact hr)
      · cases h
    case loadState b st =>
      rcases hi with rfl | ⟨_, _, h, _, rfl⟩
      · simp only [step, api] at h
        by_cases hok : (loadState iam b st).2 = true
        · rw [if_pos (by simp [hok])] at h
          injection h with h
          left; rw [← h]
        · have : iam' = iam := by
            rw [← hx.1]
            unfold loadState at hok ⊢
            split
            · rfl
            · rename_i hv; rw [if_neg hv] at hok; simp at hok
          rw [this]; exact hr
      · exact .inl rfl
    case loadConfiguration c =>
      rcases hi with rfl | ⟨_, _, h, _⟩
      · rw [← hx.1]; unfold loadConfiguration; split <;> exact hr
      · cases h
    case setNotificationCategories c =>
      rcases hi with rfl | ⟨_, _, h, _⟩
      · rw [← hx.1]; exact hr
      · cases h
    case setLimits c =>
      rcases hi with rfl | ⟨_, _, h, _⟩
      · rw [← hx.1]; exact hr
      · cases h
    all_goals (
      rcases hi with rfl | ⟨_, _, h, _⟩
      · rw [← hx.1]; exact .inr ⟨rfl, Nat.succ_pos _⟩
      · cases h)

/-- C23 for histories of CoAP requests, pairing mode changes, loads and connection events: at every
moment the application has the current state or a thread is on its way to report it; when no thread is
on its way the application has the current state. Missing: the functions of the user API. -/
theorem C23_reported_partial (E : Env) (iam iam' : Iam) (es : List Ev) (hr : Reported iam)
    (hes : ∀ e ∈ es, Reports e = true) (h : run E iam es = some iam') :
    Reported iam' ∧ (iam'.due = 0 → iam'.persisted = iam'.state) := by
  have hr' : Reported iam' := by
    induction es generalizing iam with
    | nil => simp only [run, Option.some.injEq] at h; subst h; exact hr
    | cons e es ih =>
      simp only [run] at h
      split at h
      · cases h
      · rename_i x hx
        exact ih x (reported_step hr (hes e (List.mem_cons_self ..)) hx)
          (fun e he => hes e (List.mem_cons_of_mem _ he)) h
  refine ⟨hr', fun hd => ?_⟩
  rcases hr' with h | ⟨_, h⟩
  · exact h
  · omega

example : ∃ iam', run demoEnv openIam [.coap 5 {} (.setPassword "guest" (.value (.text "other"))),
    .api {} (.setLocalOpenPairing false), .callbacks, .callbacks] = some iam' ∧ iam'.due = 0 ∧
    iam'.state ≠ openIam.state ∧ iam'.persisted = iam'.state := ⟨_, rfl, by decide +kernel⟩

end Verif.Iam
