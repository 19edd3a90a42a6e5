import Verif.Iam.PairingLemmas

/-!
# C149: who pairs with a password has proved the password of that pairing mode
-/

namespace Verif.Iam.Pairing

open Verif.Core.Spake2 (Conn isAuthenticated getUsername)
open Verif.Iam.Login (Sys info)
open Verif.Iam.Login.Spec (Idle Password attack)
open Verif.Iam.Spec (WellFormed OpenPaired TookEffect PairingOk IsPairing KeyIs OptTextAt Changes)
open Spec

/-- C149 does not hold for open pairing: whoever knows the password of some user `g`, and may as `g` use the resource, makes
a new user with the role of open pairing. The password of open pairing plays no part; also pairing by invitation need not
be enabled. -/
theorem C149_open_violated (E : Env) (s : Sys) (c : Nat) (k : Conn) (d : Dev) (g w f x : String)
    (hw : WellFormed s.iam) (h : Idle s c k) (hg : Password s.iam.state g w) (hn : g ≠ "")
    (hmode : s.iam.state.passwordOpenPairing = true) (hpw : s.iam.state.passwordOpenPassword.isSome = true)
    (hacc : checkAccess E s.iam { d.ci with pwAuth := true, pwUser := some g } c "IAM:PairingPasswordOpen" [] = .ok true)
    (hmem : d.allocOk = true) (hf : Unknown s.iam d f) (hx : Fresh s.iam d x) :
    ∃ iam', request E (Login.run s (prove s c g w)) c d (.pairPasswordOpen (.value (.map [("Username", .text x)]))) =
        .done iam' 201 ∧
      OpenPaired s.iam iam' (dev (Login.run s (prove s c g w)) c d) (.value (.map [("Username", .text x)])) x f := by
  obtain ⟨s', e, hi, _, k', hid, hka, hkn⟩ := prove_run h hg
  rw [e]
  obtain ⟨hA, hN, hI⟩ := info_of d.ci hid.conn hka hkn hn
  obtain ⟨_, _, hI2⟩ := info_of d.ci2 hid.conn hka hkn hn
  have hreq : ∀ r, request E s' c d r = handle E s.iam (dev s' c d) c r := by
    intro r
    unfold request
    rw [hN, if_neg (by simp), hi]
  obtain ⟨r, hr⟩ := hx.role
  obtain ⟨t, ht, htl⟩ := hx.sct
  have key : ∃ iam', handle E s.iam (dev s' c d) c (.pairPasswordOpen (.value (.map [("Username", .text x)]))) =
      .done iam' 201 := by
    have hposs : passwordOpenPossible E s.iam (dev s' c d).ci c = .ok true := by
      unfold passwordOpenPossible
      show (match checkAccess E s.iam (info s' c d.ci) c "IAM:PairingPasswordOpen" [] with
        | .ub => _
        | .ok a => _) = _
      rw [hI, hacc]
      simp [hmode, hpw, hr]
    have hx' : decodeKv (.map [("Username", .text x)]) "Username" = some (some x) := by
      simp [decodeKv, decodeString, hx.cstr]
      exact hx.size
    have hp' : decodeKv (.map [("Username", .text x)]) "Password" = none := by
      simp [decodeKv, List.lookup]
    have hpair : ∀ fn, ∃ i, pairNewClient s.iam (dev s' c d) (some x) (some f) fn = (i, .ok) := by
      intro fn
      unfold pairNewClient
      have h1 : (!validateUsername x || decide (strlen x > s.iam.limits.usernameMax)) = false := by
        have := hx.short
        simp [hx.valid]
        omega
      simp only [h1, hx.free, hf.none, hr]
      have h2 : (dev s' c d).newSct = some t := ht
      have h3 : (dev s' c d).addSctOk = true := hx.add
      have h4 : ¬ strlen t > s.iam.limits.sctMax := by omega
      simp [h2, h3, h4, addUser, allocUser]
    show ∃ i, hPairPasswordOpen E s.iam (dev s' c d) c (.value (.map [("Username", .text x)])) = .done i 201
    unfold hPairPasswordOpen
    simp only [hmode, hposs]
    have h5 : (dev s' c d).ci2 = { d.ci2 with pwAuth := true, pwUser := some g } := hI2
    obtain ⟨i, hpi⟩ := hpair ((decodeKv (.map [("Username", .text x)]) "FingerprintName").getD none)
    simp only [h5, withPayload, hx', hp', hf.fpOk, hf.key, hpi]
    exact ⟨i, rfl⟩
  obtain ⟨iam', hres⟩ := key
  refine ⟨iam', by rw [hreq]; exact hres, ?_⟩
  have := C58_success_took_effect_partial E s.iam iam' (dev s' c d) c _ 201 hw hmem hx.add hres (by decide)
  cases this with
  | pairPasswordOpen p n f' hT hK hO =>
    obtain ⟨kvs, t', h1, h2, h3⟩ := hT
    cases h1
    simp at h2
    subst h2
    rw [hx.cstr] at h3
    subst h3
    have hk2 : (dev s' c d).ci2.fingerprint = d.ci2.fingerprint := rfl
    have := hK.2
    rw [hk2, hf.key] at this
    cases this
    exact hO

/-- C149 does not hold for pairing by invitation: whoever knows the password of some user `g`, or the one of open pairing,
pairs a new key with any user `a` who may use the resource, also one who was not invited, and thereby is this user from
then on. -/
theorem C149_invite_violated (E : Env) (s : Sys) (c : Nat) (k : Conn) (d : Dev) (g a w f : String) (u : User)
    (hw : WellFormed s.iam) (h : Idle s c k) (hg : Password s.iam.state g w) (ha : a ≠ "")
    (hu : s.iam.state.users.find? (fun x => x.username == a) = some u)
    (hmode : s.iam.state.passwordInvitePairing = true)
    (hacc : checkAccess E s.iam { d.ci with pwAuth := true, pwUser := some a } c "IAM:PairingPasswordInvite" [] = .ok true)
    (hmem : d.allocOk = true) (hsct : d.addSctOk = true) (hf : Unknown s.iam d f) :
    ∃ iam', request E (Login.run s (attack s c g w a)) c d (.pairPasswordInvite .notCbor) = .done iam' 201 ∧
      Changes s.iam.state iam'.state a
        (fun u => { u with fingerprints := u.fingerprints ++ [⟨f, none⟩], password := none }) := by
  obtain ⟨s1, e1, i1, n1, k1, h1, hk1, _⟩ := prove_run h hg
  obtain ⟨s', e2, i2, _, h2⟩ := Login.ask_reply h1 a
  have er : Login.run s (attack s c g w a) = s' := by
    show Login.run (Login.run s (prove s c g w)) [_, _] = s'
    rw [e1, ← n1, e2]
  have hi : s'.iam = s.iam := by rw [i2, i1]
  rw [er]
  obtain ⟨hA, hN, hI⟩ := info_of d.ci h2.conn hk1 rfl ha
  obtain ⟨_, _, hI2⟩ := info_of d.ci2 h2.conn hk1 rfl ha
  have hreq : request E s' c d (.pairPasswordInvite .notCbor) =
      handle E s.iam (dev s' c d) c (.pairPasswordInvite .notCbor) := by
    unfold request
    rw [hN, if_neg (by simp), hi]
  have hu' : findUser s.iam.state (some a) = some u := hu
  have key : ∃ iam', handle E s.iam (dev s' c d) c (.pairPasswordInvite .notCbor) = .done iam' 201 := by
    show ∃ i, hPairPasswordInvite E s.iam (dev s' c d) c .notCbor = .done i 201
    unfold hPairPasswordInvite withAccess
    have h4 : (dev s' c d).ci = { d.ci with pwAuth := true, pwUser := some a } := hI
    have h5 : (dev s' c d).ci2 = { d.ci2 with pwAuth := true, pwUser := some a } := hI2
    have h6 : (dev s' c d).allocOk = true := hmem
    simp only [hmode, h4, hacc, h5, hu', hf.fpOk, hf.key, hf.none, h6, userAddFingerprint]
    exact ⟨_, rfl⟩
  obtain ⟨iam', hres⟩ := key
  refine ⟨iam', by rw [hreq]; exact hres, ?_⟩
  have hfp : (dev s' c d).ci2.fingerprint = some f := hf.key
  have hpu : (dev s' c d).ci2.pwUser = some a := by
    show (info s' c d.ci2).pwUser = _
    rw [hI2]
  have := C58_success_took_effect_partial E s.iam iam' (dev s' c d) c _ 201 hw hmem hsct hres (by decide)
  cases this with
  | pairPasswordInvite p n f' name hn hK hO hown hC =>
    rw [hpu] at hn
    cases hn
    have := hK.2
    rw [hfp] at this
    cases this
    cases name with
    | none => exact hC
    | some x => obtain ⟨_, _, h1, _⟩ := hO; cases h1
  | alreadyPaired p n f' hn hK hL hst =>
    exfalso
    have := hK.2
    rw [hfp] at this
    cases this
    obtain ⟨v, ⟨pre, post, h1, h2, h3⟩, fp, h4, h5⟩ := hL
    have hno := hf.none
    unfold findUserByFp at hno
    rw [List.find?_eq_none] at hno
    have := hno v (by rw [h1]; simp)
    apply this
    rw [List.any_eq_true]
    exact ⟨fp, h4, by simp [h5]⟩

/-- C149, what does hold for open pairing: if a connection asked to be authenticated for open pairing only (no name), and
memory never was short, then it makes a user by open pairing with a password only if the mode is enabled and it proved the
password of open pairing which was set when it asked. -/
theorem C149_open_partial (E : Env) (i : Iam) (ops : List Op) (s : Sys) (c : Nat) (d : Dev) (p : Payload)
    (hs : after E i ops = some s) (hm : MemoryOk ops) (hone : ∀ m, Asked ops c m → m = "")
    (h : Paired s (request E s c d (.pairPasswordOpen p))) :
    s.iam.state.passwordOpenPairing = true ∧ Proved E i ops c "" := by
  cases hr : request E s c d (.pairPasswordOpen p) with
  | ub => rw [hr] at h; exact h.elim
  | done iam' code =>
    rw [hr] at h
    obtain ⟨hok, _⟩ := C20_pairing_only_when_allowed E s.iam iam' (dev s c d) c (.pairPasswordOpen p) code trivial
      (request_handle hr) h
    cases hok with
    | passwordOpen p h1 h2 h3 h4 =>
      exact ⟨h1, (auth_proved hs hm hone h4).2⟩

/-- C149, what does hold for pairing by invitation: if a connection asked for one name only, and memory never was short, then
it is paired by invitation only with the user of this name, while the mode is enabled, and it proved the password the user
of this name had when it asked. -/
theorem C149_invite_partial (E : Env) (i : Iam) (ops : List Op) (s : Sys) (c : Nat) (d : Dev) (p : Payload) (n : String)
    (hs : after E i ops = some s) (hm : MemoryOk ops) (hone : ∀ m, Asked ops c m → m = n)
    (h : Paired s (request E s c d (.pairPasswordInvite p))) :
    s.iam.state.passwordInvitePairing = true ∧ n ≠ "" ∧ (dev s c d).ci2.pwUser = some n ∧ Proved E i ops c n := by
  cases hr : request E s c d (.pairPasswordInvite p) with
  | ub => rw [hr] at h; exact h.elim
  | done iam' code =>
    rw [hr] at h
    obtain ⟨hok, _⟩ := C20_pairing_only_when_allowed E s.iam iam' (dev s c d) c (.pairPasswordInvite p) code trivial
      (request_handle hr) h
    cases hok with
    | passwordInvite p m u h1 h2 h3 h4 =>
      obtain ⟨⟨k, hk, hkn⟩, hP⟩ := auth_proved hs hm hone h2
      have hm3 : (match getUsername s.core c with | .ok n => some n | _ => none) = some m := h3
      have hN : getUsername s.core c = if n = "" then .invalidState else .ok n := by
        unfold getUsername
        rw [hk]
        simp only [hkn]
      rw [hN] at hm3
      by_cases hn : n = ""
      · rw [if_pos hn] at hm3; cases hm3
      · rw [if_neg hn] at hm3
        cases hm3
        exact ⟨h1, hn, h3, hP⟩

/-- C149, what does hold of the invitation afterwards: when a new key was paired with a user by invitation, that user has no
password any more, so nobody who asks from then on, until a password is set, can prove it. -/
theorem C149_spent_partial (E : Env) (s : Sys) (c : Nat) (d : Dev) (p : Payload) (iam' : Iam) (code : Nat) (n : String)
    (hw : WellFormed s.iam) (hmem : d.allocOk = true) (hsct : d.addSctOk = true)
    (hn : (dev s c d).ci2.pwUser = some n)
    (h : request E s c d (.pairPasswordInvite p) = .done iam' code) (hc : code < 400)
    (hne : iam'.state ≠ s.iam.state) : ∀ w, ¬ Password iam'.state n w := by
  intro w hpw
  have hn0 : n ≠ "" := by
    have h3 : (match getUsername s.core c with | .ok n => some n | _ => none) = some n := hn
    unfold getUsername at h3
    rintro rfl
    repeat' split at h3
    all_goals cases h3
    rename_i hx
    split at hx
    · cases hx
    · split at hx
      · cases hx
      · split at hx
        · cases hx
        · rename_i hne
          cases hx
          exact hne rfl
  have := C58_success_took_effect_partial E s.iam iam' (dev s c d) c _ code hw hmem hsct (request_handle h) hc
  cases this with
  | alreadyPaired p m f hm hK hL hst => exact hne hst
  | pairPasswordInvite p m f name hm hK hO hown hC =>
    rw [hn] at hm
    cases hm
    obtain ⟨u, pre, post, h1, h2, h3, h4⟩ := hC
    rcases hpw with ⟨h0, _⟩ | ⟨_, v, hv, hvw⟩
    · exact hn0 h0
    · rw [h4] at hv
      have e : (pre ++ { u with fingerprints := u.fingerprints ++ [⟨f, name⟩], password := none } :: post).find?
          (fun u => u.username == n) =
          some { u with fingerprints := u.fingerprints ++ [⟨f, name⟩], password := none } := by
        rw [List.find?_append]
        have : pre.find? (fun u => u.username == n) = none := by
          rw [List.find?_eq_none]
          intro x hx
          simpa using h3 x hx
        rw [this]
        simp [h2]
      have hv : (pre ++ { u with fingerprints := u.fingerprints ++ [⟨f, name⟩], password := none } :: post).find?
          (fun u => u.username == n) = some v := hv
      rw [e] at hv
      cases hv
      cases hvw

/-- A guest who was invited, an administrator who paired with a key, and also open pairing is enabled. -/
def demo : Iam :=
  { openIam with
    state := { openState with passwordOpenPairing := true, passwordOpenPassword := some "open" }, limits := {} }

/-- Two clients who both know the password of the guest. -/
def clients : List Op :=
  [.login (.net .setHandler), .login (.net .open_), .login (.net .open_),
   .login (.net (.step1 0 true true true "guest")), .login (.reply 0 true true), .login (.net (.step2 0 true "secret" true)),
   .login (.net (.step1 1 true true true "guest")), .login (.reply 1 true true), .login (.net (.step2 1 true "secret" true))]

def key (f : String) : Dev := { ci := { fingerprint := some f }, ci2 := { fingerprint := some f } }

/-- C149 does not hold of invitations which are used or taken back: an invitation pairs as many clients as proved its
password before the first of them paired, although the password is removed then. The second client is paired with a user
who has no password. -/
theorem C149_twice_violated : ∃ s iam', after demoEnv demo (clients ++ [.request 0 (key "k0") (.pairPasswordInvite .notCbor)]) = some s ∧
    (∀ w, ¬ Password s.iam.state "guest" w) ∧
    request demoEnv s 1 (key "k1") (.pairPasswordInvite .notCbor) = .done iam' 201 ∧
    (iam'.state.users.map (fun u => (u.username, u.fingerprints.map (·.fingerprint)))) =
      [("admin", [k64]), ("guest", ["k0", "k1"])] := by
  refine ⟨_, _, rfl, ?_, rfl, by decide +kernel⟩
  intro w h
  have h1 := Login.pakePassword_iff.2 h
  have h2 : (none : Option String) = some w := h1
  cases h2

/-! The hypotheses are met. -/

def one : Sys := (Login.Spec.after demo [.net .setHandler, .net .open_])

theorem one_wellFormed : WellFormed one.iam := ⟨by decide +kernel, by decide +kernel⟩
theorem one_idle : Idle one 0 {} := ⟨by decide +kernel, by decide +kernel, by decide +kernel, by decide +kernel⟩

example : Unknown one.iam (key "k0") "k0" := ⟨rfl, rfl, by decide +kernel⟩
example : Fresh one.iam { key "k0" with newSct := some "t" } "mallory" :=
  ⟨by decide +kernel, by decide +kernel, by decide +kernel, by decide +kernel, by decide +kernel, ⟨_, rfl⟩,
   ⟨"t", rfl, by decide +kernel⟩, rfl⟩
example : checkAccess demoEnv one.iam { fingerprint := some "k0", pwAuth := true, pwUser := some "guest" } 0
    "IAM:PairingPasswordOpen" [] = .ok true := by decide +kernel
example : checkAccess demoEnv one.iam { fingerprint := some "k0", pwAuth := true, pwUser := some "admin" } 0
    "IAM:PairingPasswordInvite" [] = .ok true := by decide +kernel
-- the administrator now has the key of the guest
example : (match request demoEnv (Login.run one (attack one 0 "guest" "secret" "admin")) 0 (key "k0") (.pairPasswordInvite .notCbor) with
    | .done iam' k => (k, iam'.state.users.map (fun u => (u.username, u.fingerprints.map (·.fingerprint))))
    | .ub => (0, [])) = (201, [("admin", [k64, "k0"]), ("guest", [])]) := by decide +kernel
example : ∃ s, after demoEnv demo clients = some s ∧ Paired s (request demoEnv s 0 (key "k0") (.pairPasswordInvite .notCbor)) :=
  ⟨_, rfl, Or.inl (by decide +kernel)⟩
example : ∃ s, after demoEnv demo [.login (.net .setHandler), .login (.net .open_), .login (.net (.step1 0 true true true "")),
      .login (.reply 0 true true), .login (.net (.step2 0 true "open" true))] = some s ∧
    Paired s (request demoEnv s 0 { key "k0" with newSct := some "t" }
      (.pairPasswordOpen (.value (.map [("Username", .text "alice")])))) :=
  ⟨_, rfl, Or.inl (by decide +kernel)⟩
-- without the right password nobody is paired
example : ∃ s, after demoEnv demo [.login (.net .setHandler), .login (.net .open_), .login (.net (.step1 0 true true true "")),
      .login (.reply 0 true true), .login (.net (.step2 0 true "guess" true))] = some s ∧
    (match request demoEnv s 0 { key "k0" with newSct := some "t" }
      (.pairPasswordOpen (.value (.map [("Username", .text "alice")]))) with | .done _ k => k | .ub => 0) = 401 :=
  ⟨_, rfl, by decide +kernel⟩

end Verif.Iam.Pairing
