import Verif.Apps.DefaultsLemmas
import Verif.Iam.JsonProps

/-!
# The access control the tunnel device is shipped with — properties
-/

namespace Verif.Apps

open Verif.Iam Verif.Iam.Spec
open Spec

/-! ## C114: who may do what with the default configuration -/

/-- The default configuration answers a request exactly as the table says, whoever asks. -/
theorem C114_who_may_do_what (E : Env) (hE : Overwrites E.ins) (iam : Iam) (hc : iam.conf = defaultConfig)
    (ci : ConnInfo) (ref : Nat) (who : Option User) (hw : ActsAs iam ci ref who) (action : String) (supplied : Attrs) :
    checkAccess E iam ci ref action supplied = .ok true ↔
      (ci.fpOk = true ∨ ci.isVirtual = true) ∧ May who action supplied :=
  decision E hE iam hc ci ref who hw action supplied

/-- Written to its file and read back it is the same configuration. -/
theorem C114_survives_file (S : Json.Strtod) :
    ∃ text, (configDump defaultConfig []).1 = some text ∧ ConfigLoads S text defaultConfig := by
  refine C16_config_round_trip S defaultConfig ?_ ?_ ?_
  · decide
  · decide
  · decide

/-- Who is not an administrator can pair, delete themselves and name themselves; no other request changes anything. -/
theorem C114_changes_of_others (E : Env) (hE : Overwrites E.ins) (iam iam' : Iam) (hc : iam.conf = defaultConfig)
    (d : Dev) (ref : Nat) (r : Req) (c : Nat) (h : handle E iam d ref r = .done iam' c)
    (hna : ∀ u, ActsAs iam d.ci ref (some u) → u.role ≠ some "Administrator") (hr : ¬ IsPairing r)
    (hself : ∀ u, ActsAs iam d.ci ref (some u) → ¬ AboutSelf u.username r) : iam'.state = iam.state := by
  by_cases hchg : iam'.state = iam.state
  · exact hchg
  · rcases change_cases E hE iam iam' hc d ref r c h hchg hna with h | ⟨u, hu, h⟩
    · exact absurd h hr
    · exact absurd h (hself u hu)

/-- Nobody becomes an administrator without one: over any history of requests of which none comes from an administrator,
unless open pairing hands out the role, every administrator was one before under the same name, no password was set for them,
and every key they have is an old one or was registered by local initial pairing or with their password. -/
theorem C114_no_way_to_administrator (E : Env) (hE : Overwrites E.ins) (iam iam' : Iam) (hwf : WellFormed iam)
    (hc : iam.conf = defaultConfig) (hopen : iam.state.openPairingRole ≠ some "Administrator") (es : List Ev)
    (hx : Exec E Outsider iam es iam') :
    ∀ u' ∈ iam'.state.users, u'.role = some "Administrator" →
      ∃ u ∈ iam.state.users, u.role = some "Administrator" ∧ u'.username = u.username ∧
        (u'.password = u.password ∨ u'.password = none) ∧
        ∀ fp, Owns fp u' → Owns fp u ∨
          ∃ before e after mid v, es = before ++ e :: after ∧ Exec E Outsider iam before mid ∧
            v.username = u.username ∧ Claims mid v fp e := by
  have ha : AddrOk iam := addrOk_of hwf.allocated hwf.distinct
  clear hwf
  induction hx with
  | nil iam =>
    intro u' hu' hr
    exact ⟨u', hu', hr, rfl, .inl rfl, fun fp h => .inl h⟩
  | cons iam iam1 iam2 e es hP hs hx ih =>
    obtain ⟨hc1, ho1, horig⟩ := outsider_step hE hc ha hP hs
    intro u' hu' hr
    obtain ⟨u1, hu1, hr1, hn1, hp1, hk1⟩ := ih hc1 (by rw [ho1]; exact hopen) (addrOk_step ha hs) u' hu' hr
    cases horig u1 hu1 with
    | joined hj => exact absurd (by rw [← hj, hr1]) hopen
    | kept u hu _ hn hr' hp hk =>
      refine ⟨u, hu, by rw [← hr', hr1], by rw [hn1, hn], ?_, ?_⟩
      · rcases hp1 with h1 | h1
        · rw [h1]; exact hp
        · exact .inr h1
      · intro fp hown
        rcases hk1 fp hown with h | ⟨before, e', after, mid, v, h1, h2, h3, h4⟩
        · rcases hk fp h with h | h
          · exact .inl h
          · exact .inr ⟨[], e, es, iam, u, rfl, .nil _, rfl, h⟩
        · exact .inr ⟨e :: before, e', after, mid, v, by rw [h1]; rfl, .cons _ _ _ _ _ hP hs h2, by rw [h3, hn], h4⟩

/-- A new device with the default setup: whatever clients do who do not have the password of the user `admin`, nothing
changes. -/
theorem C114_new_device_is_closed (E : Env) (hE : Overwrites E.ins) (iam iam' : Iam) (hc : iam.conf = defaultConfig)
    (pw sct opw osct : Option String) (hst : iam.state = defaultState pw sct opw osct) (es : List Ev)
    (hx : Exec E (fun i e => Outsider i e ∧ Steady e) iam es iam') : iam'.state = iam.state := by
  induction hx with
  | nil iam => rfl
  | cons iam iam1 iam2 e es hP hs hx ih =>
    have hsame : iam1.state = iam.state ∧ iam1.conf = defaultConfig := by
      obtain ⟨hP, hsteady⟩ := hP
      cases e with
      | api d op => exact hP.1.elim
      | closed ref =>
        simp only [step, Option.some.injEq] at hs; subst hs
        exact ⟨rfl, hc⟩
      | callbacks =>
        simp only [step, Option.some.injEq] at hs; subst hs
        obtain ⟨h1, _, _, _, _, h6⟩ := doCallbacks_frame iam
        exact ⟨h1, by rw [h6, hc]⟩
      | coap ref d r =>
        obtain ⟨x, c, hh, rfl⟩ := step_coap hs
        refine ⟨?_, by rw [← hc]; exact (handle_frame hh).conf⟩
        by_cases hchg : x.state = iam.state
        · exact hchg
        exfalso
        have hna : ∀ u, ActsAs iam d.ci ref (some u) → u.role ≠ some "Administrator" := fun u hu => hP.2 ref d r u rfl hu
        have hall : ∀ u ∈ iam.state.users, u.role = some "Administrator" ∧ u.fingerprints = [] := by
          intro u hu
          rw [hst] at hu
          simp only [defaultState, List.mem_singleton] at hu
          subst hu
          exact ⟨rfl, rfl⟩
        have hact : ∀ u, ActsAs iam d.ci ref (some u) → u ∈ iam.state.users := by
          intro u hu
          cases hu with
          | key fp u _ hf => obtain ⟨_, _, h, _⟩ := hf; rw [h]; simp
          | password n u _ _ _ hf => obtain ⟨_, _, h, _⟩ := hf; rw [h]; simp
          | authorized c u _ _ _ hf => obtain ⟨_, _, h, _⟩ := hf; rw [h]; simp
        rcases change_cases E hE iam x hc d ref r c hh hchg hna with h | ⟨u, hu, h⟩
        · have hok := (C20_pairing_only_when_allowed E iam x d ref r c h hh (.inr hchg)).1
          cases hok with
          | localInitial p n u h1 => rw [hst] at h1; cases h1
          | localOpen p h1 => rw [hst] at h1; cases h1
          | passwordOpen p h1 => rw [hst] at h1; cases h1
          | passwordInvite p n u h1 h2 h3 h4 =>
            have hst' : d.ci2 = d.ci := hsteady
            rw [hst'] at h2 h3
            have hu : u ∈ iam.state.users := by obtain ⟨_, _, h, _⟩ := h4; rw [h]; simp
            refine hna u (.password n u ?_ h2 h3 h4) (hall u hu).1
            rintro ⟨fp, _, w, hw, y, hy, _⟩
            rw [(hall w hw).2] at hy
            cases hy
        · exact hna u hu (hall u (hact u hu)).1
    rw [ih hsame.2 (by rw [hsame.1]; exact hst), hsame.1]

/-! ### Examples -/

/-- A device in use: an administrator, a standard user and a guest, and open pairing. -/
def inUse : Iam :=
  { conf := defaultConfig
    state := { defaultState (some "apassword") (some "sct") (some "open") (some "osct") with
      users := [{ addr := 0, username := "admin", role := some "Administrator", fingerprints := [⟨"f0", none⟩] },
        { addr := 1, username := "std", role := some "Standard", fingerprints := [⟨"f1", none⟩] },
        { addr := 2, username := "guest", role := some "Guest", fingerprints := [⟨"f2", none⟩] }]
      localOpenPairing := true }
    nextAddr := 3 }

/-- A local client with a key. -/
def client (fp : String) : Dev :=
  { ci := { fingerprint := some fp, isLocal := true }, ci2 := { fingerprint := some fp, isLocal := true }, newSct := some "tok" }

-- the roles differ as the table says
example : checkAccess demoEnv inUse (client "f0").ci 7 "IAM:SetUserRole" [("IAM:Username", "std")] = .ok true := by decide
example : checkAccess demoEnv inUse (client "f1").ci 7 "IAM:SetUserRole" [("IAM:Username", "std")] = .ok false := by decide
example : checkAccess demoEnv inUse (client "f1").ci 7 "TcpTunnel:Connect" [] = .ok true := by decide
example : checkAccess demoEnv inUse (client "f2").ci 7 "TcpTunnel:Connect" [] = .ok false := by decide
example : checkAccess demoEnv inUse (client "f2").ci 7 "IAM:DeleteUser" [("IAM:Username", "guest")] = .ok true := by decide
example : checkAccess demoEnv inUse (client "f2").ci 7 "IAM:DeleteUser" [("IAM:Username", "std")] = .ok false := by decide
example : checkAccess demoEnv inUse (client "f9").ci 7 "IAM:GetUser" [("IAM:Username", "")] = .ok false := by decide
-- a history of outsiders: a guest tries to become an administrator, a new client pairs and then deletes the administrator
example : WellFormed inUse := ⟨by decide, by decide⟩
example : ∃ iam', Exec demoEnv Outsider inUse
    [.coap 7 (client "f2") (.setRole "guest" (.value (.text "Administrator"))),
     .coap 8 (client "f9") (.pairLocalOpen (.value (.map [("Username", .text "new")]))),
     .coap 8 (client "f9") (.deleteUser "admin")] iam' ∧
    iam'.state.users.map (fun u => (u.username, u.role)) =
      [("admin", some "Administrator"), ("std", some "Standard"), ("guest", some "Guest"), ("new", some "Guest")] := by
  have key : ∀ (iam : Iam) ref d r u, actingUser iam d.ci ref = .ok (some u) → u.role ≠ some "Administrator" →
      Outsider iam (.coap ref d r) := by
    intro iam ref d r u h hr
    refine ⟨trivial, ?_⟩
    intro ref' d' r' u' he hu'
    cases he
    rw [(C08_identity _ _ _ _).mpr hu'] at h
    cases h
    exact hr
  have key' : ∀ (iam : Iam) ref d r, actingUser iam d.ci ref = .ok none → Outsider iam (.coap ref d r) := by
    intro iam ref d r h
    refine ⟨trivial, ?_⟩
    intro ref' d' r' u' he hu'
    cases he
    rw [(C08_identity _ _ _ _).mpr hu'] at h
    cases h
  refine ⟨_, .cons _ _ _ _ _ (key _ _ _ _ { addr := 2, username := "guest", role := some "Guest", fingerprints := [⟨"f2", none⟩] }
    (by decide) (by decide)) rfl
    (.cons _ _ _ _ _ (key' _ _ _ _ (by decide)) rfl (.cons _ _ _ _ _ (key _ _ _ _ { addr := 3, username := "new", role := some "Guest", sct := some "tok", fingerprints := [⟨"f9", none⟩] }
    (by decide) (by decide)) rfl (.nil _))), by decide⟩
-- the new device, and its administrator who has the password
example : checkAccess demoEnv { conf := defaultConfig, state := defaultState (some "pw") none none none, nextAddr := 1 }
    { fingerprint := some "f9", pwAuth := true, pwUser := some "admin" } 7 "IAM:SetUserRole" [] = .ok true := by decide
-- with the demo setup, which says so, any local client becomes an administrator
example : ((step demoEnv
      { conf := defaultConfig, state := { localOpenPairing := true, openPairingRole := some "Administrator" } }
      (.coap 8 (client "f9") (.pairLocalOpen (.value (.map [("Username", .text "new")]))))).map
        (fun i => i.state.users.map (fun u => (u.username, u.role)))) = some [("new", some "Administrator")] := by decide

end Verif.Apps
