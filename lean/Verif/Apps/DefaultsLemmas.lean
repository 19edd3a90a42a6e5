import Verif.Apps.Defaults
import Verif.Apps.DefaultsSpec
import Verif.Iam.CoapProps
import Verif.Iam.MachineFrame
import Verif.Iam.MachineUsers
import Mathlib.Tactic.Tauto

/-! Lemmas for C114. -/

namespace Verif.Apps

open Verif.Iam Verif.Iam.Spec
open Spec

theorem eval_plain (N : NumSem) (acts : List String) (action : String) (attrs : Attrs) :
    statementEval N ⟨.allow, acts, []⟩ action attrs = if action ∈ acts then .allow else .noMatch := by
  unfold statementEval
  by_cases h : action ∈ acts <;> simp [h, matchConditions]

theorem resolve_own (attrs : Attrs) :
    resolveValue attrs "${Connection:Username}" = attrs.lookup "Connection:Username" := by
  have h1 : ("${Connection:Username}".toList) =
      ['$', '{', 'C', 'o', 'n', 'n', 'e', 'c', 't', 'i', 'o', 'n', ':', 'U', 's', 'e', 'r', 'n', 'a', 'm', 'e', '}'] := by
    decide
  have h2 : String.ofList ['C', 'o', 'n', 'n', 'e', 'c', 't', 'i', 'o', 'n', ':', 'U', 's', 'e', 'r', 'n', 'a', 'm', 'e'] =
      "Connection:Username" := by decide
  unfold resolveValue
  simp only [h1]
  rw [if_neg (by decide), if_pos (by decide)]
  exact congrArg (attrs.lookup ·) h2

theorem eval_own (N : NumSem) (acts : List String) (action : String) (attrs : Attrs) :
    statementEval N ⟨.allow, acts, [⟨.stringEquals, "IAM:Username", ["${Connection:Username}"]⟩]⟩ action attrs =
      if action ∈ acts ∧ ∃ v, attrs.lookup "IAM:Username" = some v ∧ attrs.lookup "Connection:Username" = some v
      then .allow else .noMatch := by
  unfold statementEval
  by_cases h : action ∈ acts
  · simp only [h, not_true, if_false, true_and, matchConditions, conditionMatches]
    cases h1 : attrs.lookup "IAM:Username" with
    | none => simp
    | some v =>
      simp only [matchValues, resolve_own]
      cases h2 : attrs.lookup "Connection:Username" with
      | none => simp
      | some w =>
        by_cases hvw : v = w
        · simp [matchOp, status, hvw]
        · have : ¬ w = v := fun e => hvw e.symm
          simp [matchOp, status, hvw, this]
  · simp [h]

/-- The own user of the connection is the one the request is about. -/
def OwnUser (attrs : Attrs) : Prop :=
  ∃ v, attrs.lookup "IAM:Username" = some v ∧ attrs.lookup "Connection:Username" = some v

open Classical in
/-- An effect which is to allow or nothing. -/
noncomputable def allowIf (P : Prop) : Effect := if P then .allow else .noMatch

theorem allowIf_iff (P : Prop) : allowIf P = .allow ↔ P := by
  unfold allowIf; split <;> simp_all

theorem allowIf_false : Effect.noMatch = allowIf False := by simp [allowIf]

theorem step_allow {N : NumSem} {s : Statement} {action : String} {attrs : Attrs} {P Q : Prop}
    (h : statementEval N s action attrs = allowIf Q) :
    policyStatementEval N action attrs (allowIf P) s = allowIf (P ∨ Q) := by
  unfold policyStatementEval
  rw [h]
  unfold allowIf
  by_cases hp : P <;> by_cases hq : Q <;> simp [hp, hq]

theorem step_plain (N : NumSem) (acts : List String) (action : String) (attrs : Attrs) (P : Prop) :
    policyStatementEval N action attrs (allowIf P) ⟨.allow, acts, []⟩ = allowIf (P ∨ action ∈ acts) :=
  step_allow (by rw [eval_plain]; unfold allowIf; by_cases h : action ∈ acts <;> simp [h])

theorem step_own (N : NumSem) (acts : List String) (action : String) (attrs : Attrs) (P : Prop) :
    policyStatementEval N action attrs (allowIf P)
      ⟨.allow, acts, [⟨.stringEquals, "IAM:Username", ["${Connection:Username}"]⟩]⟩ =
      allowIf (P ∨ action ∈ acts ∧ OwnUser attrs) :=
  step_allow (by
    rw [eval_own]; unfold allowIf OwnUser
    by_cases h : action ∈ acts ∧ ∃ v, attrs.lookup "IAM:Username" = some v ∧ attrs.lookup "Connection:Username" = some v
    · rw [if_pos h, if_pos h]
    · rw [if_neg h, if_neg h])

/-- What a role of the default configuration grants. -/
theorem role_grants (N : NumSem) (action : String) (attrs : Attrs) (role : Role) (hr : role ∈ defaultConfig.roles) :
    checkAccessRole N defaultConfig role action attrs = .allow ↔
      (action ∈ ["IAM:GetPairing", "IAM:PairingPasswordInvite", "IAM:PairingLocalInitial", "IAM:PairingLocalOpen",
        "IAM:PairingPasswordOpen"]) ∨
      (role.id ∈ ["Administrator", "Standard"] ∧
        action ∈ ["TcpTunnel:GetService", "TcpTunnel:Connect", "TcpTunnel:ListServices"]) ∨
      (role.id = "Administrator" ∧ action ∈ ["IAM:ListUsers", "IAM:GetUser", "IAM:DeleteUser", "IAM:SetUserRole",
        "IAM:ListRoles", "IAM:CreateUser", "IAM:SetUserPassword", "IAM:SetUserDisplayName", "IAM:SetSettings",
        "IAM:GetSettings", "IAM:SetDeviceInfo"]) ∨
      (role.id ∈ ["Standard", "Guest"] ∧ action ∈ ["IAM:ListRoles", "IAM:ListUsers"]) ∨
      (role.id ∈ ["Standard", "Guest"] ∧ action ∈ ["IAM:GetUser", "IAM:DeleteUser", "IAM:SetUserDisplayName"] ∧
        OwnUser attrs) := by
  have h1 : findPolicy defaultConfig "Pairing" = some pairingPolicy := by decide
  have h2 : findPolicy defaultConfig "Tunnelling" = some tunnellingPolicy := by decide
  have h3 : findPolicy defaultConfig "ManageIAM" = some managePolicy := by decide
  have h4 : findPolicy defaultConfig "ManageOwnUser" = some ownPolicy := by decide
  have ha : ("Administrator" : String) ∈ ["Administrator", "Standard"] := by decide
  have hb : ("Standard" : String) ∈ ["Administrator", "Standard"] := by decide
  have hc : ("Standard" : String) ∈ ["Standard", "Guest"] := by decide
  have hd : ("Guest" : String) ∈ ["Standard", "Guest"] := by decide
  have ka : ("Unpaired" : String) ∉ ["Administrator", "Standard"] := by decide
  have kb : ("Unpaired" : String) ∉ ["Standard", "Guest"] := by decide
  have kc : ("Unpaired" : String) ≠ "Administrator" := by decide
  have kd : ("Standard" : String) ≠ "Administrator" := by decide
  have ke : ("Guest" : String) ≠ "Administrator" := by decide
  have kf : ("Guest" : String) ∉ ["Administrator", "Standard"] := by decide
  have kg : ("Administrator" : String) ∉ ["Standard", "Guest"] := by decide
  simp only [defaultConfig, List.mem_cons, List.not_mem_nil, or_false] at hr
  rcases hr with rfl | rfl | rfl | rfl
  all_goals
    simp only [checkAccessRole, checkRoleLoop, h1, h2, h3, h4, policyEval, pairingPolicy, tunnellingPolicy, managePolicy,
      ownPolicy, List.foldl, allowIf_false, step_plain, step_own, allowIf_iff, ha, hb, hc, hd, ka, kb, kc, kd, ke, kf, kg,
      true_and, false_and, false_or, or_false]
  · tauto
  · tauto
  · tauto

theorem own_attrs (ci : ConnInfo) (who : Option User) (supplied : Attrs)
    (hs : who.isSome = true) :
    OwnUser (requestAttrs ci who supplied) ↔ ∃ u, who = some u ∧ target supplied = some u.username := by
  have h1 : (requestAttrs ci who supplied).lookup "IAM:Username" = target supplied := by
    unfold requestAttrs target
    cases who with
    | none =>
      simp only [List.nil_append, List.singleton_append]
      rw [lookup_cons_if, if_neg (by decide)]
    | some u =>
      simp only [List.cons_append, List.nil_append]
      rw [lookup_cons_if, if_neg (by decide), lookup_cons_if, if_neg (by decide)]
  have h2 : (requestAttrs ci who supplied).lookup "Connection:Username" = who.map User.username := by
    unfold requestAttrs
    cases who with
    | none =>
      simp at hs
    | some u =>
      simp only [List.cons_append, List.nil_append, Option.map_some]
      rw [lookup_cons_if, if_pos rfl]
  unfold OwnUser
  rw [h1, h2]
  constructor
  · rintro ⟨v, h3, h4⟩
    cases who with
    | none => cases h4
    | some u => exact ⟨u, rfl, by rw [h3, ← h4]; rfl⟩
  · rintro ⟨u, rfl, h⟩
    exact ⟨u.username, h, rfl⟩

theorem first_role {rid : String} {role : Role} (h : FirstWith (fun r => r.id = rid) defaultConfig.roles role) :
    role ∈ defaultConfig.roles ∧ role.id = rid := by
  obtain ⟨pre, post, h1, h2, _⟩ := h
  exact ⟨by rw [h1]; simp, h2⟩

/-- What the default configuration answers. -/
theorem decision (E : Env) (hE : Overwrites E.ins) (iam : Iam) (hc : iam.conf = defaultConfig) (ci : ConnInfo) (ref : Nat)
    (who : Option User) (hw : ActsAs iam ci ref who) (action : String) (supplied : Attrs) :
    checkAccess E iam ci ref action supplied = .ok true ↔
      (ci.fpOk = true ∨ ci.isVirtual = true) ∧ May who action supplied := by
  rw [C01_access_decision E hE]
  have hrole : roleId iam who = roleOf who := by
    cases who with
    | none => simp [roleId, roleOf, hc, defaultConfig]
    | some u => rfl
  constructor
  · rintro ⟨h1, who', hw', rid, hrid, role, hrole', hg⟩
    refine ⟨h1, ?_⟩
    have : who' = who := actsAs_unique _ _ _ _ _ hw' hw
    subst this
    rw [hc] at hrole' hg
    obtain ⟨hmem, hid⟩ := first_role hrole'
    have hro : roleOf who' = some role.id := by rw [← hrole, hrid, hid]
    rw [← C01_role_decision, role_grants _ _ _ _ hmem] at hg
    rcases hg with h | ⟨h, h'⟩ | ⟨h, h'⟩ | ⟨h, h'⟩ | ⟨h, h', h''⟩
    · refine .pair ?_ h
      rw [hro]
      simp only [defaultConfig, List.mem_cons, List.not_mem_nil, or_false] at hmem
      rcases hmem with rfl | rfl | rfl | rfl <;> simp
    · exact .tunnel (by rw [hro]; simpa using h) h'
    · exact .admin (by rw [hro, h]) h'
    · exact .list (by rw [hro]; simpa using h) h'
    · have hsome : who'.isSome = true := by
        cases who' with
        | none =>
          simp only [roleOf, Option.some.injEq] at hro
          rw [← hro] at h
          exact absurd h (by decide)
        | some u => rfl
      obtain ⟨u, hu, ht⟩ := (own_attrs _ _ _ hsome).mp h''
      subst hu
      exact .own u rfl (by rw [show u.role = some role.id from hro]; simpa using h) h' ht
  · rintro ⟨h1, h2⟩
    refine ⟨h1, who, hw, ?_⟩
    have key : ∀ n, roleOf who = some n → n ∈ ["Unpaired", "Administrator", "Standard", "Guest"] →
        ((n = "Unpaired" ∨ n = "Administrator" ∨ n = "Standard" ∨ n = "Guest") → 
          ∀ role, role ∈ defaultConfig.roles → role.id = n →
          checkAccessRole E.N defaultConfig role action (requestAttrs ci who supplied) = .allow) →
        ∃ rid, roleId iam who = some rid ∧ ∃ role, FirstWith (fun r => r.id = rid) iam.conf.roles role ∧
          Granted E.N iam.conf role action (requestAttrs ci who supplied) := by
      intro n hn hmem hg
      have : ∃ role, FirstWith (fun r => r.id = n) defaultConfig.roles role := by
        simp only [List.mem_cons, List.not_mem_nil, or_false] at hmem
        rcases hmem with rfl | rfl | rfl | rfl
        · exact ⟨_, [], _, rfl, rfl, by simp⟩
        · exact ⟨_, [_], _, rfl, rfl, by decide⟩
        · exact ⟨_, [_, _], _, rfl, rfl, by decide⟩
        · exact ⟨_, [_, _, _], _, rfl, rfl, by decide⟩
      obtain ⟨role, hf⟩ := this
      obtain ⟨hm, hid⟩ := first_role hf
      refine ⟨n, by rw [hrole, hn], role, by rw [hc]; exact hf, ?_⟩
      rw [hc, ← C01_role_decision]
      exact hg (by simpa using hmem) role hm hid
    cases h2 with
    | pair hr ha =>
      have : ∃ n, roleOf who = some n ∧ n ∈ ["Unpaired", "Administrator", "Standard", "Guest"] := by
        simp only [List.mem_cons, List.not_mem_nil, or_false] at hr
        rcases hr with h | h | h | h <;> exact ⟨_, h, by decide⟩
      obtain ⟨n, hn, hmem⟩ := this
      exact key n hn hmem fun _ role hm hid => (role_grants _ _ _ _ hm).mpr (.inl ha)
    | tunnel hr ha =>
      simp only [List.mem_cons, List.not_mem_nil, or_false] at hr
      rcases hr with h | h
      all_goals
        exact key _ h (by decide) fun _ role hm hid => (role_grants _ _ _ _ hm).mpr
          (.inr (.inl ⟨by rw [hid]; decide, ha⟩))
    | admin hr ha =>
      exact key _ hr (by decide) fun _ role hm hid => (role_grants _ _ _ _ hm).mpr
          (.inr (.inr (.inl ⟨hid, ha⟩)))
    | list hr ha =>
      simp only [List.mem_cons, List.not_mem_nil, or_false] at hr
      rcases hr with h | h
      all_goals
        exact key _ h (by decide) fun _ role hm hid => (role_grants _ _ _ _ hm).mpr
          (.inr (.inr (.inr (.inl ⟨by rw [hid]; decide, ha⟩))))
    | own u hu hr ha ht =>
      simp only [List.mem_cons, List.not_mem_nil, or_false] at hr
      rcases hr with h | h
      all_goals
        exact key _ (by rw [hu]; exact h) (by decide) fun _ role hm hid => (role_grants _ _ _ _ hm).mpr
          (.inr (.inr (.inr (.inr ⟨by rw [hid]; decide, ha, (own_attrs _ _ _ (by rw [hu]; rfl)).mpr ⟨u, hu, ht⟩⟩))))

/-! ### Changes -/

/-- What somebody who is not an administrator can change. -/
theorem change_cases (E : Env) (hE : Overwrites E.ins) (iam iam' : Iam) (hc : iam.conf = defaultConfig) (d : Dev) (ref : Nat)
    (r : Req) (c : Nat) (h : handle E iam d ref r = .done iam' c) (hchg : iam'.state ≠ iam.state)
    (hna : ∀ u, ActsAs iam d.ci ref (some u) → u.role ≠ some "Administrator") :
    IsPairing r ∨ ∃ u, ActsAs iam d.ci ref (some u) ∧ AboutSelf u.username r := by
  obtain ⟨action, attrs, hn, ha⟩ := C22_change_needs_permission E iam iam' d ref r c h hchg
  obtain ⟨who, hw⟩ : ∃ who, ActsAs iam d.ci ref who := by
    obtain ⟨_, who, hw, _⟩ := (C01_access_decision E hE _ _ _ _ _).mp ha
    exact ⟨who, hw⟩
  obtain ⟨_, hm⟩ := (decision E hE iam hc d.ci ref who hw action attrs).mp ha
  have hnadm : roleOf who ≠ some "Administrator" := by
    cases who with
    | none => simp [roleOf]
    | some u => exact hna u hw
  cases hm with
  | pair _ hac =>
    left
    cases hn <;> first | trivial | (exact absurd hac (by decide))
  | tunnel _ hac =>
    cases hn <;> exact absurd hac (by decide)
  | admin hr _ => exact absurd hr hnadm
  | list _ hac =>
    cases hn <;> exact absurd hac (by decide)
  | own u hu _ hac ht =>
    subst hu
    right
    refine ⟨u, hw, ?_⟩
    cases hn <;> first
      | (exact absurd hac (by decide))
      | (have : _ = u.username := Option.some.inj ht
         exact this)

/-! ### Where users come from -/

/-- Where a user comes from that is there after an event. -/
inductive CameFrom (iam : Iam) (e : Ev) (u' : User) : Prop
  | kept (u : User) : u ∈ iam.state.users → u'.addr = u.addr → u'.username = u.username → u'.role = u.role →
      (u'.password = u.password ∨ u'.password = none) →
      (∀ fp, Owns fp u' → Owns fp u ∨ Claims iam u fp e) → CameFrom iam e u'
  | joined : u'.role = iam.state.openPairingRole → CameFrom iam e u'

theorem CameFrom.same {iam : Iam} {e : Ev} {u : User} (h : u ∈ iam.state.users) : CameFrom iam e u :=
  .kept u h rfl rfl rfl (.inl rfl) fun _ h => .inl h

theorem cameFrom_upd {iam : Iam} {e : Ev} (ha : AddrOk iam) {u v : User} (hu : u ∈ iam.state.users)
    (hv : CameFrom iam e v) {w : User} (hw : w ∈ (hasChanged (updUser iam u.addr (fun _ => v))).state.users) :
    CameFrom iam e w := by
  have : (hasChanged (updUser iam u.addr (fun _ => v))).state.users =
      (updUser iam u.addr (fun _ => v)).state.users := rfl
  rw [this, updUser_users ha hu, List.mem_map] at hw
  obtain ⟨x, hx, rfl⟩ := hw
  split
  · exact hv
  · exact .same hx

theorem add_owns {u u' : User} {f : Option String} {name : Option String} (h : userAddFingerprint u f name = some u') :
    ∃ g, f = some g ∧ u' = { u with fingerprints := u.fingerprints ++ [⟨g, name⟩] } := by
  cases f with
  | none => cases h
  | some g => exact ⟨g, rfl, owns_add h⟩

theorem newClient_origin {iam : Iam} {e : Ev} {d : Dev} {n f k : Option String} {w : User}
    (hw : w ∈ (pairNewClient iam d n f k).1.state.users) : CameFrom iam e w := by
  unfold pairNewClient at hw
  split at hw
  · split at hw
    · exact .same hw
    split at hw
    · split at hw
      · rename_i role sct hrole _
        split at hw
        · exact .same hw
        simp only at hw
        split at hw
        · exact .same hw
        · rename_i x hx
          unfold addUser at hx
          split at hx
          · cases hx
          · injection hx with hx; subst hx
            rcases List.mem_append.mp hw with hw | hw
            · exact .same hw
            · refine .joined ?_
              rw [List.mem_singleton.mp hw, hrole]
              rfl
      · exact .same hw
    · split at hw <;> exact .same hw
    · exact .same hw
  · exact .same hw

/-- A pairing request, or a request of a user about themselves, invents no user and no key. -/
theorem handle_origin {E : Env} {iam iam' : Iam} (ha : AddrOk iam) {d : Dev} {ref : Nat} {r : Req} {c : Nat}
    (h : handle E iam d ref r = .done iam' c) (hr : IsPairing r ∨ ∃ n, AboutSelf n r)
    (hchg : iam'.state ≠ iam.state) {w : User} (hw : w ∈ iam'.state.users) : CameFrom iam (.coap ref d r) w := by
  have hok : IsPairing r → PairingOk iam d r := fun hp =>
    (C20_pairing_only_when_allowed E iam iam' d ref r c hp h (.inr hchg)).1
  have no : ∀ {c c' : Nat}, HRes.done iam c = .done iam' c' → False := fun hx =>
    hchg (by rw [(done_inj hx).1])
  cases r with
  | deleteUser n =>
    simp only [handle, hDeleteUser] at h
    rcases withAccess_done h with ⟨rfl, _⟩ | ⟨_, h⟩
    · exact absurd rfl hchg
    have hres : iam' = (deleteUser iam n).1 := by
      split at h <;> rename_i heq <;> rw [heq] <;> exact (done_inj h).1
    subst hres
    unfold deleteUser at hw
    split at hw
    · exact .same hw
    · exact .same (List.mem_filter.mp hw).1
  | setDisplayName n p =>
    simp only [handle, hSetDisplayName, hSetOptional] at h
    rcases withPayload_done h with ⟨rfl, _⟩ | ⟨v, _, h⟩
    · exact absurd rfl hchg
    split at h
    · exact (no h).elim
    split at h
    · exact (no h).elim
    rcases withAccess_done h with ⟨rfl, _⟩ | ⟨_, h⟩
    · exact absurd rfl hchg
    split at h
    · exact (no h).elim
    rename_i u hu
    split at h
    · exact (no h).elim
    obtain ⟨rfl, _⟩ := done_inj h
    have hw' := hw
    have : ∀ g, (hasChanged (updUser iam u.addr g)).state.users = (updUser iam u.addr g).state.users := fun _ => rfl
    rw [this, updUser_users ha (findUser_mem hu), List.mem_map] at hw'
    obtain ⟨x, hx, rfl⟩ := hw'
    split
    · exact .kept u (findUser_mem hu) rfl rfl rfl (.inl rfl) fun _ h => .inl h
    · exact .same hx
  | pairLocalInitial p =>
    have hp := hok trivial
    simp only [handle, hPairLocalInitial] at h
    split at h
    · exact (no h).elim
    rcases withAccess_done h with ⟨rfl, _⟩ | ⟨_, h⟩
    · exact absurd rfl hchg
    split at h
    · exact (no h).elim
    split at h
    · exact (no h).elim
    rename_i u hu
    split at h
    · exact (no h).elim
    have pu : ∀ {fpName c'}, pairUser iam d u fpName = .done iam' c' →
        CameFrom iam (.coap ref d (.pairLocalInitial p)) w := by
      intro fpName c' h
      unfold pairUser at h
      split at h
      · exact (no h).elim
      split at h
      · exact (no h).elim
      rename_i u' hu'
      obtain ⟨rfl, _⟩ := done_inj h
      obtain ⟨g, hg, rfl⟩ := add_owns hu'
      obtain ⟨n, hn, hf⟩ := (findUser_some _ _ _).mp hu
      refine cameFrom_upd ha (findUser_mem hu) ?_ hw
      refine .kept u (findUser_mem hu) rfl rfl rfl (.inl rfl) ?_
      rintro fp ⟨x, hx, rfl⟩
      rcases List.mem_append.mp hx with hx | hx
      · exact .inl ⟨x, hx, rfl⟩
      · right
        rw [List.mem_singleton.mp hx]
        obtain ⟨_, _, _, hname, _⟩ := hf
        exact .initial ref d p hp (by rw [hn, hname]) hg
    split at h
    · exact pu h
    · exact (no h).elim
    · exact (no h).elim
    · split at h
      · exact (no h).elim
      · exact pu h
  | pairLocalOpen p =>
    simp only [handle, hPairLocalOpen] at h
    split at h
    · exact (no h).elim
    rcases withAccess_done h with ⟨rfl, _⟩ | ⟨_, h⟩
    · exact absurd rfl hchg
    split at h
    · exact (no h).elim
    split at h
    · exact (no h).elim
    rcases withPayload_done h with ⟨rfl, _⟩ | ⟨v, _, h⟩
    · exact absurd rfl hchg
    split at h
    · rw [pairResponse_done h] at hw
      exact newClient_origin hw
    · exact (no h).elim
  | pairPasswordOpen p =>
    simp only [handle, hPairPasswordOpen] at h
    split at h
    · exact (no h).elim
    split at h
    · cases h
    · exact (no h).elim
    split at h
    · exact (no h).elim
    split at h
    · exact (no h).elim
    rcases withPayload_done h with ⟨rfl, _⟩ | ⟨v, _, h⟩
    · exact absurd rfl hchg
    split at h
    · exact (no h).elim
    split at h
    · rw [pairResponse_done h] at hw
      exact newClient_origin hw
    · exact (no h).elim
  | pairPasswordInvite p =>
    have hp := hok trivial
    simp only [handle, hPairPasswordInvite] at h
    split at h
    · exact (no h).elim
    rcases withAccess_done h with ⟨rfl, _⟩ | ⟨_, h⟩
    · exact absurd rfl hchg
    split at h
    · exact (no h).elim
    split at h
    · exact (no h).elim
    rename_i username hun
    split at h
    · exact (no h).elim
    rename_i user hu
    split at h
    · exact (no h).elim
    split at h
    · split at h <;> exact (no h).elim
    split at h
    · exact (no h).elim
    split at h
    · exact (no h).elim
    rename_i u' hu'
    obtain ⟨rfl, _⟩ := done_inj h
    obtain ⟨g, hg, rfl⟩ := add_owns hu'
    refine cameFrom_upd ha (findUser_mem hu) ?_ hw
    refine .kept user (findUser_mem hu) rfl rfl rfl (.inr rfl) ?_
    rintro fp ⟨x, hx, rfl⟩
    rcases List.mem_append.mp hx with hx | hx
    · exact .inl ⟨x, hx, rfl⟩
    · right
      rw [List.mem_singleton.mp hx]
      exact .invite ref d p hp (by rw [hun, findUser_name hu]) hg
  | _ => exact (by rcases hr with hr | ⟨_, hr⟩ <;> exact hr.elim)

/-- A step somebody outside takes. -/
theorem outsider_step {E : Env} (hE : Overwrites E.ins) {iam iam1 : Iam} (hc : iam.conf = defaultConfig) (ha : AddrOk iam)
    {e : Ev} (hP : Outsider iam e) (hs : step E iam e = some iam1) :
    iam1.conf = defaultConfig ∧ iam1.state.openPairingRole = iam.state.openPairingRole ∧
      ∀ w ∈ iam1.state.users, CameFrom iam e w := by
  cases e with
  | api d op => exact hP.1.elim
  | closed ref =>
    simp only [step, Option.some.injEq] at hs; subst hs
    exact ⟨hc, rfl, fun w hw => .same hw⟩
  | callbacks =>
    simp only [step, Option.some.injEq] at hs; subst hs
    obtain ⟨h1, _, _, _, _, h6⟩ := doCallbacks_frame iam
    rw [h1, h6]
    exact ⟨hc, rfl, fun w hw => .same hw⟩
  | coap ref d r =>
    obtain ⟨x, c, hx, rfl⟩ := step_coap hs
    have hf := handle_frame hx
    refine ⟨by rw [← hc]; exact hf.conf, hf.role, fun w hw => ?_⟩
    by_cases hchg : x.state = iam.state
    · exact .same (by rw [← hchg]; exact hw)
    · have := change_cases E hE iam x hc d ref r c hx hchg (fun u hu => hP.2 ref d r u rfl hu)
      exact handle_origin ha hx (this.imp_right fun ⟨u, _, h⟩ => ⟨u.username, h⟩) hchg hw

end Verif.Apps
