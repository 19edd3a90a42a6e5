import Verif.Iam.JsonText
import Verif.Iam.PolicyProps

/-!
# IAM serializer — properties
-/

namespace Verif.Iam

open Verif.Json (Json Strtod enc lower someStrtod getItem)
open Spec

/-! ## C15, C16: round trips -/

/-- A text loads as at most one state. -/
theorem stateLoads_unique {S text st st'} (h : StateLoads S text st) (h' : StateLoads S text st') : st = st' := by
  obtain ⟨d, h1, h2⟩ := h
  obtain ⟨d', h1', h2'⟩ := h'
  rw [h1] at h1'
  have : d = d' := map_inj d d' (Json.R.ok.inj h1')
  subst this
  rw [h2] at h2'
  exact Option.some.inj h2'

/-- A text loads as at most one configuration. -/
theorem configLoads_unique {S text c c'} (h : ConfigLoads S text c) (h' : ConfigLoads S text c') : c = c' := by
  obtain ⟨d, h1, h2⟩ := h
  obtain ⟨d', h1', h2'⟩ := h'
  rw [h1] at h1'
  have : d = d' := map_inj d d' (Json.R.ok.inj h1')
  subst this
  rw [h2] at h2'
  exact Option.some.inj h2'

/-- Dumping a state succeeds when no allocation fails, and loading the text gives the same state back. -/
theorem C15_state_round_trip (S : Strtod) (st : IamState)
    (hu : ∀ u ∈ st.users, validateUsername u.username = true ∧ u.notificationCategories.Nodup)
    (hs : ∀ s ∈ stateStrings st, CString s) :
    ∃ text st', (stateDump st []).1 = some text ∧ StateLoads S text st' ∧ SameState st' st := by
  refine ⟨Json.text (stateDoc st), { st with users := st.users.map noAddr }, ?_, ⟨stateDoc st, ?_, ?_⟩, ?_⟩
  · simp only [stateDump, bind_run, stateToJson_ok, finishDump, alloc_ok]
    rfl
  · exact Json.C70_parse_print S _ (good_state hs)
  · exact stateFromJson_doc hu
  · simp [SameState, noAddr]

/-- Dumping a configuration succeeds when no allocation fails, and loading the text gives the same configuration
back. -/
theorem C16_config_round_trip (S : Strtod) (c : Config)
    (hp : ∀ p ∈ c.policies, ∀ s ∈ p.statements, (s.effect = .allow ∨ s.effect = .deny) ∧ s.actions.Nodup ∧
      ∀ c ∈ s.conditions, c.values.Nodup)
    (hr : ∀ r ∈ c.roles, r.policies.Nodup)
    (hs : ∀ s ∈ configStrings c, CString s) :
    ∃ text, (configDump c []).1 = some text ∧ ConfigLoads S text c := by
  refine ⟨Json.text (configDoc c), ?_, ⟨configDoc c, ?_, ?_⟩⟩
  · simp only [configDump, bind_run, configToJson_ok, finishDump, alloc_ok]
    rfl
  · exact Json.C70_parse_print S _ (good_config hs)
  · exact configFromJson_doc ⟨hp, hr⟩

/-- A reloaded configuration takes the same decisions. -/
theorem C16_same_decisions (S : Strtod) (c c' : Config) (text : Json.Bytes)
    (hp : ∀ p ∈ c.policies, ∀ s ∈ p.statements, (s.effect = .allow ∨ s.effect = .deny) ∧ s.actions.Nodup ∧
      ∀ c ∈ s.conditions, c.values.Nodup)
    (hr : ∀ r ∈ c.roles, r.policies.Nodup)
    (hs : ∀ s ∈ configStrings c, CString s)
    (hd : (configDump c []).1 = some text) (hl : ConfigLoads S text c')
    (N : NumSem) (role : Role) (action : String) (attrs : Attrs) :
    checkAccessRole N c' role action attrs = checkAccessRole N c role action attrs := by
  obtain ⟨text', h1, h2⟩ := C16_config_round_trip S c hp hr hs
  rw [hd] at h1
  cases h1
  rw [configLoads_unique hl h2]

/-- A state with a user who has every field, another one who has none, and a name with a quote. -/
def demoState : IamState :=
  { users := [
      { addr := 3, username := "alice", displayName := some "A \"quoted\" name", role := some "Admin",
        password := some "pw", sct := some "tok", fcmToken := some "t", fcmProjectId := some "p",
        notificationCategories := ["info", "warn"], oauthSubject := some "s",
        fingerprints := [⟨"aa", some "phone"⟩, ⟨"bb", none⟩] },
      { addr := 4, username := "bob" }],
    passwordOpenPassword := some "", localOpenPairing := true, friendlyName := some "Dev" }

example : (∀ u ∈ demoState.users, validateUsername u.username = true ∧ u.notificationCategories.Nodup) ∧
    (∀ s ∈ stateStrings demoState, CString s) := by decide

/-- A configuration with conditions. -/
def demoConfig : Config :=
  { policies := [⟨"P", [⟨.allow, ["IAM:GetUser", "IAM:ListUsers"], [⟨.stringEquals, "IAM:UserId", ["alice", "bob"]⟩,
      ⟨.bool, "Connection:IsLocal", ["true"]⟩]⟩, ⟨.deny, ["IAM:ListUsers"], []⟩]⟩]
    roles := [⟨"R", ["P"]⟩]
    unpairedRole := some "R" }

example : (∀ p ∈ demoConfig.policies, ∀ s ∈ p.statements, (s.effect = .allow ∨ s.effect = .deny) ∧ s.actions.Nodup ∧
      ∀ c ∈ s.conditions, c.values.Nodup) ∧ (∀ r ∈ demoConfig.roles, r.policies.Nodup) ∧
    (∀ s ∈ configStrings demoConfig, CString s) := by decide

/-! ## C17: what is written is enforced -/

/-- The claim: every restriction in an accepted statement is enforced. -/
def C17_claim : Prop := ∀ doc s, statementFromJson doc = some s → ∀ r ∈ written doc, Enforced s r

/-- A statement document with the given conditions. -/
def stmtWith (conditions : List (String × Doc)) : Doc :=
  .obj ([("Effect", .str "Allow"), ("Actions", .arr [.str "IAM:GetUser"])] ++ conditions)

/-- `["true"]`. -/
def isTrue : Doc := .arr [.str "true"]

/-- Two operators in one condition: the second one is dropped. The statement then allows a request for which the
condition as written does not hold. -/
theorem C17_second_operator_violated :
    ∃ doc s r, statementFromJson doc = some s ∧ r ∈ written doc ∧ ¬ Enforced s r ∧
      ∃ attrs, ∀ N, statementEval N s "IAM:GetUser" attrs = .allow ∧
        ∀ c, Means r c → conditionMatches N c attrs = .noMatch := by
  refine ⟨stmtWith [("Conditions", .arr [.obj [("StringEquals", .obj [("IAM:UserId", .arr [.str "alice"])]),
      ("Bool", .obj [("Connection:IsLocal", isTrue)])]])],
    ⟨.allow, ["IAM:GetUser"], [⟨.stringEquals, "IAM:UserId", ["alice"]⟩]⟩, ("Bool", "Connection:IsLocal", isTrue),
    by rfl, by simp [stmtWith, written, inConditions, inCondition, lower], ?_, ?_⟩
  · rintro ⟨c, hc, _, hk, _⟩
    simp only [List.mem_singleton] at hc
    subst hc
    exact absurd hk (by decide)
  · refine ⟨[("IAM:UserId", "alice"), ("Connection:IsLocal", "false")], fun N => ⟨by rfl, ?_⟩⟩
    rintro ⟨op, key, vs⟩ ⟨hop, hk, ws, hw, hv⟩
    simp only at hop hk hv hw
    subst hk
    have hop : op = .bool := by simp [opNames] at hop; exact hop
    subst hop
    have hws : ws = ["true"] := by
      cases ws with
      | nil => simp [isTrue] at hw
      | cons w ws =>
        cases ws with
        | nil => simp [isTrue] at hw; rw [hw]
        | cons _ _ => simp [isTrue] at hw
    subst hws
    have hm : ∀ l : List String, (∀ v ∈ l, v = "true") →
        matchValues N [("IAM:UserId", "alice"), ("Connection:IsLocal", "false")] .bool "false" l = .noMatch := by
      intro l
      induction l with
      | nil => intro _; rfl
      | cons v l ih =>
        intro h
        have := h v (by simp)
        subst this
        rw [matchValues]
        have hr : resolveValue [("IAM:UserId", "alice"), ("Connection:IsLocal", "false")] "true" = some "true" := by decide
        have hb : matchOp N .bool "false" "true" = .noMatch := by rfl
        rw [hr]
        simp only [hb]
        exact ih (fun w hw => h w (by simp [hw]))
    show matchValues N _ .bool "false" vs = .noMatch
    exact hm vs (fun v h => by simpa using (hv v).1 h)

/-- Two attributes for one operator: the second one is dropped. -/
theorem C17_second_attribute_violated : ∃ doc s r, statementFromJson doc = some s ∧ r ∈ written doc ∧ ¬ Enforced s r := by
  refine ⟨stmtWith [("Conditions", .arr [.obj [("Bool", .obj [("Connection:IsLocal", isTrue), ("TcpTunnel:Ok", isTrue)])]])],
    ⟨.allow, ["IAM:GetUser"], [⟨.bool, "Connection:IsLocal", ["true"]⟩]⟩, ("Bool", "TcpTunnel:Ok", isTrue),
    by rfl, by simp [stmtWith, written, inConditions, inCondition, lower], ?_⟩
  rintro ⟨c, hc, _, hk, _⟩
  simp only [List.mem_singleton] at hc
  subst hc
  exact absurd hk (by decide)

/-- `Conditions` written as one condition, not as a list: it is ignored, the statement applies to every request. -/
theorem C17_not_a_list_violated : ∃ doc s r, statementFromJson doc = some s ∧ r ∈ written doc ∧ s.conditions = [] := by
  exact ⟨stmtWith [("Conditions", .obj [("Bool", .obj [("Connection:IsLocal", isTrue)])])],
    ⟨.allow, ["IAM:GetUser"], []⟩, ("Bool", "Connection:IsLocal", isTrue),
    by rfl, by simp [stmtWith, written, inConditions, inCondition, lower], rfl⟩

/-- `Conditions` written twice: the second one is ignored. -/
theorem C17_second_list_violated : ∃ doc s r, statementFromJson doc = some s ∧ r ∈ written doc ∧ s.conditions = [] := by
  exact ⟨stmtWith [("Conditions", .arr []), ("Conditions", .arr [.obj [("Bool", .obj [("Connection:IsLocal", isTrue)])]])],
    ⟨.allow, ["IAM:GetUser"], []⟩, ("Bool", "Connection:IsLocal", isTrue),
    by rfl, by simp [stmtWith, written, inConditions, inCondition, lower], rfl⟩

/-- A policy reference in a role which is not a string is ignored, so a policy with Deny statements can be lost. -/
theorem C17_role_entry_violated : ∃ doc r, roleFromJson doc = some r ∧
    (∃ l, getItem doc "Policies" = some (.arr l) ∧ l.length = 2) ∧ r.policies = ["AllowAll"] :=
  ⟨.obj [("Id", .str "R"), ("Policies", .arr [.str "AllowAll", .arr [.str "DenyPairing"]])], ⟨"R", ["AllowAll"]⟩,
    by rfl, ⟨_, by rfl, by rfl⟩, by rfl⟩

theorem C17_violated : ¬ C17_claim := by
  intro h
  obtain ⟨doc, s, r, h1, h2, h3⟩ := C17_second_attribute_violated
  exact h3 (h doc s h1 r h2)

/-- In a document in the canonical form every restriction is enforced. -/
theorem C17_canonical_enforced_partial (doc : Doc) (s : Statement) (h : statementFromJson doc = some s) (hc : Canonical doc) :
    ∀ r ∈ written doc, Enforced s r := by
  intro r hr
  cases doc with
  | obj ms =>
    simp only [written, List.mem_flatMap, List.mem_filter, decide_eq_true_eq] at hr
    obtain ⟨m, ⟨hm, hn⟩, hr⟩ := hr
    obtain ⟨h1, l, hl, hcl⟩ := hc m hm hn
    have hg : getItem (.obj ms) "Conditions" = some m.2 := by
      have : ∀ ms : List (String × Doc), m ∈ ms →
          (ms.filter (fun m => lower m.1 = lower "Conditions")).length = 1 → Json.find ms "Conditions" = some m.2 := by
        intro ms
        induction ms with
        | nil => intro h; cases h
        | cons x ms ih =>
          intro hm hl
          rw [Json.find]
          by_cases hx : lower x.1 = lower "Conditions"
          · rw [if_pos hx]
            rw [List.filter_cons, if_pos (by simpa using hx)] at hl
            rw [List.mem_cons] at hm
            rcases hm with rfl | hm
            · rfl
            · exfalso
              have : m ∈ ms.filter (fun m => lower m.1 = lower "Conditions") := by
                rw [List.mem_filter]; exact ⟨hm, by simpa using hn⟩
              simp only [List.length_cons] at hl
              have := List.length_pos_of_mem this
              omega
          · rw [if_neg hx]
            rw [List.filter_cons, if_neg (by simpa using hx)] at hl
            rw [List.mem_cons] at hm
            rcases hm with rfl | hm
            · exact absurd hn hx
            · exact ih hm hl
      exact this ms hm h1
    obtain ⟨_, _, _, _, _, _, hcond⟩ := statementFromJson_spec h
    rcases hcond with ⟨l', hl', hmap⟩ | ⟨hno, _⟩
    · rw [hg, hl] at hl'
      cases hl'
      rw [hl] at hr
      simp only [inConditions, List.mem_flatMap] at hr
      obtain ⟨j, hj, hr⟩ := hr
      have : conditionFromJson j ∈ s.conditions.map some := by
        rw [← hmap]; exact List.mem_map_of_mem hj
      rw [List.mem_map] at this
      obtain ⟨c, hcm, hcj⟩ := this
      obtain ⟨op, kv, ops, key, values, kvs, e1, e2, hmean⟩ := conditionFromJson_spec hcj.symm
      obtain ⟨op', kv', e3, hlen⟩ := hcl j hj
      rw [e1] at e3
      cases e3
      rw [e2] at hlen
      have : kvs = [] := by
        cases kvs with
        | nil => rfl
        | cons _ _ => simp at hlen
      subst this
      rw [e1, e2] at hr
      simp only [inCondition, List.flatMap_cons, List.flatMap_nil, List.append_nil, List.map_cons, List.map_nil,
        List.mem_singleton] at hr
      exact ⟨c, hcm, by rw [hr]; exact hmean⟩
    · rw [hg, hl] at hno
      exact absurd rfl (hno l)
  | _ => simp [written] at hr

/-- In every accepted document, no condition is made up, and the effect and the actions are those which are written. -/
theorem C17_nothing_invented_partial (doc : Doc) (s : Statement) (h : statementFromJson doc = some s) :
    (∀ c ∈ s.conditions, ∃ r ∈ written doc, Means r c) ∧
    ((getItem doc "Effect" = some (.str "Allow") ∧ s.effect = .allow) ∨
      (getItem doc "Effect" = some (.str "Deny") ∧ s.effect = .deny)) ∧
    ∃ vs : List String, getItem doc "Actions" = some (.arr (vs.map .str)) ∧ ∀ v, v ∈ s.actions ↔ v ∈ vs := by
  obtain ⟨e, vs, h1, h2, h3, h4, h5⟩ := statementFromJson_spec h
  refine ⟨?_, ?_, vs, h3, h4⟩
  · intro c hc
    rcases h5 with ⟨l, hl, hmap⟩ | ⟨_, hnil⟩
    · have : some c ∈ l.map conditionFromJson := by rw [hmap]; exact List.mem_map_of_mem hc
      rw [List.mem_map] at this
      obtain ⟨j, hj, hcj⟩ := this
      obtain ⟨op, kv, ops, key, values, kvs, e1, e2, hmean⟩ := conditionFromJson_spec hcj
      refine ⟨_, ?_, hmean⟩
      cases doc with
      | obj ms =>
        obtain ⟨k, hk1, hk2⟩ := find_mem hl
        simp only [written, List.mem_flatMap, List.mem_filter, decide_eq_true_eq]
        refine ⟨_, ⟨hk1, hk2⟩, ?_⟩
        simp only [inConditions, List.mem_flatMap]
        refine ⟨j, hj, ?_⟩
        subst e1 e2
        simp [inCondition]
      | _ => cases hl
    · rw [hnil] at hc; cases hc
  · unfold parseEffect at h2
    split at h2
    · next he => subst he; exact .inl ⟨h1, (Option.some.inj h2).symm⟩
    · split at h2
      · next he => subst he; exact .inr ⟨h1, (Option.some.inj h2).symm⟩
      · cases h2

/-- No statement of an accepted policy, and no policy or role of an accepted configuration, is left out. -/
theorem C17_nothing_dropped_partial :
    (∀ doc p, policyFromJson doc = some p →
      ∃ l, getItem doc "Statements" = some (.arr l) ∧ l.map statementFromJson = p.statements.map some) ∧
    (∀ doc c, configFromJson ⟨[], [], none⟩ doc = some c →
      (∃ l, getItem doc "Policies" = some (.arr l) ∧ l.map policyFromJson = c.policies.map some) ∧
      (∃ l, getItem doc "Roles" = some (.arr l) ∧ l.map roleFromJson = c.roles.map some)) := by
  constructor
  · intro doc p h
    unfold policyFromJson at h
    split at h
    · cases h
    · split at h
      · next id l h1 h2 =>
        rw [Option.map_eq_some_iff] at h
        obtain ⟨ss, hs, rfl⟩ := h
        exact ⟨l, asArr_eq h2, loadAll_spec hs⟩
      · cases h
  · intro doc c h
    unfold configFromJson at h
    split at h
    · cases h
    · split at h
      · next ps rs h1 h2 =>
        split at h
        · cases h
        · split at h
          · next config hc =>
            cases hp : loadAll policyFromJson ps with
            | none => rw [hp] at h; cases h
            | some ps' =>
              cases hr : loadAll roleFromJson rs with
              | none => rw [hp, hr] at h; cases h
              | some rs' =>
                rw [hp, hr] at h
                cases h
                exact ⟨⟨ps, asArr_eq h1, by simpa using loadAll_spec hp⟩, ⟨rs, asArr_eq h2, by simpa using loadAll_spec hr⟩⟩
          · cases h
      · cases h

/-- The documents which the dump function writes are in the canonical form. -/
theorem C17_dump_canonical (s : Statement) : Canonical (statementDoc s) := by
  have n1 : lower "Effect" ≠ lower "Conditions" := by decide
  have n2 : lower "Actions" ≠ lower "Conditions" := by decide
  unfold statementDoc
  by_cases hc : s.conditions = []
  · rw [if_neg (by simp [hc])]
    intro m hm hl
    exfalso
    cases he : s.effect <;> rw [he] at hm <;> simp [effectMember] at hm <;> grind
  · rw [if_pos hc]
    intro m hm hl
    constructor
    · cases he : s.effect <;> simp [effectMember, n1, n2]
    · have : m = ("Conditions", .arr (s.conditions.map conditionDoc)) := by
        cases he : s.effect <;> rw [he] at hm <;> simp [effectMember] at hm <;> grind
      subst this
      refine ⟨_, rfl, ?_⟩
      intro c hc
      rw [List.mem_map] at hc
      obtain ⟨c, _, rfl⟩ := hc
      exact ⟨_, _, rfl, by simp⟩

/-- A canonical document which is accepted. -/
example : ∃ s, statementFromJson (statementDoc ⟨.allow, ["A"], [⟨.bool, "k", ["true"]⟩]⟩) = some s ∧ s.conditions ≠ [] :=
  ⟨_, statementFromJson_doc (by unfold StatementOk; decide), by decide⟩

/-! ## C69: a dump which reports success is complete -/

/-- The claim: if the dump reports success, loading the text gives the configuration back. -/
def C69_claim : Prop := ∀ S c oracle text c', (configDump c oracle).1 = some text → ConfigLoads S text c' →
  (∀ p ∈ c.policies, ∀ s ∈ p.statements, (s.effect = .allow ∨ s.effect = .deny) ∧ s.actions.Nodup ∧
    ∀ c ∈ s.conditions, c.values.Nodup) → (∀ r ∈ c.roles, r.policies.Nodup) → c' = c

/-- A policy which allows an action on local connections only. -/
def localOnly : Config :=
  { policies := [⟨"P", [⟨.allow, ["IAM:GetUser"], [⟨.bool, "Connection:IsLocal", ["true"]⟩]⟩]⟩]
    roles := [⟨"R", ["P"]⟩], unpairedRole := some "R" }

/-- The same without the condition. -/
def everywhere : Config :=
  { policies := [⟨"P", [⟨.allow, ["IAM:GetUser"], []⟩]⟩], roles := [⟨"R", ["P"]⟩], unpairedRole := some "R" }

/-- What is left of `localOnly` when the allocation of the name `Conditions` fails. -/
def lostCondition : Doc := .obj [
  ("Version", .num 1),
  ("Policies", .arr [.obj [("Id", .str "P"), ("Statements", .arr [.obj [("Effect", .str "Allow"),
    ("Actions", .arr [.str "IAM:GetUser"])]])]]),
  ("Roles", .arr [.obj [("Id", .str "R"), ("Policies", .arr [.str "P"])]]),
  ("Config", .obj [("UnpairedRole", .str "R")])]

theorem good_lostCondition : Good 0 lostCondition := good_config (c := everywhere) (by decide)

/-- When one allocation fails the dump still reports success, and the text is that of a configuration without the
condition: after a reload remote connections are allowed what only local ones were allowed. -/
theorem C69_condition_lost_violated : ∃ oracle text, (configDump localOnly oracle).1 = some text ∧
    (∀ S, ConfigLoads S text everywhere) ∧
    ∀ N, checkAccessRole N localOnly ⟨"R", ["P"]⟩ "IAM:GetUser" [("Connection:IsLocal", "false")] = .noMatch ∧
      checkAccessRole N everywhere ⟨"R", ["P"]⟩ "IAM:GetUser" [("Connection:IsLocal", "false")] = .allow := by
  refine ⟨List.replicate 25 true ++ [false], Json.text lostCondition, ?_, fun S => ⟨lostCondition, ?_, ?_⟩, fun N => ⟨?_, ?_⟩⟩
  · have : configToJson localOnly (List.replicate 25 true ++ [false]) = (some lostCondition, []) := by rfl
    simp only [configDump, bind_run, this, finishDump, alloc_ok]
    rfl
  · exact Json.C70_parse_print S _ good_lostCondition
  · rfl
  · rfl
  · rfl

/-- A state with one user. -/
def oneUser : IamState := { users := [{ addr := 0, username := "alice", role := some "Admin" }] }

/-- The document of `oneUser` when the allocation of the user name fails. -/
def lostUser : Doc := .obj [
  ("Version", .num 2), ("LocalOpenPairing", .bool false), ("PasswordOpenPairing", .bool false),
  ("PasswordInvitePairing", .bool false), ("LocalInitialPairing", .bool false),
  ("Users", .arr [.obj [("Fingerprints", .arr []), ("Role", .str "Admin")]])]

theorem good_lostUser : Good 0 lostUser := by
  refine .obj (by omega) (good_cons (by decide) (.num (by unfold Json.isInt; omega)) (good_cons (by decide) .bool
    (good_cons (by decide) .bool (good_cons (by decide) .bool (good_cons (by decide) .bool (good_cons (by decide) ?_
    good_nil))))))
  refine .arr (by omega) ?_
  intro x hx
  rw [List.mem_singleton] at hx
  subst hx
  exact .obj (by omega) (good_cons (by decide) (.arr (by omega) (by simp)) (good_cons (by decide) (.str (by decide)) good_nil))

/-- When one allocation fails the dump of a state still reports success, and the user is gone after a reload. -/
theorem C69_user_lost_violated : ∃ oracle text, (stateDump oneUser oracle).1 = some text ∧
    ∀ S, StateLoads S text {} := by
  refine ⟨List.replicate 13 true ++ [false], Json.text lostUser, ?_, fun S => ⟨lostUser, ?_, ?_⟩⟩
  · have : stateToJson oneUser (List.replicate 13 true ++ [false]) = (some lostUser, []) := by rfl
    simp only [stateDump, bind_run, this, finishDump, alloc_ok]
    rfl
  · exact Json.C70_parse_print S _ good_lostUser
  · rfl

theorem C69_violated : ¬ C69_claim := by
  intro h
  obtain ⟨o, text, h1, h2, _⟩ := C69_condition_lost_violated
  have := h someStrtod localOnly o text everywhere h1 (h2 _) (by decide) (by decide)
  exact absurd this (by decide)

/-- A dump during which no allocation fails is complete: the configuration and the state come back. -/
theorem C69_no_failure_partial (oracle : List Bool) (ho : ∀ b ∈ oracle, b = true) (S : Strtod) :
    (∀ c text, (∀ p ∈ c.policies, ∀ s ∈ p.statements, (s.effect = .allow ∨ s.effect = .deny) ∧ s.actions.Nodup ∧
        ∀ c ∈ s.conditions, c.values.Nodup) → (∀ r ∈ c.roles, r.policies.Nodup) → (∀ s ∈ configStrings c, CString s) →
      (configDump c oracle).1 = some text → ConfigLoads S text c) ∧
    (∀ st text, (∀ u ∈ st.users, validateUsername u.username = true ∧ u.notificationCategories.Nodup) →
        (∀ s ∈ stateStrings st, CString s) →
      (stateDump st oracle).1 = some text → ∃ st', StateLoads S text st' ∧ SameState st' st) := by
  constructor
  · intro c text hp hr hs hd
    obtain ⟨text', h1, h2⟩ := C16_config_round_trip S c hp hr hs
    rw [((configDump_stable c) oracle ho).1, h1] at hd
    cases hd
    exact h2
  · intro st text hu hs hd
    obtain ⟨text', st', h1, h2, h3⟩ := C15_state_round_trip S st hu hs
    rw [((stateDump_stable st) oracle ho).1, h1] at hd
    cases hd
    exact ⟨st', h2, h3⟩

/-- A dump is never successful when the last allocation, that of the text, fails. -/
example : (configDump localOnly (List.replicate 43 true ++ [false])).1 = none := by rfl

end Verif.Iam
