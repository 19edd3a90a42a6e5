import Verif.Iam.Json
import Verif.Json.CjsonProps

/-!
# IAM serializer — lemmas
-/

namespace Verif.Iam

open Verif.Json (Json M create createString addItem addElem addString addOpt addAll addArray alloc getItem asStr asArr
  asBool asNum isObj find lower)

/-! ## Dumping when allocations succeed -/

theorem bind_run {α β} (m : M α) (f : α → M β) (o : List Bool) : (m >>= f) o = f (m o).1 (m o).2 := rfl

theorem pure_run {α} (a : α) (o : List Bool) : (pure a : M α) o = (a, o) := rfl

theorem alloc_ok : alloc [] = (true, []) := rfl

theorem create_ok (j : Doc) : create j [] = (some j, []) := rfl

theorem createString_ok (s : String) : createString s [] = (some (.str s), []) := rfl

theorem addItem_ok (l : List (String × Doc)) (k : String) (x : Doc) :
    addItem (some (.obj l)) k (some x) [] = (some (.obj (l ++ [(k, x)])), []) := rfl

/-- The member of an optional string. -/
def optMember (k : String) (s : Option String) : List (String × Doc) :=
  match s with
  | none => []
  | some s => [(k, .str s)]

theorem addOpt_ok (l : List (String × Doc)) (k : String) (s : Option String) :
    addOpt (some (.obj l)) k s [] = (some (.obj (l ++ optMember k s)), []) := by
  cases s with
  | none => simp [addOpt, optMember, pure_run]
  | some s => rfl

theorem addString_ok (l : List (String × Doc)) (k : String) (s : Option String) :
    addString (some (.obj l)) k s [] = (some (.obj (l ++ optMember k s)), []) := by
  cases s with
  | none => simp [addString, optMember, pure_run, bind_run, alloc_ok]
  | some s => rfl

theorem addAll_ok {α} {f : α → M (Option Doc)} {g : α → Doc} (h : ∀ x, f x [] = (some (g x), [])) (xs : List α)
    (l : List Doc) : addAll f (some (.arr l)) xs [] = (some (.arr (l ++ xs.map g)), []) := by
  induction xs generalizing l with
  | nil => simp [addAll, pure_run]
  | cons x xs ih =>
    rw [addAll, bind_run, h]
    simp only [addElem]
    rw [ih]
    simp

theorem addArray_ok {α} {f : α → M (Option Doc)} {g : α → Doc} (h : ∀ x, f x [] = (some (g x), [])) (xs : List α)
    (l : List (String × Doc)) (k : String) :
    addArray (some (.obj l)) k f xs [] = (some (.obj (l ++ [(k, .arr (xs.map g))])), []) := by
  have h1 := addAll_ok h xs []
  change (fun r : Option Doc × List Bool => (match r.1 with
    | some a => (pure (some (.obj (l ++ [(k, a)]))) : M (Option Doc))
    | none => pure (some (.obj l))) r.2) (addAll f (some (.arr [])) xs []) = _
  rw [h1]
  rfl

/-- The document of a set. -/
def setDoc (l : List String) : Doc := .arr (l.map .str)

theorem setToJson_ok (l : List String) : setToJson l [] = (some (setDoc l), []) := by
  simp only [setToJson, bind_run, create_ok, addAll_ok createString_ok, List.nil_append, setDoc]

/-- The document of a condition. -/
def conditionDoc (c : Condition) : Doc := .obj [(opToString c.op, .obj [(c.key, setDoc c.values)])]

theorem conditionToJson_ok (c : Condition) : conditionToJson c [] = (some (conditionDoc c), []) := by
  simp only [conditionToJson, bind_run, create_ok, setToJson_ok, addItem_ok, List.nil_append, conditionDoc]

/-- The name of an effect. -/
def effectMember : Effect → List (String × Doc)
  | .allow => [("Effect", .str "Allow")]
  | .deny => [("Effect", .str "Deny")]
  | _ => []

/-- The document of a statement. -/
def statementDoc (s : Statement) : Doc :=
  .obj (effectMember s.effect ++ ("Actions", setDoc s.actions) ::
    if s.conditions ≠ [] then [("Conditions", .arr (s.conditions.map conditionDoc))] else [])

theorem statementToJson_ok (s : Statement) : statementToJson s [] = (some (statementDoc s), []) := by
  obtain ⟨e, a, c⟩ := s
  unfold statementToJson statementDoc addEffect
  cases e <;> by_cases hc : c = [] <;>
    simp [bind_run, pure_run, create_ok, createString_ok, addItem_ok, setToJson_ok, hc, effectMember, conditionsToJson,
      addAll_ok conditionToJson_ok]

/-- The document of a policy. -/
def policyDoc (p : Policy) : Doc := .obj [("Id", .str p.id), ("Statements", .arr (p.statements.map statementDoc))]

theorem policyToJson_ok (p : Policy) : policyToJson p [] = (some (policyDoc p), []) := by
  simp only [policyToJson, bind_run, create_ok, createString_ok, addItem_ok, addAll_ok statementToJson_ok,
    List.nil_append, List.cons_append, policyDoc]

/-- The document of a role. -/
def roleDoc (r : Role) : Doc := .obj [("Id", .str r.id), ("Policies", setDoc r.policies)]

theorem roleToJson_ok (r : Role) : roleToJson r [] = (some (roleDoc r), []) := by
  simp only [roleToJson, bind_run, create_ok, createString_ok, addItem_ok, setToJson_ok, List.nil_append,
    List.cons_append, roleDoc]

/-- The document of a configuration. -/
def configDoc (c : Config) : Doc := .obj [
  ("Version", .num 1),
  ("Policies", .arr (c.policies.map policyDoc)),
  ("Roles", .arr (c.roles.map roleDoc)),
  ("Config", .obj (optMember "UnpairedRole" c.unpairedRole))]

theorem configToJson_ok (c : Config) : configToJson c [] = (some (configDoc c), []) := by
  simp only [configToJson, bind_run, create_ok, addItem_ok, addAll_ok policyToJson_ok, addAll_ok roleToJson_ok,
    addString_ok, List.nil_append, List.cons_append, configDoc]

/-- The document of a fingerprint. -/
def fpDoc (f : Fp) : Doc := .obj (("Fingerprint", .str f.fingerprint) :: optMember "Name" f.name)

theorem fpToJson_ok (f : Fp) : fpToJson f [] = (some (fpDoc f), []) := by
  simp only [fpToJson, bind_run, create_ok, createString_ok, addItem_ok, addOpt_ok, List.nil_append, List.cons_append,
    fpDoc]

/-- The member with the notification data. -/
def fcmMember (u : User) : List (String × Doc) :=
  if u.fcmToken ≠ none ∨ u.fcmProjectId ≠ none then
    [("Fcm", .obj (optMember "Token" u.fcmToken ++ optMember "ProjectId" u.fcmProjectId))]
  else []

/-- The member with the categories. -/
def categoriesMember (u : User) : List (String × Doc) :=
  if u.notificationCategories ≠ [] then [("NotificationCategories", setDoc u.notificationCategories)] else []

/-- The document of a user. -/
def userDoc (u : User) : Doc := .obj (
  ("Username", .str u.username) :: ("Fingerprints", .arr (u.fingerprints.map fpDoc)) ::
  (optMember "DisplayName" u.displayName ++ (optMember "ServerConnectToken" u.sct ++ (optMember "Password" u.password ++
  (optMember "Role" u.role ++ (fcmMember u ++ (categoriesMember u ++ optMember "OauthSubject" u.oauthSubject)))))))

theorem userToJson_ok (u : User) : userToJson u [] = (some (userDoc u), []) := by
  unfold userToJson userDoc fcmMember categoriesMember addFcm addCategories
  by_cases h1 : u.fcmToken ≠ none ∨ u.fcmProjectId ≠ none <;> by_cases h2 : u.notificationCategories = [] <;>
    simp only [bind_run, pure_run, create_ok, createString_ok, addItem_ok, addOpt_ok, addArray_ok fpToJson_ok,
      setToJson_ok, List.nil_append, List.cons_append, List.append_assoc, h1, h2, if_true, if_false, ne_eq, not_true,
      not_false_eq_true]

/-- The document of a state. -/
def stateDoc (st : IamState) : Doc := .obj (
  ("Version", .num 2) :: (optMember "OpenPairingPassword" st.passwordOpenPassword ++
  (optMember "OpenPairingSct" st.passwordOpenSct ++
  ("LocalOpenPairing", .bool st.localOpenPairing) :: ("PasswordOpenPairing", .bool st.passwordOpenPairing) ::
  ("PasswordInvitePairing", .bool st.passwordInvitePairing) :: ("LocalInitialPairing", .bool st.localInitialPairing) ::
  (optMember "OpenPairingRole" st.openPairingRole ++ (optMember "InitialPairingUsername" st.initialPairingUsername ++
  (optMember "FriendlyName" st.friendlyName ++ [("Users", .arr (st.users.map userDoc))]))))))

theorem stateToJson_ok (st : IamState) : stateToJson st [] = (some (stateDoc st), []) := by
  simp only [stateToJson, stateDoc, bind_run, create_ok, addItem_ok, addOpt_ok, addAll_ok userToJson_ok,
    List.nil_append, List.cons_append, List.append_assoc]

/-! ## Loading what was dumped -/

theorem asStr_str (s : String) : asStr (some (.str s)) = some s := rfl

theorem asArr_arr (l : List Doc) : asArr (some (.arr l)) = some l := rfl

theorem asArr_none : asArr none = none := rfl

theorem find_nil (n : String) : find [] n = none := rfl

theorem find_cons_ne {k x l n} (h : lower k ≠ lower n) : find ((k, x) :: l) n = find l n := by
  rw [find]; exact if_neg h

theorem find_cons_eq {x l n} : find ((n, x) :: l) n = some x := by
  rw [find]; exact if_pos rfl

theorem find_opt_ne {k s l n} (h : lower k ≠ lower n) : find (optMember k s ++ l) n = find l n := by
  cases s with
  | none => rfl
  | some s => exact find_cons_ne h

theorem find_opt_end_ne {k s n} (h : lower k ≠ lower n) : find (optMember k s) n = none := by
  cases s with
  | none => rfl
  | some s => exact find_cons_ne h

/-- Looking up an optional string which no later member hides. -/
theorem asStr_opt {k s l} (h : find l k = none) : asStr (find (optMember k s ++ l) k) = s := by
  cases s with
  | none => simp only [optMember, List.nil_append, h, asStr]
  | some s => simp only [optMember, List.cons_append, find_cons_eq, asStr]

theorem asStr_opt_end {k s} : asStr (find (optMember k s) k) = s := by
  cases s with
  | none => rfl
  | some s => simp only [optMember, find_cons_eq, asStr]

theorem setInsert_new {set s} (h : s ∉ set) : setInsert set s = set ++ [s] := if_neg h

theorem insertAll_map {set l : List String} (h : (set ++ l).Nodup) : insertAll set (l.map .str) = some (set ++ l) := by
  induction l generalizing set with
  | nil => simp [insertAll]
  | cons s l ih =>
    have hs : s ∉ set := by
      intro hm
      rw [List.nodup_append] at h
      exact h.2.2 s hm s (by simp) rfl
    rw [List.map_cons, insertAll, setInsert_new hs, ih (by simpa using h)]
    simp

theorem insertStrings_map {set l : List String} (h : (set ++ l).Nodup) : insertStrings set (l.map .str) = set ++ l := by
  induction l generalizing set with
  | nil => simp [insertStrings]
  | cons s l ih =>
    have hs : s ∉ set := by
      intro hm
      rw [List.nodup_append] at h
      exact h.2.2 s hm s (by simp) rfl
    rw [List.map_cons, insertStrings, setInsert_new hs, ih (by simpa using h)]
    simp

theorem parseOp_opToString (op : Op) : parseOp (opToString op) = some op := by cases op <;> decide

theorem loadAll_map {α β} {f : Doc → Option α} {g : β → Doc} {k : β → α} {l : List β} (h : ∀ x ∈ l, f (g x) = some (k x)) :
    loadAll f (l.map g) = some (l.map k) := by
  induction l with
  | nil => rfl
  | cons x l ih =>
    rw [List.map_cons, loadAll, h x (by simp), ih (fun y hy => h y (by simp [hy]))]
    rfl

theorem loadAll_id {α} {f : Doc → Option α} {g : α → Doc} {l : List α} (h : ∀ x ∈ l, f (g x) = some x) :
    loadAll f (l.map g) = some l := by
  simpa using loadAll_map (k := id) h

theorem conditionFromJson_doc {c : Condition} (h : c.values.Nodup) : conditionFromJson (conditionDoc c) = some c := by
  simp only [conditionDoc, conditionFromJson, setDoc, parseOp_opToString]
  rw [insertAll_map (by simpa using h)]
  simp

/-- Statements which can be dumped: the effect is Allow or Deny and the sets have no duplicates. -/
def StatementOk (s : Statement) : Prop :=
  (s.effect = .allow ∨ s.effect = .deny) ∧ s.actions.Nodup ∧ ∀ c ∈ s.conditions, c.values.Nodup

theorem statementFromJson_doc {s : Statement} (h : StatementOk s) : statementFromJson (statementDoc s) = some s := by
  obtain ⟨e, a, cs⟩ := s
  obtain ⟨he, ha, hc⟩ := h
  simp only at he ha hc
  have h1 : insertAll [] (a.map .str) = some a := by simpa using insertAll_map (set := []) (l := a) (by simpa using ha)
  have h2 : loadAll conditionFromJson (cs.map conditionDoc) = some cs :=
    loadAll_id (fun c hm => conditionFromJson_doc (hc c hm))
  have n1 : lower "Effect" ≠ lower "Actions" := by decide
  have n2 : lower "Effect" ≠ lower "Conditions" := by decide
  have n3 : lower "Actions" ≠ lower "Conditions" := by decide
  have p1 : parseEffect "Allow" = some .allow := by decide
  have p2 : parseEffect "Deny" = some .deny := by decide
  unfold statementDoc statementFromJson
  rcases he with rfl | rfl <;> by_cases hcs : cs = []
  all_goals
    simp only [effectMember, List.cons_append, List.nil_append, getItem, find_cons_eq, find_cons_ne n1, find_cons_ne n2,
      find_cons_ne n3, asStr_str, asArr_arr, asArr_none, setDoc, h1, h2, p1, p2, isObj, hcs, ne_eq, not_true,
      not_false_eq_true, if_true, if_false, find_nil, Bool.not_true, Bool.false_eq_true, Option.map_some]

theorem policyFromJson_doc {p : Policy} (h : ∀ s ∈ p.statements, StatementOk s) : policyFromJson (policyDoc p) = some p := by
  have h2 : loadAll statementFromJson (p.statements.map statementDoc) = some p.statements :=
    loadAll_id (fun s hm => statementFromJson_doc (h s hm))
  have n1 : lower "Id" ≠ lower "Statements" := by decide
  unfold policyDoc policyFromJson
  simp only [isObj, Bool.not_true, Bool.false_eq_true, if_false, getItem, find_cons_eq, find_cons_ne n1, asStr_str,
    asArr_arr, h2, Option.map_some]

theorem roleFromJson_doc {r : Role} (h : r.policies.Nodup) : roleFromJson (roleDoc r) = some r := by
  have n1 : lower "Id" ≠ lower "Policies" := by decide
  have h2 : insertStrings [] (r.policies.map .str) = r.policies := by
    simpa using insertStrings_map (set := []) (l := r.policies) (by simpa using h)
  unfold roleDoc roleFromJson
  simp only [getItem, find_cons_eq, find_cons_ne n1, asStr_str, asArr_arr, setDoc, h2]

/-- Configurations which can be dumped. -/
def ConfigOk (c : Config) : Prop :=
  (∀ p ∈ c.policies, ∀ s ∈ p.statements, StatementOk s) ∧ ∀ r ∈ c.roles, r.policies.Nodup

theorem configFromJson_doc {c : Config} (h : ConfigOk c) : configFromJson ⟨[], [], none⟩ (configDoc c) = some c := by
  have h1 : loadAll policyFromJson (c.policies.map policyDoc) = some c.policies :=
    loadAll_id (fun s hm => policyFromJson_doc (h.1 s hm))
  have h2 : loadAll roleFromJson (c.roles.map roleDoc) = some c.roles :=
    loadAll_id (fun s hm => roleFromJson_doc (h.2 s hm))
  have n1 : lower "Version" ≠ lower "Policies" := by decide
  have n2 : lower "Version" ≠ lower "Roles" := by decide
  have n3 : lower "Version" ≠ lower "Config" := by decide
  have n4 : lower "Policies" ≠ lower "Roles" := by decide
  have n5 : lower "Policies" ≠ lower "Config" := by decide
  have n6 : lower "Roles" ≠ lower "Config" := by decide
  unfold configDoc configFromJson
  simp only [isObj, Bool.not_true, Bool.false_eq_true, if_false, getItem, find_cons_eq, find_cons_ne n1,
    find_cons_ne n2, find_cons_ne n3, find_cons_ne n4, find_cons_ne n5, find_cons_ne n6, asArr, asNum, ne_eq, not_true,
    h1, h2, asStr_opt_end, List.nil_append, Option.or_none]

theorem fpFromJson_doc (f : Fp) : fpFromJson (fpDoc f) = some f := by
  have n1 : lower "Fingerprint" ≠ lower "Name" := by decide
  unfold fpDoc fpFromJson
  simp only [getItem, find_cons_eq, find_cons_ne n1, asStr_str, asStr_opt_end]

theorem filterMap_id {α β} {f : Doc → Option α} {g : β → Doc} {k : β → α} {l : List β} (h : ∀ x ∈ l, f (g x) = some (k x)) :
    (l.map g).filterMap f = l.map k := by
  induction l with
  | nil => rfl
  | cons x l ih =>
    rw [List.map_cons, List.filterMap_cons, h x (by simp)]
    simp only [List.map_cons, ih (fun y hy => h y (by simp [hy]))]

theorem find_fcm_ne {u l n} (h : lower "Fcm" ≠ lower n) : find (fcmMember u ++ l) n = find l n := by
  unfold fcmMember
  split
  · exact find_cons_ne h
  · rfl

theorem find_categories_ne {u l n} (h : lower "NotificationCategories" ≠ lower n) : find (categoriesMember u ++ l) n = find l n := by
  unfold categoriesMember
  split
  · exact find_cons_ne h
  · rfl

/-- The identity of a user is not part of the document. -/
def noAddr (u : User) : User := { u with addr := 0 }

theorem userFromJson_doc {u : User} (h : validateUsername u.username = true) (hn : u.notificationCategories.Nodup) :
    userFromJson (userDoc u) 2 = some (noAddr u) := by
  have hf : (u.fingerprints.map fpDoc).filterMap fpFromJson = u.fingerprints := by
    simpa using filterMap_id (k := id) (fun f (_ : f ∈ u.fingerprints) => fpFromJson_doc f)
  have hc : insertStrings [] (u.notificationCategories.map .str) = u.notificationCategories := by
    simpa using insertStrings_map (set := []) (l := u.notificationCategories) (by simpa using hn)
  have a : ∀ {k l n} {x : Doc}, lower k ≠ lower n → find ((k, x) :: l) n = find l n := fun h => find_cons_ne h
  have gf : getItem (userDoc u) "Fcm" = (find (fcmMember u) "Fcm") := by
    unfold userDoc getItem
    simp only
    rw [a (by decide), a (by decide), find_opt_ne (by decide), find_opt_ne (by decide), find_opt_ne (by decide),
      find_opt_ne (by decide)]
    unfold fcmMember
    split
    · rw [List.cons_append, find_cons_eq, find_cons_eq]
    · rw [List.nil_append, find_categories_ne (by decide), find_opt_end_ne (by decide)]; rfl
  have gt : asStr (((find (fcmMember u) "Fcm").filter (fun j => isObj (some j))).bind (getItem · "Token")) = u.fcmToken ∧
      asStr (((find (fcmMember u) "Fcm").filter (fun j => isObj (some j))).bind (getItem · "ProjectId")) = u.fcmProjectId := by
    unfold fcmMember
    split
    · rw [find_cons_eq]
      have : lower "Token" ≠ lower "ProjectId" := by decide
      simp only [isObj, Option.filter_some, if_true, Option.bind_some, getItem]
      rw [asStr_opt (find_opt_end_ne (by decide)), find_opt_ne this, asStr_opt_end]
      exact ⟨rfl, rfl⟩
    · next h =>
      have h1 : u.fcmToken = none := Classical.byContradiction fun h' => h (.inl h')
      have h2 : u.fcmProjectId = none := Classical.byContradiction fun h' => h (.inr h')
      rw [h1, h2]
      exact ⟨rfl, rfl⟩
  have gn : categoriesFromJson (userDoc u) = u.notificationCategories := by
    unfold categoriesFromJson userDoc getItem
    simp only
    rw [a (by decide), a (by decide), find_opt_ne (by decide), find_opt_ne (by decide), find_opt_ne (by decide),
      find_opt_ne (by decide), find_fcm_ne (by decide)]
    unfold categoriesMember
    by_cases h : u.notificationCategories = []
    · rw [if_neg (by simp [h]), List.nil_append, find_opt_end_ne (by decide), h]
      rfl
    · rw [if_pos h, List.cons_append, find_cons_eq]
      exact hc
  have gi : getItem (userDoc u) "Username" = some (.str u.username) := by
    unfold userDoc getItem; exact find_cons_eq
  have gF : getItem (userDoc u) "Fingerprints" = some (.arr (u.fingerprints.map fpDoc)) := by
    unfold userDoc getItem
    simp only
    rw [a (by decide), find_cons_eq]
  have gd : asStr (getItem (userDoc u) "DisplayName") = u.displayName := by
    unfold userDoc getItem
    simp only
    rw [a (by decide), a (by decide), asStr_opt]
    rw [find_opt_ne (by decide), find_opt_ne (by decide), find_opt_ne (by decide), find_fcm_ne (by decide),
      find_categories_ne (by decide), find_opt_end_ne (by decide)]
  have gs : asStr (getItem (userDoc u) "ServerConnectToken") = u.sct := by
    unfold userDoc getItem
    simp only
    rw [a (by decide), a (by decide), find_opt_ne (by decide), asStr_opt]
    rw [find_opt_ne (by decide), find_opt_ne (by decide), find_fcm_ne (by decide),
      find_categories_ne (by decide), find_opt_end_ne (by decide)]
  have gp : asStr (getItem (userDoc u) "Password") = u.password := by
    unfold userDoc getItem
    simp only
    rw [a (by decide), a (by decide), find_opt_ne (by decide), find_opt_ne (by decide), asStr_opt]
    rw [find_opt_ne (by decide), find_fcm_ne (by decide),
      find_categories_ne (by decide), find_opt_end_ne (by decide)]
  have gr : asStr (getItem (userDoc u) "Role") = u.role := by
    unfold userDoc getItem
    simp only
    rw [a (by decide), a (by decide), find_opt_ne (by decide), find_opt_ne (by decide), find_opt_ne (by decide), asStr_opt]
    rw [find_fcm_ne (by decide), find_categories_ne (by decide), find_opt_end_ne (by decide)]
  have go : asStr (getItem (userDoc u) "OauthSubject") = u.oauthSubject := by
    unfold userDoc getItem
    simp only
    rw [a (by decide), a (by decide), find_opt_ne (by decide), find_opt_ne (by decide), find_opt_ne (by decide),
      find_opt_ne (by decide), find_fcm_ne (by decide), find_categories_ne (by decide), asStr_opt_end]
  have gff : fpsFromJson (userDoc u) 2 = u.fingerprints := by
    unfold fpsFromJson
    rw [if_neg (by decide), if_pos rfl, gF]
    exact hf
  unfold userFromJson
  rw [gi]
  simp only [asStr_str, h, Bool.not_true, Bool.false_eq_true, if_false, gd, gr, gp, gs, gf, gt.1, gt.2, gn, go, gff]
  rfl

/-- States which can be dumped: user names are valid and the sets have no duplicates. -/
def StateOk (st : IamState) : Prop :=
  ∀ u ∈ st.users, validateUsername u.username = true ∧ u.notificationCategories.Nodup

theorem stateFromJson_doc {st : IamState} (h : StateOk st) :
    stateFromJson {} (stateDoc st) = some { st with users := st.users.map noAddr } := by
  have hu : (st.users.map userDoc).filterMap (userFromJson · 2) = st.users.map noAddr :=
    filterMap_id (f := (userFromJson · 2)) (fun u hm => userFromJson_doc (h u hm).1 (h u hm).2)
  have a : ∀ {k l n} {x : Doc}, lower k ≠ lower n → find ((k, x) :: l) n = find l n := fun h => find_cons_ne h
  have g1 : getItem (stateDoc st) "Version" = some (.num 2) := by
    unfold stateDoc getItem; exact find_cons_eq
  have g2 : asStr (getItem (stateDoc st) "OpenPairingPassword") = st.passwordOpenPassword := by
    unfold stateDoc getItem
    simp only
    rw [a (by decide), asStr_opt]
    rw [find_opt_ne (by decide), a (by decide), a (by decide), a (by decide), a (by decide), find_opt_ne (by decide),
      find_opt_ne (by decide), find_opt_ne (by decide), a (by decide), find]
  have g3 : asStr (getItem (stateDoc st) "OpenPairingSct") = st.passwordOpenSct := by
    unfold stateDoc getItem
    simp only
    rw [a (by decide), find_opt_ne (by decide), asStr_opt]
    rw [a (by decide), a (by decide), a (by decide), a (by decide), find_opt_ne (by decide),
      find_opt_ne (by decide), find_opt_ne (by decide), a (by decide), find]
  have g4 : getItem (stateDoc st) "LocalOpenPairing" = some (.bool st.localOpenPairing) := by
    unfold stateDoc getItem
    simp only
    rw [a (by decide), find_opt_ne (by decide), find_opt_ne (by decide), find_cons_eq]
  have g5 : getItem (stateDoc st) "PasswordOpenPairing" = some (.bool st.passwordOpenPairing) := by
    unfold stateDoc getItem
    simp only
    rw [a (by decide), find_opt_ne (by decide), find_opt_ne (by decide), a (by decide), find_cons_eq]
  have g6 : getItem (stateDoc st) "PasswordInvitePairing" = some (.bool st.passwordInvitePairing) := by
    unfold stateDoc getItem
    simp only
    rw [a (by decide), find_opt_ne (by decide), find_opt_ne (by decide), a (by decide), a (by decide), find_cons_eq]
  have g7 : getItem (stateDoc st) "LocalInitialPairing" = some (.bool st.localInitialPairing) := by
    unfold stateDoc getItem
    simp only
    rw [a (by decide), find_opt_ne (by decide), find_opt_ne (by decide), a (by decide), a (by decide), a (by decide),
      find_cons_eq]
  have g8 : asStr (getItem (stateDoc st) "OpenPairingRole") = st.openPairingRole := by
    unfold stateDoc getItem
    simp only
    rw [a (by decide), find_opt_ne (by decide), find_opt_ne (by decide), a (by decide), a (by decide), a (by decide),
      a (by decide), asStr_opt]
    rw [find_opt_ne (by decide), find_opt_ne (by decide), a (by decide), find]
  have g9 : asStr (getItem (stateDoc st) "InitialPairingUsername") = st.initialPairingUsername := by
    unfold stateDoc getItem
    simp only
    rw [a (by decide), find_opt_ne (by decide), find_opt_ne (by decide), a (by decide), a (by decide), a (by decide),
      a (by decide), find_opt_ne (by decide), asStr_opt]
    rw [find_opt_ne (by decide), a (by decide), find]
  have g10 : asStr (getItem (stateDoc st) "FriendlyName") = st.friendlyName := by
    unfold stateDoc getItem
    simp only
    rw [a (by decide), find_opt_ne (by decide), find_opt_ne (by decide), a (by decide), a (by decide), a (by decide),
      a (by decide), find_opt_ne (by decide), find_opt_ne (by decide), asStr_opt]
    rw [a (by decide), find]
  have g11 : getItem (stateDoc st) "Users" = some (.arr (st.users.map userDoc)) := by
    unfold stateDoc getItem
    simp only
    rw [a (by decide), find_opt_ne (by decide), find_opt_ne (by decide), a (by decide), a (by decide), a (by decide),
      a (by decide), find_opt_ne (by decide), find_opt_ne (by decide), find_opt_ne (by decide), find_cons_eq]
  have g0 : isObj (some (stateDoc st)) = true := rfl
  unfold stateFromJson
  rw [g0, g1]
  simp only [Bool.not_true, Bool.false_eq_true, if_false, asNum, g2, g3, g4, g5, g6, g7, g8, g9, g10, g11, asBool,
    asArr_arr, hu, Option.getD_some, Option.or_none, List.nil_append]
  rw [if_neg (by decide)]

/-! ## Allocations which succeed make no difference -/

/-- No allocation of the computation fails. -/
def Stable {α} (m : M α) : Prop :=
  ∀ o : List Bool, (∀ b ∈ o, b = true) → (m o).1 = (m []).1 ∧ (∀ b ∈ (m o).2, b = true) ∧ (m []).2 = []

theorem Stable.pure {α} (a : α) : Stable (pure a : M α) := fun _ h => ⟨rfl, h, rfl⟩

theorem Stable.bind {α β} {m : M α} {f : α → M β} (hm : Stable m) (hf : ∀ a, Stable (f a)) : Stable (m >>= f) := by
  intro o ho
  obtain ⟨h1, h2, h3⟩ := hm o ho
  rw [bind_run, bind_run, h1, h3]
  exact hf _ _ h2

theorem Stable.alloc : Stable alloc := by
  intro o ho
  cases o with
  | nil => exact ⟨rfl, by simp [Json.alloc], rfl⟩
  | cons b o => exact ⟨ho b (by simp), fun c hc => ho c (List.mem_cons_of_mem _ hc), rfl⟩

theorem Stable.ite {α} {c : Prop} [Decidable c] {m n : M α} (hm : Stable m) (hn : Stable n) : Stable (if c then m else n) := by
  split
  · exact hm
  · exact hn

theorem create_stable (j : Doc) : Stable (create j) := .bind .alloc (fun _ => .ite (.pure _) (.pure _))

theorem createString_stable (s : String) : Stable (createString s) :=
  .bind .alloc (fun _ => .ite (.bind .alloc (fun _ => .ite (.pure _) (.pure _))) (.pure _))

theorem addItem_stable (o : Option Doc) (k : String) (x : Option Doc) : Stable (addItem o k x) := by
  unfold addItem
  split
  · exact .bind .alloc (fun _ => .ite (.pure _) (.pure _))
  · exact .pure _

theorem addOpt_stable (o : Option Doc) (k : String) (s : Option String) : Stable (addOpt o k s) := by
  unfold addOpt
  split
  · exact .pure _
  · exact .bind (createString_stable _) (fun _ => addItem_stable _ _ _)

theorem addString_stable (o : Option Doc) (k : String) (s : Option String) : Stable (addString o k s) := by
  unfold addString
  split
  · exact .bind .alloc (fun _ => .pure _)
  · exact .bind (createString_stable _) (fun _ => addItem_stable _ _ _)

theorem addAll_stable {α} {f : α → M (Option Doc)} (h : ∀ x, Stable (f x)) (a : Option Doc) (l : List α) :
    Stable (addAll f a l) := by
  induction l generalizing a with
  | nil => exact .pure _
  | cons x l ih => exact .bind (h x) (fun _ => ih _)

theorem addArray_stable {α} {f : α → M (Option Doc)} (h : ∀ x, Stable (f x)) (o : Option Doc) (k : String) (l : List α) :
    Stable (addArray o k f l) := by
  unfold addArray
  refine .bind (create_stable _) (fun a => ?_)
  split
  · refine .bind .alloc (fun _ => .ite (.bind (addAll_stable h _ _) (fun _ => ?_)) (.bind (addAll_stable h _ _) (fun _ => .pure _)))
    split
    · exact .pure _
    · exact .pure _
  · exact .bind (addAll_stable h _ _) (fun _ => .pure _)

theorem setToJson_stable (l : List String) : Stable (setToJson l) :=
  .bind (create_stable _) (fun _ => addAll_stable createString_stable _ _)

theorem conditionToJson_stable (c : Condition) : Stable (conditionToJson c) :=
  .bind (create_stable _) (fun _ => .bind (setToJson_stable _) (fun _ => .bind (addItem_stable _ _ _) (fun _ =>
    .bind (create_stable _) (fun _ => addItem_stable _ _ _))))

theorem conditionsToJson_stable (l : List Condition) : Stable (conditionsToJson l) :=
  .bind (create_stable _) (fun _ => addAll_stable conditionToJson_stable _ _)

theorem addEffect_stable (o : Option Doc) (e : Effect) : Stable (addEffect o e) := by
  unfold addEffect
  split
  · exact .bind (createString_stable _) (fun _ => addItem_stable _ _ _)
  · exact .bind (createString_stable _) (fun _ => addItem_stable _ _ _)
  · exact .pure _

theorem statementToJson_stable (s : Statement) : Stable (statementToJson s) :=
  .bind (create_stable _) (fun _ => .bind (addEffect_stable _ _) (fun _ => .bind (setToJson_stable _) (fun _ =>
    .bind (addItem_stable _ _ _) (fun _ => .ite (.bind (conditionsToJson_stable _) (fun _ => addItem_stable _ _ _)) (.pure _)))))

theorem addFcm_stable (o : Option Doc) (u : User) : Stable (addFcm o u) :=
  .ite (.bind (create_stable _) (fun _ => .bind (addOpt_stable _ _ _) (fun _ => .bind (addOpt_stable _ _ _) (fun _ =>
      addItem_stable _ _ _)))) (.pure _)

theorem addCategories_stable (o : Option Doc) (u : User) : Stable (addCategories o u) :=
  .ite (.bind (setToJson_stable _) (fun _ => addItem_stable _ _ _)) (.pure _)

theorem policyToJson_stable (p : Policy) : Stable (policyToJson p) :=
  .bind (create_stable _) (fun _ => .bind (createString_stable _) (fun _ => .bind (addItem_stable _ _ _) (fun _ =>
    .bind (create_stable _) (fun _ => .bind (addAll_stable statementToJson_stable _ _) (fun _ => addItem_stable _ _ _)))))

theorem roleToJson_stable (r : Role) : Stable (roleToJson r) :=
  .bind (create_stable _) (fun _ => .bind (createString_stable _) (fun _ => .bind (addItem_stable _ _ _) (fun _ =>
    .bind (setToJson_stable _) (fun _ => addItem_stable _ _ _))))

theorem configToJson_stable (c : Config) : Stable (configToJson c) :=
  .bind (create_stable _) (fun _ => .bind (create_stable _) (fun _ => .bind (addItem_stable _ _ _) (fun _ =>
    .bind (create_stable _) (fun _ => .bind (addAll_stable policyToJson_stable _ _) (fun _ =>
    .bind (addItem_stable _ _ _) (fun _ =>
    .bind (create_stable _) (fun _ => .bind (addAll_stable roleToJson_stable _ _) (fun _ =>
    .bind (addItem_stable _ _ _) (fun _ => .bind (create_stable _) (fun _ => .bind (addString_stable _ _ _) (fun _ =>
    addItem_stable _ _ _)))))))))))

theorem fpToJson_stable (f : Fp) : Stable (fpToJson f) :=
  .bind (create_stable _) (fun _ => .bind (createString_stable _) (fun _ => .bind (addItem_stable _ _ _) (fun _ =>
    addOpt_stable _ _ _)))

theorem userToJson_stable (u : User) : Stable (userToJson u) :=
  .bind (create_stable _) (fun _ => .bind (createString_stable _) (fun _ => .bind (addItem_stable _ _ _) (fun _ =>
    .bind (addArray_stable fpToJson_stable _ _ _) (fun _ => .bind (addOpt_stable _ _ _) (fun _ =>
    .bind (addOpt_stable _ _ _) (fun _ => .bind (addOpt_stable _ _ _) (fun _ => .bind (addOpt_stable _ _ _) (fun _ =>
    .bind (addFcm_stable _ _) (fun _ => .bind (addCategories_stable _ _) (fun _ =>
    addOpt_stable _ _ _))))))))))

theorem stateToJson_stable (st : IamState) : Stable (stateToJson st) :=
  .bind (create_stable _) (fun _ => .bind (create_stable _) (fun _ => .bind (addItem_stable _ _ _) (fun _ =>
    .bind (addOpt_stable _ _ _) (fun _ => .bind (addOpt_stable _ _ _) (fun _ =>
    .bind (create_stable _) (fun _ => .bind (addItem_stable _ _ _) (fun _ =>
    .bind (create_stable _) (fun _ => .bind (addItem_stable _ _ _) (fun _ =>
    .bind (create_stable _) (fun _ => .bind (addItem_stable _ _ _) (fun _ =>
    .bind (create_stable _) (fun _ => .bind (addItem_stable _ _ _) (fun _ =>
    .bind (addOpt_stable _ _ _) (fun _ => .bind (addOpt_stable _ _ _) (fun _ => .bind (addOpt_stable _ _ _) (fun _ =>
    .bind (create_stable _) (fun _ => .bind (addAll_stable userToJson_stable _ _) (fun _ =>
    addItem_stable _ _ _))))))))))))))))))

theorem finishDump_stable (j : Option Doc) : Stable (finishDump j) := by
  unfold finishDump
  split
  · exact .pure _
  · exact .bind .alloc (fun _ => .ite (.pure _) (.pure _))

theorem configDump_stable (c : Config) : Stable (configDump c) := .bind (configToJson_stable c) finishDump_stable

theorem stateDump_stable (st : IamState) : Stable (stateDump st) := .bind (stateToJson_stable st) finishDump_stable

end Verif.Iam
