import Verif.Iam.AccessLemmas

/-!
# Access check — property theorems (C01, C06, C07, C08, C57)
-/

namespace Verif.Iam

open Spec

/-- The environment of the examples: inserting overwrites. -/
def demoEnv : Env := { N := tinySem, ins := fun m k v => (k, v) :: m }

/-- A module with two users (`admin` with a key, `guest` with a password) and the configuration of the
policy examples. -/
def demoIam : Iam :=
  { conf := { demoConf with unpairedRole := none },
    state := { users := [{ addr := 0, username := "admin", role := some "User",
                            fingerprints := [⟨"f0", none⟩] },
                         { addr := 1, username := "guest", role := some "User", password := some "secret" }] },
    nextAddr := 2 }

/-! ## C08 -/

/-- C08: the access check takes a connection to be the user owning its client key, else the user it is
password authenticated as, else the user it was authorised as, else nobody. -/
theorem C08_identity (iam : Iam) (ci : ConnInfo) (ref : Nat) (user : Option User) :
    actingUser iam ci ref = .ok user ↔ ActsAs iam ci ref user := by
  constructor
  · exact actingUser_actsAs iam ci ref user
  · intro h
    cases hr : actingUser iam ci ref with
    | ok user' => rw [actsAs_unique iam ci ref user user' h (actingUser_actsAs _ _ _ _ hr)]
    | ub => exact absurd (actingUser_dangling _ _ _ hr) (actsAs_not_dangling _ _ _ _ h)

/-- C08: the identity is undefined exactly if it rests on an authorisation as a deleted user. -/
theorem C08_identity_undefined (iam : Iam) (ci : ConnInfo) (ref : Nat) :
    actingUser iam ci ref = .ub ↔ Dangling iam ci ref := by
  constructor
  · exact actingUser_dangling iam ci ref
  · intro h
    cases hr : actingUser iam ci ref with
    | ok user => exact absurd h (actsAs_not_dangling _ _ _ _ (actingUser_actsAs _ _ _ _ hr))
    | ub => rfl

-- the key wins over the password
example : actingUser demoIam { fingerprint := some "f0", pwAuth := true, pwUser := some "guest" } 7 =
    .ok (some ⟨0, "admin", none, some "User", none, none, none, none, [], none, [⟨"f0", none⟩]⟩) := by decide
-- a password authenticated connection
example : (∃ u, actingUser demoIam { fingerprint := some "f1", pwAuth := true, pwUser := some "guest" } 7 =
    .ok (some u) ∧ u.username = "guest") := ⟨_, rfl, rfl⟩
-- an authorised connection, before and after
example : (∃ u, actingUser { demoIam with authorized := [(7, 1)] } { fingerprint := some "f1" } 7 =
    .ok (some u) ∧ u.username = "guest") := ⟨_, rfl, rfl⟩
example : actingUser { demoIam with authorized := [(7, 1)] } { fingerprint := some "f1" } 8 = .ok none := by decide
example : actingUser { demoIam with authorized := [(7, 9)] } { fingerprint := some "f1" } 7 = .ub := by decide

/-! ## C01 -/

/-- C01: the access check answers true exactly when the connection exists, the role applying to whoever
the connection acts as exists, and that role grants the action with the attributes of the request. -/
theorem C01_access_decision (E : Env) (hE : Overwrites E.ins) (iam : Iam) (ci : ConnInfo) (ref : Nat)
    (action : String) (supplied : Attrs) :
    checkAccess E iam ci ref action supplied = .ok true ↔
    (ci.fpOk = true ∨ ci.isVirtual = true) ∧
    ∃ user, ActsAs iam ci ref user ∧
      ∃ rid, roleId iam user = some rid ∧
        ∃ role, FirstWith (fun r => r.id = rid) iam.conf.roles role ∧
          Granted E.N iam.conf role action (requestAttrs ci user supplied) := by
  unfold checkAccess
  by_cases hc : (!ci.fpOk && !ci.isVirtual) = true
  · rw [if_pos hc]
    have : ¬ (ci.fpOk = true ∨ ci.isVirtual = true) := by
      cases h1 : ci.fpOk <;> cases h2 : ci.isVirtual <;> simp_all
    simp [this]
  · rw [if_neg hc]
    have hc' : ci.fpOk = true ∨ ci.isVirtual = true := by
      cases h1 : ci.fpOk <;> cases h2 : ci.isVirtual <;> simp_all
    simp only [hc', true_and]
    cases hu : actingUser iam ci ref with
    | ub =>
      simp only [reduceCtorEq, false_iff]
      rintro ⟨user, hact, _⟩
      rw [(C08_identity iam ci ref user).mpr hact] at hu; cases hu
    | ok user =>
      have hact := actingUser_actsAs _ _ _ _ hu
      have hex : ∀ P : Option User → Prop, (∃ user, ActsAs iam ci ref user ∧ P user) ↔ P user := by
        intro P
        constructor
        · rintro ⟨u', h1, h2⟩; rw [actsAs_unique _ _ _ _ _ hact h1]; exact h2
        · intro h; exact ⟨user, hact, h⟩
      rw [hex (fun user => ∃ rid, roleId iam user = some rid ∧
        ∃ role, FirstWith (fun r => r.id = rid) iam.conf.roles role ∧
          Granted E.N iam.conf role action (requestAttrs ci user supplied))]
      have key : ∀ (attrs : Attrs), (∀ k, attrs.lookup k = (requestAttrs ci user supplied).lookup k) →
          ∀ rs, rs = roleId iam user →
          ((match findRole iam.conf rs with
            | none => Res.ok false
            | some role => Res.ok (checkAccessRole E.N iam.conf role action attrs == Effect.allow)) = .ok true ↔
          ∃ rid, roleId iam user = some rid ∧
            ∃ role, FirstWith (fun r => r.id = rid) iam.conf.roles role ∧
              Granted E.N iam.conf role action (requestAttrs ci user supplied)) := by
        intro attrs hattrs rs hrs
        subst hrs
        cases hr : findRole iam.conf (roleId iam user) with
        | none =>
          simp only [Res.ok.injEq, Bool.false_eq_true, false_iff]
          rintro ⟨rid, h1, role, h2, _⟩
          rw [(findRole_some _ _ role).mpr ⟨rid, h1, h2⟩] at hr; cases hr
        | some role =>
          simp only [Res.ok.injEq, beq_iff_eq, C01_role_decision]
          rw [granted_congr E.N iam.conf role action hattrs]
          obtain ⟨rid, h1, h2⟩ := (findRole_some _ _ role).mp hr
          constructor
          · intro hg; exact ⟨rid, h1, role, h2, hg⟩
          · rintro ⟨rid', h1', role', h2', hg⟩
            rw [h1] at h1'; injection h1' with e; subst e
            rw [h2.unique h2']; exact hg
      cases user with
      | none =>
        refine key _ ?_ _ rfl
        intro k
        rw [baseAttrs_lookup E hE]; rfl
      | some u =>
        refine key _ ?_ _ rfl
        intro k
        rw [hE, baseAttrs_lookup E hE]
        unfold requestAttrs
        simp only [List.cons_append, List.nil_append]
        rw [lookup_cons_if "Connection:Username"]

-- both outcomes occur
example : checkAccess demoEnv demoIam { fingerprint := some "f0", isLocal := true } 7 "B" [] = .ok true := by decide
example : checkAccess demoEnv demoIam { fingerprint := some "f0", isLocal := false } 7 "B" [] = .ok false := by decide
example : Overwrites demoEnv.ins := overwrites_cons

/-! ## C06 -/

/-- C06: a connection that is gone gets nothing. -/
theorem C06_connection_gone (E : Env) (iam : Iam) (ci : ConnInfo) (ref : Nat) (action : String)
    (supplied : Attrs) (h : ci.fpOk = false ∧ ci.isVirtual = false) :
    checkAccess E iam ci ref action supplied = .ok false := by
  simp [checkAccess, h.1, h.2]

/-- C06: without a role, with a role the configuration does not define, or with a role naming a policy
the configuration does not define, the answer is false, however the attribute map behaves. -/
theorem C06_no_role_or_policy (E : Env) (iam : Iam) (ci : ConnInfo) (ref : Nat) (action : String)
    (supplied : Attrs) (user : Option User) (hu : ActsAs iam ci ref user)
    (h : roleId iam user = none ∨
      (∃ rid, roleId iam user = some rid ∧ ∀ r ∈ iam.conf.roles, r.id ≠ rid) ∨
      (∃ rid role pid, roleId iam user = some rid ∧ FirstWith (fun r => r.id = rid) iam.conf.roles role ∧
        pid ∈ role.policies ∧ ∀ p ∈ iam.conf.policies, p.id ≠ pid)) :
    checkAccess E iam ci ref action supplied = .ok false := by
  unfold checkAccess
  split
  · rfl
  rw [(C08_identity iam ci ref user).mpr hu]
  have key : ∀ attrs, (match findRole iam.conf (roleId iam user) with
      | none => Res.ok false
      | some role => Res.ok (checkAccessRole E.N iam.conf role action attrs == Effect.allow)) = .ok false := by
    intro attrs
    cases hr : findRole iam.conf (roleId iam user) with
    | none => rfl
    | some role =>
      obtain ⟨rid, h1, h2⟩ := (findRole_some _ _ role).mp hr
      simp only [Res.ok.injEq, beq_eq_false_iff_ne, ne_eq]
      rcases h with h | ⟨rid', h, hn⟩ | ⟨rid', role', pid, h, hf, hp, hn⟩
      · rw [h] at h1; cases h1
      · rw [h] at h1; injection h1 with e; subst e
        exact absurd h2.prop (hn role h2.mem)
      · rw [h] at h1; injection h1 with e; subst e
        have := h2.unique hf; subst this
        rw [C01_role_decision]
        intro hg
        obtain ⟨p, hp1, hp2⟩ := hg.1 pid hp
        exact hn p hp1 hp2
  cases user with
  | none => exact key _
  | some u => exact key _

-- a user whose role names a missing policy; a user without role; nobody without unpaired role
/-- A module whose only user has a role naming a missing policy. -/
def badIam : Iam :=
  { demoIam with state := { users := [⟨0, "x", none, some "Bad", none, none, none, none, [], none,
      [⟨"f0", none⟩]⟩] } }

example : ActsAs badIam { fingerprint := some "f0" } 3
    (some ⟨0, "x", none, some "Bad", none, none, none, none, [], none, [⟨"f0", none⟩]⟩) :=
  (C08_identity _ _ _ _).mp (by decide)
example : checkAccess demoEnv badIam { fingerprint := some "f0" } 3 "A" [] = .ok false := by decide
example : checkAccess demoEnv demoIam { fingerprint := some "f9" } 3 "A" [] = .ok false := by decide

/-! ## C07 -/

theorem requestAttrs_lookup_congr (ci : ConnInfo) (user : Option User) (s t : Attrs)
    (h : ∀ k, k ≠ "Connection:IsLocal" → (user.isSome = true → k ≠ "Connection:Username") →
      s.reverse.lookup k = t.reverse.lookup k) (k : String) :
    (requestAttrs ci user s).lookup k = (requestAttrs ci user t).lookup k := by
  unfold requestAttrs
  cases user with
  | none =>
    simp only [List.nil_append, List.cons_append]
    rw [lookup_cons_if, lookup_cons_if]
    split
    · rfl
    · exact h k (by assumption) (by simp)
  | some u =>
    simp only [List.nil_append, List.cons_append]
    rw [lookup_cons_if, lookup_cons_if "Connection:Username", lookup_cons_if, lookup_cons_if]
    split
    · rfl
    · split
      · rfl
      · exact h k (by assumption) (fun _ => by assumption)

/-- C07 (partial): if inserting in the attribute map overwrites, the decision does not depend on the
value the caller supplies for `Connection:IsLocal`, nor, for a connection that acts as a user, on the one
for `Connection:Username`. Missing: `Connection:Username` for unpaired connections, see
`C07_username_violated`. -/
theorem C07_reserved_attributes_partial (E : Env) (hE : Overwrites E.ins) (iam : Iam) (ci : ConnInfo)
    (ref : Nat) (action : String) (s t : Attrs) (user : Option User) (hu : ActsAs iam ci ref user)
    (h : ∀ k, k ≠ "Connection:IsLocal" → (user.isSome = true → k ≠ "Connection:Username") →
      s.reverse.lookup k = t.reverse.lookup k) :
    checkAccess E iam ci ref action s = checkAccess E iam ci ref action t := by
  have hok : ∀ x, ∃ b, checkAccess E iam ci ref action x = .ok b := by
    intro x
    unfold checkAccess
    split
    · exact ⟨_, rfl⟩
    · rw [(C08_identity iam ci ref user).mpr hu]
      simp only
      split <;> exact ⟨_, rfl⟩
  have hiff : checkAccess E iam ci ref action s = .ok true ↔ checkAccess E iam ci ref action t = .ok true := by
    rw [C01_access_decision E hE, C01_access_decision E hE]
    have : ∀ u', ActsAs iam ci ref u' → ∀ role,
        (Granted E.N iam.conf role action (requestAttrs ci u' s) ↔
         Granted E.N iam.conf role action (requestAttrs ci u' t)) := by
      intro u' hu' role
      rw [actsAs_unique _ _ _ _ _ hu' hu]
      exact granted_congr _ _ _ _ (requestAttrs_lookup_congr ci user s t h)
    constructor
    · rintro ⟨h1, u', h2, rid, h3, role, h4, h5⟩
      exact ⟨h1, u', h2, rid, h3, role, h4, (this u' h2 role).mp h5⟩
    · rintro ⟨h1, u', h2, rid, h3, role, h4, h5⟩
      exact ⟨h1, u', h2, rid, h3, role, h4, (this u' h2 role).mpr h5⟩
  obtain ⟨a, ha⟩ := hok s
  obtain ⟨b, hb⟩ := hok t
  rw [ha, hb] at hiff ⊢
  cases a <;> cases b <;> simp at hiff ⊢

-- the caller claims to be local; the remote connection is still denied
example : checkAccess demoEnv demoIam { fingerprint := some "f0", isLocal := false } 7 "B"
    [("Connection:IsLocal", "true")] = .ok false := by decide

/-- A configuration whose unpaired role allows `X` to the user `admin`. -/
def usernameConf : Config :=
  { policies := [{ id := "p", statements :=
      [⟨.allow, ["X"], [⟨.stringEquals, "Connection:Username", ["admin"]⟩]⟩] }],
    roles := [{ id := "Unpaired", policies := ["p"] }], unpairedRole := some "Unpaired" }

/-- C07 is violated: for an unpaired connection policies see the `Connection:Username` the caller of the
access check supplied. -/
theorem C07_username_violated :
    Overwrites demoEnv.ins ∧
    ActsAs { conf := usernameConf } { fingerprint := some "f9" } 1 none ∧
    checkAccess demoEnv { conf := usernameConf } { fingerprint := some "f9" } 1 "X" [] = .ok false ∧
    checkAccess demoEnv { conf := usernameConf } { fingerprint := some "f9" } 1 "X"
      [("Connection:Username", "admin")] = .ok true := by
  refine ⟨overwrites_cons, (C08_identity _ _ _ _).mp (by decide), by decide, by decide⟩

/-- A map that ignores inserting an existing key. -/
def keepFirstIns (m : Attrs) (k v : String) : Attrs := m ++ [(k, v)]

theorem lookup_append_if (m : Attrs) (k v k' : String) :
    (m ++ [(k, v)]).lookup k' = if k' = k ∧ m.lookup k = none then some v else m.lookup k' := by
  induction m with
  | nil =>
    rw [List.nil_append, lookup_cons_if]
    by_cases h : k' = k <;> simp [h]
  | cons a m ih =>
    rw [List.cons_append, show a = (a.1, a.2) from rfl, lookup_cons_if, lookup_cons_if, lookup_cons_if, ih]
    by_cases h : k' = a.1
    · subst h
      by_cases h2 : k = a.1
      · subst h2; simp
      · have : ¬ a.1 = k := fun e => h2 e.symm
        simp [this]
    · by_cases h2 : k' = k
      · subst h2; simp only [if_neg h]
      · simp [h, h2]

/-- C07 rests on the attribute map overwriting: were the map (whose source is not part of the repository)
to ignore inserting an existing key, a caller could claim to be local. -/
theorem C07_needs_overwriting_map :
    KeepsFirst keepFirstIns ∧
    checkAccess { N := tinySem, ins := keepFirstIns } demoIam { fingerprint := some "f0", isLocal := false }
      7 "B" [] = .ok false ∧
    checkAccess { N := tinySem, ins := keepFirstIns } demoIam { fingerprint := some "f0", isLocal := false }
      7 "B" [("Connection:IsLocal", "true")] = .ok true :=
  ⟨lookup_append_if, by decide, by decide⟩

/-! ## C57 -/

/-- An insert that runs out of memory for one key. -/
def outOfMemoryFor (key : String) (m : Attrs) (k v : String) : Attrs :=
  if k = key then m else (k, v) :: m

/-- C57 is violated: the result of inserting `Connection:IsLocal` is not checked, so when it fails for
lack of memory a Deny statement conditioned on it no longer applies and the answer becomes true. -/
theorem C57_out_of_memory_violated :
    checkAccess demoEnv demoIam { fingerprint := some "f0", isLocal := false } 7 "B" [] = .ok false ∧
    checkAccess { N := tinySem, ins := outOfMemoryFor "Connection:IsLocal" } demoIam
      { fingerprint := some "f0", isLocal := false } 7 "B" [] = .ok true := by
  constructor <;> decide

/-- Inserting may fail (leaving the map unchanged) at any point, or succeed. -/
def MayFail (ins : Attrs → String → String → Attrs) : Prop :=
  ∀ m k v, ins m k v = m ∨ ins m k v = (k, v) :: m

/-- All statements of the configuration that are not plain Allow are unconditional, and no condition uses
an operator that can fail to evaluate. -/
def Simple (conf : Config) : Prop :=
  ∀ p ∈ conf.policies, ∀ s ∈ p.statements,
    (s.effect = .allow ∨ s.conditions = []) ∧
    ∀ c ∈ s.conditions, c.op = .stringEquals ∧ ∀ v ∈ c.values, ∀ n, v ≠ variable_ n

/-- Fewer attributes: whatever `a` defines, `b` defines equally. -/
def Extends (b a : Attrs) : Prop := ∀ k v, a.lookup k = some v → b.lookup k = some v

theorem granted_mono (N : NumSem) (conf : Config) (hs : Simple conf) (role : Role) (action : String)
    {a b : Attrs} (h : Extends b a) (hg : Granted N conf role action a) : Granted N conf role action b := by
  obtain ⟨h1, ⟨s, hin, happ, heff⟩, h3⟩ := hg
  have mem : ∀ s, InRole conf role s → ∃ p ∈ conf.policies, s ∈ p.statements := by
    rintro s ⟨pid, _, p, hp, hs⟩
    exact ⟨p, List.mem_of_find?_eq_some hp, hs⟩
  refine ⟨h1, ⟨s, hin, ⟨happ.1, ?_⟩, heff⟩, ?_⟩
  · intro c hc
    obtain ⟨p, hp, hsp⟩ := mem s hin
    obtain ⟨hop, hv⟩ := (hs p hp s hsp).2 c hc
    obtain ⟨x, hx, pre, v, post, hvs, ⟨t, ht, hh⟩, hm⟩ := happ.2 c hc
    refine ⟨x, h _ _ hx, pre, v, post, hvs, ⟨t, ?_, hh⟩, ?_⟩
    · cases ht with
      | var n s' hl => exact absurd rfl (hv _ (by rw [hvs]; simp) n)
      | lit _ hl => exact .lit _ hl
    · intro w hw t' ht' hmean
      rw [hop] at hmean
      cases hmean with
      | num _ _ _ hn _ => simp [numericOps] at hn
  · intro s hin
    obtain ⟨p, hp, hsp⟩ := mem s hin
    obtain ⟨he, hc⟩ := hs p hp s hsp
    constructor
    · rintro ⟨_, pre, c, post, hcs, ⟨x, hx, pre', v, post', hvs, ⟨t, ht, hmean⟩, _⟩, _⟩
      have hop := (hc c (by rw [hcs]; simp)).1
      rw [hop] at hmean
      cases hmean with
      | num _ _ _ hn _ => simp [numericOps] at hn
    · intro happ'
      rcases he with he | he
      · rw [he]; simp
      · exact (h3 s hin).2 ⟨happ'.1, by rw [he]; intro c hc; simp at hc⟩

theorem extends_fold (ins : Attrs → String → String → Attrs) (h : MayFail ins) (l m m' : Attrs)
    (hd : ∀ k ∈ l.map Prod.fst, m'.lookup k = none) (hnd : (l.map Prod.fst).Nodup) (he : Extends m' m) :
    Extends (l.foldl (fun m kv => (kv.1, kv.2) :: m) m') (l.foldl (fun m kv => ins m kv.1 kv.2) m) := by
  induction l generalizing m m' with
  | nil => simpa using he
  | cons a l ih =>
    simp only [List.foldl_cons]
    simp only [List.map_cons, List.nodup_cons] at hnd
    apply ih
    · intro k hk
      rw [lookup_cons_if]
      have hne : k ≠ a.1 := fun e => hnd.1 (e ▸ hk)
      rw [if_neg hne]
      exact hd k (by simp only [List.map_cons]; exact List.mem_cons_of_mem _ hk)
    · exact hnd.2
    · have hnone : m'.lookup a.1 = none := hd a.1 (by simp)
      intro k v hkv
      rw [lookup_cons_if]
      rcases h m a.1 a.2 with e | e
      · rw [e] at hkv
        have hm' := he k v hkv
        by_cases hk : k = a.1
        · subst hk; rw [hnone] at hm'; cases hm'
        · rw [if_neg hk]; exact hm'
      · rw [e, lookup_cons_if] at hkv
        by_cases hk : k = a.1
        · rw [if_pos hk] at hkv ⊢; exact hkv
        · rw [if_neg hk] at hkv ⊢; exact he k v hkv

theorem extends_insert (ins : Attrs → String → String → Attrs) (h : MayFail ins) (m m' : Attrs)
    (k v : String) (hk : m'.lookup k = none) (he : Extends m' m) : Extends ((k, v) :: m') (ins m k v) := by
  intro k' v' hkv
  rw [lookup_cons_if]
  rcases h m k v with e | e
  · rw [e] at hkv
    have hm' := he k' v' hkv
    by_cases hk' : k' = k
    · subst hk'; rw [hk] at hm'; cases hm'
    · rw [if_neg hk']; exact hm'
  · rw [e, lookup_cons_if] at hkv
    by_cases hk' : k' = k
    · rw [if_pos hk'] at hkv ⊢; exact hkv
    · rw [if_neg hk'] at hkv ⊢; exact he k' v' hkv

theorem lookup_cons_fold (l m : Attrs) (k : String) (h : k ∉ l.map Prod.fst) :
    (l.foldl (fun m kv => (kv.1, kv.2) :: m) m).lookup k = m.lookup k := by
  induction l generalizing m with
  | nil => simp
  | cons a l ih =>
    simp only [List.map_cons, List.mem_cons, not_or] at h
    rw [List.foldl_cons, ih _ h.2, lookup_cons_if, if_neg h.1]

theorem lookup_none_of_not_mem (m : Attrs) (k : String) (h : k ∉ m.map Prod.fst) : m.lookup k = none := by
  induction m with
  | nil => rfl
  | cons a m ih =>
    simp only [List.map_cons, List.mem_cons, not_or] at h
    rw [show a = (a.1, a.2) from rfl, lookup_cons_if, if_neg h.1, ih h.2]

/-- C57 (partial): running out of memory while building the attribute map never turns a denial into a
grant for configurations whose Deny statements are unconditional and whose conditions only use
`StringEquals` with literal values, when the supplied attributes are distinct and not the reserved ones.
Missing: conditional Deny statements, see `C57_out_of_memory_violated`. -/
theorem C57_out_of_memory_partial (E : Env) (hE : MayFail E.ins) (iam : Iam) (hs : Simple iam.conf)
    (ci : ConnInfo) (ref : Nat) (action : String) (supplied : Attrs)
    (hnd : (supplied.map Prod.fst).Nodup) (hl : "Connection:IsLocal" ∉ supplied.map Prod.fst)
    (hun : "Connection:Username" ∉ supplied.map Prod.fst)
    (h : checkAccess E iam ci ref action supplied = .ok true) :
    checkAccess { E with ins := fun m k v => (k, v) :: m } iam ci ref action supplied = .ok true := by
  unfold checkAccess at h ⊢
  split at h
  · cases h
  rename_i hc
  rw [if_neg hc]
  have hbase : Extends (baseAttrs { E with ins := fun m k v => (k, v) :: m } ci supplied)
      (baseAttrs E ci supplied) := by
    unfold baseAttrs
    apply extends_insert _ hE
    · simp only
      rw [lookup_cons_fold _ _ _ hl]; rfl
    · exact extends_fold _ hE _ _ _ (by simp) hnd (by intro k v h; exact h)
  cases hu : actingUser iam ci ref with
  | ub => rw [hu] at h; cases h
  | ok user =>
    rw [hu] at h
    have key : ∀ (a b : Attrs) (rs : Option String), Extends b a →
        (match findRole iam.conf rs with
          | none => Res.ok false
          | some role => Res.ok (checkAccessRole E.N iam.conf role action a == Effect.allow)) = .ok true →
        (match findRole iam.conf rs with
          | none => Res.ok false
          | some role => Res.ok (checkAccessRole E.N iam.conf role action b == Effect.allow)) = .ok true := by
      intro a b rs hab hh
      cases hr : findRole iam.conf rs with
      | none => rw [hr] at hh; cases hh
      | some role =>
        rw [hr] at hh
        simp only [Res.ok.injEq, beq_iff_eq, C01_role_decision] at hh ⊢
        exact granted_mono E.N iam.conf hs role action hab hh
    cases user with
    | none => exact key _ _ _ hbase h
    | some u =>
      refine key _ _ _ ?_ h
      apply extends_insert _ hE _ _ _ _ _ hbase
      unfold baseAttrs
      simp only
      rw [lookup_cons_if, if_neg (by decide), lookup_cons_fold _ _ _ hun]; rfl

-- the hypotheses are met by the plain policy of the example configuration
example : Simple { demoConf with policies := demoConf.policies.take 1 } := by
  intro p hp s hs
  simp [demoConf] at hp
  subst hp
  simp at hs
  subst hs
  simp
example : MayFail (outOfMemoryFor "Connection:IsLocal") := by
  intro m k v; unfold outOfMemoryFor; split <;> simp

end Verif.Iam
