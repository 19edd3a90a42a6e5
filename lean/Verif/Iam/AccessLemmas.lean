import Verif.Iam.AccessSpec
import Verif.Iam.PolicyProps

/-! Helper lemmas for the access check. -/

namespace Verif.Iam

open Spec

theorem firstWith_iff {α : Type} (p : α → Bool) (P : α → Prop) (h : ∀ a, p a = true ↔ P a)
    (l : List α) (u : α) : l.find? p = some u ↔ FirstWith P l u := by
  rw [List.find?_eq_some_iff_append]
  unfold FirstWith
  constructor
  · rintro ⟨hp, as, bs, rfl, hn⟩
    exact ⟨as, bs, rfl, (h u).mp hp, fun w hw hP => by have := hn w hw; simp [(h w).mpr hP] at this⟩
  · rintro ⟨as, bs, rfl, hp, hn⟩
    exact ⟨(h u).mpr hp, as, bs, rfl, fun w hw => by
      have := hn w hw; rw [← h w] at this; simpa using this⟩

theorem Spec.FirstWith.mem {α : Type} {P : α → Prop} {l : List α} {u : α} (h : FirstWith P l u) : u ∈ l := by
  obtain ⟨pre, post, rfl, _⟩ := h; simp

theorem Spec.FirstWith.prop {α : Type} {P : α → Prop} {l : List α} {u : α} (h : FirstWith P l u) : P u := by
  obtain ⟨pre, post, rfl, h, _⟩ := h; exact h

theorem Spec.FirstWith.unique {α : Type} {P : α → Prop} [DecidablePred P] {l : List α} {u v : α}
    (h : FirstWith P l u) (h' : FirstWith P l v) : u = v := by
  have a := (firstWith_iff (fun a => decide (P a)) P (by simp) l u).mpr h
  have b := (firstWith_iff (fun a => decide (P a)) P (by simp) l v).mpr h'
  rw [a] at b; exact Option.some.inj b

theorem owns_iff (fp : String) (u : User) :
    (u.fingerprints.any (fun x => x.fingerprint == fp)) = true ↔ Owns fp u := by
  simp [Owns]

theorem findUserByFp_some (st : IamState) (fp : Option String) (u : User) :
    findUserByFp st fp = some u ↔ ∃ f, fp = some f ∧ FirstWith (Owns f) st.users u := by
  cases fp with
  | none => simp [findUserByFp]
  | some f =>
    simp only [findUserByFp, Option.some.injEq, exists_eq_left']
    exact firstWith_iff _ _ (owns_iff f) _ _

theorem findUserByFp_none (iam : Iam) (ci : ConnInfo) :
    findUserByFp iam.state ci.fingerprint = none ↔ ¬ KnownKey iam ci := by
  unfold KnownKey
  cases h : ci.fingerprint with
  | none => simp [findUserByFp]
  | some f =>
    simp only [findUserByFp, List.find?_eq_none, Option.some.injEq, exists_eq_left', not_exists, not_and]
    constructor
    · intro hn u hu ho; exact hn u hu ((owns_iff f u).mpr ho)
    · intro hn u hu ho; exact hn u hu ((owns_iff f u).mp ho)

theorem findUser_some (st : IamState) (n : Option String) (u : User) :
    findUser st n = some u ↔ ∃ m, n = some m ∧ FirstWith (fun u => u.username = m) st.users u := by
  cases n with
  | none => simp [findUser]
  | some f =>
    simp only [findUser, Option.some.injEq, exists_eq_left']
    exact firstWith_iff _ _ (by simp) _ _

theorem findUser_none (st : IamState) (n : String) :
    findUser st (some n) = none ↔ ∀ u ∈ st.users, u.username ≠ n := by
  simp [findUser]

theorem pwLookup_some (iam : Iam) (ci : ConnInfo) (u : User) :
    (if ci.pwAuth then findUser iam.state ci.pwUser else none) = some u ↔
    ci.pwAuth = true ∧ ∃ n, ci.pwUser = some n ∧ FirstWith (fun u => u.username = n) iam.state.users u := by
  cases h : ci.pwAuth <;> simp [findUser_some]

theorem pwLookup_none (iam : Iam) (ci : ConnInfo) :
    (if ci.pwAuth then findUser iam.state ci.pwUser else none) = none ↔ ¬ KnownPassword iam ci := by
  unfold KnownPassword
  cases h : ci.pwAuth
  · simp
  · cases h2 : ci.pwUser with
    | none => simp [findUser]
    | some n => simp [findUser_none]

theorem Spec.FirstWith.exists_of_mem {α : Type} {P : α → Prop} [DecidablePred P] {l : List α}
    (h : ∃ u ∈ l, P u) : ∃ u, FirstWith P l u := by
  have : (l.find? (fun a => decide (P a))).isSome := by
    rw [List.find?_isSome]; simpa using h
  obtain ⟨u, hu⟩ := Option.isSome_iff_exists.mp this
  exact ⟨u, (firstWith_iff _ P (by simp) l u).mp hu⟩

theorem auth_find_some (iam : Iam) (ref : Nat) (c : Nat × Nat) :
    iam.authorized.find? (fun c => c.1 == ref) = some c ↔ FirstWith (fun c => c.1 = ref) iam.authorized c :=
  firstWith_iff _ _ (by simp) _ _

theorem auth_find_none (iam : Iam) (ref : Nat) :
    iam.authorized.find? (fun c => c.1 == ref) = none ↔ ∀ c ∈ iam.authorized, c.1 ≠ ref := by
  simp

theorem deref_some (st : IamState) (a : Nat) (u : User) :
    deref st a = some u ↔ FirstWith (fun u => u.addr = a) st.users u :=
  firstWith_iff _ _ (by simp) _ _

theorem deref_none (st : IamState) (a : Nat) : deref st a = none ↔ ∀ u ∈ st.users, u.addr ≠ a := by
  simp [deref]

theorem actingUser_actsAs (iam : Iam) (ci : ConnInfo) (ref : Nat) (user : Option User)
    (h : actingUser iam ci ref = .ok user) : ActsAs iam ci ref user := by
  unfold actingUser at h
  split at h
  · rename_i u hu
    injection h with h; subst h
    obtain ⟨fp, hfp, hf⟩ := (findUserByFp_some _ _ _).mp hu
    exact .key fp u hfp hf
  · rename_i hk
    rw [findUserByFp_none] at hk
    split at h
    · rename_i u hu
      injection h with h; subst h
      obtain ⟨hp, n, hn, hf⟩ := (pwLookup_some _ _ _).mp hu
      exact .password n u hk hp hn hf
    · rename_i hpw
      rw [pwLookup_none] at hpw
      split at h
      · rename_i ha
        injection h with h; subst h
        exact .unpaired hk hpw ((auth_find_none _ _).mp ha)
      · rename_i c hc
        split at h
        · rename_i u hu
          injection h with h; subst h
          exact .authorized c u hk hpw ((auth_find_some _ _ _).mp hc) ((deref_some _ _ _).mp hu)
        · cases h

theorem actingUser_dangling (iam : Iam) (ci : ConnInfo) (ref : Nat) 
    (h : actingUser iam ci ref = .ub) : Dangling iam ci ref := by
  unfold actingUser at h
  split at h
  · cases h
  · rename_i hk
    rw [findUserByFp_none] at hk
    split at h
    · cases h
    · rename_i hpw
      rw [pwLookup_none] at hpw
      split at h
      · cases h
      · rename_i c hc
        split at h
        · cases h
        · rename_i hd
          exact ⟨hk, hpw, c, (auth_find_some _ _ _).mp hc, (deref_none _ _).mp hd⟩

theorem firstWith_owns_unique {fp : String} {l : List User} {u v : User}
    (h : FirstWith (Owns fp) l u) (h' : FirstWith (Owns fp) l v) : u = v := by
  have a := (firstWith_iff _ _ (owns_iff fp) l u).mpr h
  have b := (firstWith_iff _ _ (owns_iff fp) l v).mpr h'
  rw [a] at b; exact Option.some.inj b

theorem actsAs_unique (iam : Iam) (ci : ConnInfo) (ref : Nat) (a b : Option User)
    (ha : ActsAs iam ci ref a) (hb : ActsAs iam ci ref b) : a = b := by
  cases ha with
  | key fp u h1 h2 =>
    have hk : KnownKey iam ci := ⟨fp, h1, u, h2.mem, h2.prop⟩
    cases hb with
    | key fp' u' h1' h2' =>
      rw [h1] at h1'; injection h1' with e; subst e
      rw [firstWith_owns_unique h2 h2']
    | password _ _ h => exact absurd hk h
    | authorized _ _ h => exact absurd hk h
    | unpaired h => exact absurd hk h
  | password n u hk hp hn hf =>
    have hkp : KnownPassword iam ci := ⟨hp, n, hn, u, hf.mem, hf.prop⟩
    cases hb with
    | key fp' u' h1' h2' => exact absurd ⟨fp', h1', u', h2'.mem, h2'.prop⟩ hk
    | password n' u' _ _ hn' hf' =>
      rw [hn] at hn'; injection hn' with e; subst e
      rw [hf.unique hf']
    | authorized _ _ _ h => exact absurd hkp h
    | unpaired _ h => exact absurd hkp h
  | authorized c u hk hp hc hu =>
    cases hb with
    | key fp' u' h1' h2' => exact absurd ⟨fp', h1', u', h2'.mem, h2'.prop⟩ hk
    | password n' u' _ hp' hn' hf' => exact absurd ⟨hp', n', hn', u', hf'.mem, hf'.prop⟩ hp
    | authorized c' u' _ _ hc' hu' =>
      have := hc.unique hc'; subst this
      rw [hu.unique hu']
    | unpaired _ _ h => exact absurd hc.prop (h c hc.mem)
  | unpaired hk hp hn =>
    cases hb with
    | key fp' u' h1' h2' => exact absurd ⟨fp', h1', u', h2'.mem, h2'.prop⟩ hk
    | password n' u' _ hp' hn' hf' => exact absurd ⟨hp', n', hn', u', hf'.mem, hf'.prop⟩ hp
    | authorized c' u' _ _ hc' _ => exact absurd hc'.prop (hn c' hc'.mem)
    | unpaired => rfl

theorem actsAs_not_dangling (iam : Iam) (ci : ConnInfo) (ref : Nat) (a : Option User)
    (ha : ActsAs iam ci ref a) : ¬ Dangling iam ci ref := by
  rintro ⟨hk, hp, c, hc, hd⟩
  cases ha with
  | key fp u h1 h2 => exact hk ⟨fp, h1, u, h2.mem, h2.prop⟩
  | password n u _ h1 h2 h3 => exact hp ⟨h1, n, h2, u, h3.mem, h3.prop⟩
  | authorized c' u _ _ hc' hu =>
    have := hc.unique hc'; subst this
    exact hd u hu.mem hu.prop
  | unpaired _ _ hn => exact hn c hc.mem hc.prop

/-! ### Attributes -/

theorem lookup_cons_if (k v k' : String) (m : Attrs) :
    List.lookup k' ((k, v) :: m) = if k' = k then some v else m.lookup k' := by
  by_cases h : k' = k
  · subst h; simp [List.lookup]
  · have : (k' == k) = false := by simp [h]
    simp only [List.lookup, this, h, if_false]

theorem overwrites_cons : Overwrites (fun m k v => (k, v) :: m) := by
  intro m k v k'
  exact lookup_cons_if k v k' m

theorem lookup_fold (ins : Attrs → String → String → Attrs) (h : Overwrites ins) (l m : Attrs) (k : String) :
    (l.foldl (fun m kv => ins m kv.1 kv.2) m).lookup k = (l.reverse ++ m).lookup k := by
  induction l generalizing m with
  | nil => simp
  | cons a l ih =>
    rw [List.foldl_cons, ih, List.reverse_cons, List.append_assoc]
    have : ∀ p : Attrs, (p ++ ins m a.1 a.2).lookup k = (p ++ ([a] ++ m)).lookup k := by
      intro p
      induction p with
      | nil => simp [h m a.1 a.2 k]; rw [show a = (a.1, a.2) from rfl, lookup_cons_if]
      | cons b p ihp =>
        rw [List.cons_append, List.cons_append, show b = (b.1, b.2) from rfl, lookup_cons_if,
          lookup_cons_if, ihp]
    exact this _

theorem baseAttrs_lookup (E : Env) (h : Overwrites E.ins) (ci : ConnInfo) (supplied : Attrs) (k : String) :
    (baseAttrs E ci supplied).lookup k =
    (("Connection:IsLocal", if ci.isLocal then "true" else "false") :: supplied.reverse).lookup k := by
  unfold baseAttrs
  rw [h, lookup_cons_if, lookup_fold E.ins h, List.append_nil]

theorem denotes_congr {a b : Attrs} (h : ∀ k, a.lookup k = b.lookup k) {v s : String} :
    Denotes a v s ↔ Denotes b v s := by
  constructor
  · intro hd
    cases hd with
    | var n s hl => exact .var n s (by rw [← h]; exact hl)
    | lit v hl => exact .lit v hl
  · intro hd
    cases hd with
    | var n s hl => exact .var n s (by rw [h]; exact hl)
    | lit v hl => exact .lit v hl

theorem granted_congr (N : NumSem) (conf : Config) (role : Role) (action : String) {a b : Attrs}
    (h : ∀ k, a.lookup k = b.lookup k) : Granted N conf role action a ↔ Granted N conf role action b := by
  have hd : ∀ v s, Denotes a v s ↔ Denotes b v s := fun v s => denotes_congr h
  have hm : ∀ c, CondMet N a c ↔ CondMet N b c := by
    intro c; unfold CondMet; simp only [h, hd]
  have hf : ∀ c, CondFails N a c ↔ CondFails N b c := by
    intro c; unfold CondFails; simp only [h, hd]
  unfold Granted Applies Broken SomeFails AllMet
  simp only [hm, hf]

theorem findRole_some (conf : Config) (r : Option String) (role : Role) :
    findRole conf r = some role ↔ ∃ id, r = some id ∧ FirstWith (fun x => x.id = id) conf.roles role := by
  cases r with
  | none => simp [findRole]
  | some f =>
    simp only [findRole, Option.some.injEq, exists_eq_left']
    exact firstWith_iff _ _ (by simp) _ _

end Verif.Iam
