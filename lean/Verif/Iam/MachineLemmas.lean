import Verif.Iam.Machine
import Verif.Iam.AccessProps

/-! What a step can do to the users: a classification all invariants build on. -/

namespace Verif.Iam

open Spec

/-- Object identities are distinct and below the next one. -/
structure AddrOk (iam : Iam) : Prop where
  lt : ∀ u ∈ iam.state.users, u.addr < iam.nextAddr
  inj : ∀ u ∈ iam.state.users, ∀ w ∈ iam.state.users, u.addr = w.addr → u = w
  nodup : (iam.state.users.map User.addr).Nodup

/-- Keys stored by this operation have the length of a fingerprint. -/
def Ev.keyLengthOk : Ev → Bool
  | .coap _ _ (.addFingerprint _ fp _) => strlen fp == 64
  | .coap _ d (.pairLocalInitial _) => d.ci2.fingerprint.all (fun f => strlen f == 64)
  | .coap _ d (.pairLocalOpen _) => d.ci2.fingerprint.all (fun f => strlen f == 64)
  | .coap _ d (.pairPasswordInvite _) => d.ci2.fingerprint.all (fun f => strlen f == 64)
  | .coap _ d (.pairPasswordOpen _) => d.ci2.fingerprint.all (fun f => strlen f == 64)
  | _ => true

/-- The token the device generates for a user created through the API is within the limit. -/
def Ev.sctLengthOk (l : Limits) : Ev → Bool
  | .api d (.createUser _) => d.newSct.all (fun s => strlen s ≤ l.sctMax)
  | _ => true

/-- The operation deletes the user named so. -/
def Ev.deletes (n : String) : Ev → Bool
  | .api _ (.deleteUser u) => u == n
  | .coap _ _ (.deleteUser u) => u == n
  | _ => false

/-- Facts about replacing the user object `u` by `u'`. -/
structure ModFacts (e : Ev) (iam : Iam) (u u' : User) : Prop where
  addr : u'.addr = u.addr
  name : u'.username = u.username ∨
    (validateUsername u'.username = true ∧ strlen u'.username ≤ iam.limits.usernameMax ∧
      ∀ w ∈ iam.state.users, w.username ≠ u'.username)
  keys : ∀ fp, Owns fp u' → Owns fp u ∨ e.uncheckedKey = true ∨ ∀ w ∈ iam.state.users, ¬ Owns fp w
  valid : e.keyLengthOk = true → validateUser iam.limits iam.categories u = true →
    validateUser iam.limits iam.categories u' = true
  password : u'.password = none ∨ u'.password = u.password ∨ e.setsPassword u.username = true

/-- Facts about adding a user. -/
structure AddFacts (e : Ev) (iam : Iam) (u : User) : Prop where
  addr : u.addr = iam.nextAddr
  valid : validateUsername u.username = true
  length : strlen u.username ≤ iam.limits.usernameMax
  fresh : ∀ w ∈ iam.state.users, w.username ≠ u.username
  keys : ∀ fp, Owns fp u → ∀ w ∈ iam.state.users, ¬ Owns fp w
  room : iam.state.users.length < iam.limits.maxUsers ∨ e.openPairing = true
  ok : e.keyLengthOk = true → e.sctLengthOk iam.limits = true →
    validateUser iam.limits iam.categories u = true
  password : u.password = none

/-- How the list of users and the next identity can change in a step. -/
inductive UsersUpd (e : Ev) (iam : Iam) : List User → Nat → Prop
  | keep (n) : iam.nextAddr ≤ n → UsersUpd e iam iam.state.users n
  | add (u) : AddFacts e iam u → UsersUpd e iam (iam.state.users ++ [u]) (iam.nextAddr + 1)
  | mod (u u') : u ∈ iam.state.users → ModFacts e iam u u' →
      UsersUpd e iam (iam.state.users.map (fun w => if w.addr = u.addr then u' else w)) iam.nextAddr
  | delete (u) : u ∈ iam.state.users → e.deletes u.username = true →
      UsersUpd e iam (iam.state.users.filter (fun w => w.addr != u.addr)) iam.nextAddr
  | load (d st) : e = .api d (.loadState true st) →
      validateState iam.limits iam.categories st = true →
      UsersUpd e iam (freshen iam.nextAddr st.users) (iam.nextAddr + st.users.length)

theorem UsersUpd.same {e : Ev} {iam iam' : Iam} (h1 : iam'.state.users = iam.state.users)
    (h2 : iam'.nextAddr = iam.nextAddr) : UsersUpd e iam iam'.state.users iam'.nextAddr := by
  rw [h1, h2]; exact .keep _ (Nat.le_refl _)

theorem findUser_mem {st : IamState} {n : Option String} {u : User} (h : findUser st n = some u) :
    u ∈ st.users := by
  obtain ⟨m, _, hf⟩ := (findUser_some st n u).mp h
  exact hf.mem

theorem findUser_name {st : IamState} {n : String} {u : User} (h : findUser st (some n) = some u) :
    u.username = n := by
  obtain ⟨m, hm, hf⟩ := (findUser_some st _ u).mp h
  injection hm with hm; subst hm
  exact hf.prop

/-- Replacing through a function is replacing by a value. -/
theorem updUser_users {iam : Iam} (ha : AddrOk iam) {u : User} (hu : u ∈ iam.state.users) (g : User → User) :
    (updUser iam u.addr g).state.users =
      iam.state.users.map (fun w => if w.addr = u.addr then g u else w) := by
  unfold updUser
  apply List.map_congr_left
  intro w hw
  by_cases h : w.addr = u.addr
  · rw [if_pos h, if_pos h, ha.inj w hw u hu h]
  · rw [if_neg h, if_neg h]

theorem upd_mod {e : Ev} {iam : Iam} (ha : AddrOk iam) {u : User} (hu : u ∈ iam.state.users)
    (g : User → User) (h : ModFacts e iam u (g u)) :
    UsersUpd e iam (hasChanged (updUser iam u.addr g)).state.users
      (hasChanged (updUser iam u.addr g)).nextAddr := by
  have : (hasChanged (updUser iam u.addr g)).state.users = (updUser iam u.addr g).state.users := rfl
  rw [this, updUser_users ha hu]
  exact .mod u (g u) hu h

theorem mod_const {e : Ev} {iam : Iam} (ha : AddrOk iam) {u u' : User} (hu : u ∈ iam.state.users)
    (h : ModFacts e iam u u') :
    UsersUpd e iam (hasChanged (updUser iam u.addr (fun _ => u'))).state.users
      (hasChanged (updUser iam u.addr (fun _ => u'))).nextAddr :=
  upd_mod ha hu (fun _ => u') h

/-- A modification that keeps name and keys. -/
theorem ModFacts.plain {e : Ev} {iam : Iam} {u u' : User} (h1 : u'.addr = u.addr)
    (h2 : u'.username = u.username) (h3 : u'.fingerprints = u.fingerprints)
    (h4 : validateUser iam.limits iam.categories u = true → validateUser iam.limits iam.categories u' = true)
    (h5 : u'.password = none ∨ u'.password = u.password ∨ e.setsPassword u.username = true) :
    ModFacts e iam u u' :=
  ⟨h1, .inl h2, fun fp h => .inl (by unfold Owns at *; rw [h3] at h; exact h), fun _ => h4, h5⟩

theorem withAccess_done {E : Env} {iam iam' : Iam} {d : Dev} {ref : Nat} {action : String} {attrs : Attrs}
    {k : HRes} {c : Nat} (h : withAccess E iam d ref action attrs k = .done iam' c) :
    (iam' = iam ∧ c = 403) ∨ (checkAccess E iam d.ci ref action attrs = .ok true ∧ k = .done iam' c) := by
  unfold withAccess at h
  split at h
  · cases h
  · injection h with h1 h2; exact .inl ⟨h1.symm, h2.symm⟩
  · rename_i hc; exact .inr ⟨hc, h⟩

theorem withPayload_done {iam iam' : Iam} {p : Payload} {k : CV → HRes} {c : Nat}
    (h : withPayload iam p k = .done iam' c) :
    (iam' = iam ∧ c = 400) ∨ ∃ v, p = .value v ∧ k v = .done iam' c := by
  unfold withPayload at h
  split at h
  · exact .inr ⟨_, rfl, h⟩
  · injection h with h1 h2; exact .inl ⟨h1.symm, h2.symm⟩

/-! ### validateUser facts -/

theorem validateUser_iff (l : Limits) (cats : List String) (u : User) :
    validateUser l cats u = true ↔
    strlen u.username ≤ l.usernameMax ∧ checkLength 0 l.displayNameMax u.displayName = true ∧
    checkLength l.passwordMin l.passwordMax u.password = true ∧
    (∀ f ∈ u.fingerprints, strlen f.fingerprint = 64) ∧
    checkLength 0 l.sctMax u.sct = true ∧ checkLength 0 l.fcmTokenMax u.fcmToken = true ∧
    checkLength 0 l.fcmProjectIdMax u.fcmProjectId = true ∧
    checkLength 0 l.oauthSubjectMax u.oauthSubject = true ∧
    ∀ c ∈ u.notificationCategories, c ∈ cats := by
  simp only [validateUser, Bool.and_eq_true, Bool.not_eq_true', decide_eq_false_iff_not, Nat.not_lt,
    gt_iff_lt, List.all_eq_true, beq_iff_eq, List.contains_iff_mem, and_assoc]

theorem checkLength_some (lo hi : Nat) (s : String) :
    checkLength lo hi (some s) = true ↔ lo ≤ strlen s ∧ strlen s ≤ hi := by
  simp [checkLength, Nat.not_lt]

theorem categorySet_mem (cs : List String) (c : String) (h : c ∈ categorySet cs) : c ∈ cs := by
  have : ∀ (cs acc : List String), c ∈ cs.foldl (fun acc c => if acc.contains c then acc else acc ++ [c]) acc →
      c ∈ acc ∨ c ∈ cs := by
    intro cs
    induction cs with
    | nil => intro acc h; exact .inl h
    | cons a cs ih =>
      intro acc h
      rw [List.foldl_cons] at h
      rcases ih _ h with h | h
      · split at h
        · exact .inl h
        · rcases List.mem_append.mp h with h | h
          · exact .inl h
          · right; simp at h; simp [h]
      · right; simp [h]
  rcases this cs [] h with h | h
  · simp at h
  · exact h

/-! ### Fingerprint updates -/

theorem owns_add {u u' : User} {f : String} {name : Option String}
    (h : userAddFingerprint u (some f) name = some u') :
    u' = { u with fingerprints := u.fingerprints ++ [⟨f, name⟩] } := by
  simp [userAddFingerprint] at h; exact h.symm

theorem add_modFacts {e : Ev} {iam : Iam} {u u' : User} {fp : Option String} {name : Option String}
    (h : userAddFingerprint u fp name = some u')
    (hk : e.uncheckedKey = true ∨ ∀ f, fp = some f → ∀ w ∈ iam.state.users, ¬ Owns f w)
    (hl : e.keyLengthOk = true → ∀ f, fp = some f → strlen f = 64) (clear : Bool) :
    ModFacts e iam u (if clear then { u' with password := none } else u') := by
  cases fp with
  | none => simp [userAddFingerprint] at h
  | some f =>
    have hu := owns_add h
    have hbase : ModFacts e iam u u' := by
      subst hu
      refine ⟨rfl, .inl rfl, ?_, ?_, .inr (.inl rfl)⟩
      · rintro g ⟨x, hx, hg⟩
        simp only [List.mem_append, List.mem_singleton] at hx
        rcases hx with hx | hx
        · exact .inl ⟨x, hx, hg⟩
        · subst hx; simp only at hg; subst hg
          rcases hk with hk | hk
          · exact .inr (.inl hk)
          · exact .inr (.inr (hk _ rfl))
      · intro hlen
        rw [validateUser_iff, validateUser_iff]
        rintro ⟨h1, h2, h3, h4, h5⟩
        refine ⟨h1, h2, h3, ?_, h5⟩
        intro x hx
        simp only [List.mem_append, List.mem_singleton] at hx
        rcases hx with hx | hx
        · exact h4 x hx
        · subst hx; exact hl hlen _ rfl
    cases clear
    · simpa using hbase
    · simp only [if_true]
      refine ⟨hbase.addr, hbase.name, hbase.keys, ?_, .inl rfl⟩
      intro hlen hv
      have := hbase.valid hlen hv
      rw [validateUser_iff] at this ⊢
      obtain ⟨h1, h2, h3, h4⟩ := this
      exact ⟨h1, h2, rfl, h4⟩

theorem set_modFacts {e : Ev} {iam : Iam} {u u' : User} {fp : Option String}
    (h : userSetFingerprint u fp = some u')
    (hk : e.uncheckedKey = true ∨ ∀ f, fp = some f → ∀ w ∈ iam.state.users, ¬ Owns f w)
    (hl : ∀ f, fp = some f → strlen f = 64) : ModFacts e iam u u' := by
  unfold userSetFingerprint at h
  split at h
  · rename_i x rest hfps
    injection h with h; subst h
    refine ⟨rfl, .inl rfl, ?_, ?_, .inr (.inl rfl)⟩
    · rintro g ⟨y, hy, hg⟩
      exact .inl ⟨y, by rw [hfps]; exact List.mem_cons_of_mem _ hy, hg⟩
    · intro _
      rw [validateUser_iff, validateUser_iff]
      rintro ⟨h1, h2, h3, h4, h5⟩
      exact ⟨h1, h2, h3, fun y hy => h4 y (by rw [hfps]; exact List.mem_cons_of_mem _ hy), h5⟩
  · cases h
  · rename_i f hfps
    injection h with h; subst h
    refine ⟨rfl, .inl rfl, ?_, ?_, .inr (.inl rfl)⟩
    · rintro g ⟨y, hy, hg⟩
      simp only [List.mem_singleton] at hy
      subst hy; simp only at hg; subst hg
      rcases hk with hk | hk
      · exact .inr (.inl hk)
      · exact .inr (.inr (hk _ rfl))
    · intro _
      rw [validateUser_iff, validateUser_iff]
      rintro ⟨h1, h2, h3, h4, h5⟩
      refine ⟨h1, h2, h3, ?_, h5⟩
      intro y hy
      simp only [List.mem_singleton] at hy
      subst hy; exact hl _ rfl
  · rename_i f x rest hfps
    injection h with h; subst h
    refine ⟨rfl, .inl rfl, ?_, ?_, .inr (.inl rfl)⟩
    · rintro g ⟨y, hy, hg⟩
      simp only [List.mem_cons] at hy
      rcases hy with hy | hy
      · subst hy; simp only at hg; subst hg
        rcases hk with hk | hk
        · exact .inr (.inl hk)
        · exact .inr (.inr (hk _ rfl))
      · exact .inl ⟨y, by rw [hfps]; exact List.mem_cons_of_mem _ hy, hg⟩
    · intro _
      rw [validateUser_iff, validateUser_iff]
      rintro ⟨h1, h2, h3, h4, h5⟩
      refine ⟨h1, h2, h3, ?_, h5⟩
      intro y hy
      simp only [List.mem_cons] at hy
      rcases hy with hy | hy
      · subst hy; exact hl _ rfl
      · exact h4 y (by rw [hfps]; exact List.mem_cons_of_mem _ hy)

theorem remove_modFacts {e : Ev} {iam : Iam} {u u' : User} {fp : String}
    (h : userRemoveFingerprint u fp = some u') : ModFacts e iam u u' := by
  unfold userRemoveFingerprint at h
  split at h
  · injection h with h; subst h
    refine ⟨rfl, .inl rfl, ?_, ?_, .inr (.inl rfl)⟩
    · rintro g ⟨y, hy, hg⟩
      exact .inl ⟨y, List.mem_of_mem_eraseP hy, hg⟩
    · intro _
      rw [validateUser_iff, validateUser_iff]
      rintro ⟨h1, h2, h3, h4, h5⟩
      exact ⟨h1, h2, h3, fun y hy => h4 y (List.mem_of_mem_eraseP hy), h5⟩
  · cases h

theorem not_owned_of_find_none {iam : Iam} {f : String}
    (h : findUserByFp iam.state (some f) = none) : ∀ w ∈ iam.state.users, ¬ Owns f w := by
  simp only [findUserByFp, List.find?_eq_none] at h
  intro w hw ho
  exact h w hw ((owns_iff f w).mpr ho)

/-! ### Adding users -/

theorem addUser_upd {e : Ev} {iam iam' : Iam} {ok : Bool} {u : User}
    (hf : AddFacts e iam { u with addr := iam.nextAddr })
    (h : addUser (allocUser iam u).1 ok (allocUser iam u).2 = some iam') :
    UsersUpd e iam iam'.state.users iam'.nextAddr := by
  unfold addUser at h
  split at h
  · cases h
  · injection h with h; subst h
    exact .add _ hf

theorem pairNewClient_upd {e : Ev} {iam : Iam} {d : Dev} {username fp fpName : Option String}
    (he : e.openPairing = true) (hs : e.keyLengthOk = true → ∀ f, fp = some f → strlen f = 64) :
    UsersUpd e iam (pairNewClient iam d username fp fpName).1.state.users
      (pairNewClient iam d username fp fpName).1.nextAddr := by
  unfold pairNewClient
  split
  · rename_i name f
    split
    · exact .keep _ (Nat.le_refl _)
    · rename_i hv
      split
      · rename_i hn hfp
        split
        · rename_i role sct hrole hsct
          split
          · exact .keep _ (Nat.le_refl _)
          · rename_i hlen
            simp only
            split
            · exact .keep _ (Nat.le_succ _)
            · rename_i iam'' hadd
              refine addUser_upd ?_ hadd
              simp only [Bool.or_eq_true, Bool.not_eq_true', decide_eq_true_eq, not_or,
                Bool.not_eq_false, Nat.not_lt] at hv hlen
              refine ⟨rfl, hv.1, hv.2, (findUser_none _ _).mp hn, ?_, .inr he, ?_, rfl⟩
              · rintro g ⟨x, hx, hg⟩
                simp only [List.mem_singleton] at hx
                subst hx; simp only at hg; subst hg
                exact not_owned_of_find_none hfp
              · intro hk _
                rw [validateUser_iff]
                refine ⟨hv.2, rfl, rfl, ?_, (checkLength_some _ _ _).mpr ⟨Nat.zero_le _, by omega⟩, rfl, rfl, rfl, by simp⟩
                intro x hx
                simp only [List.mem_singleton] at hx
                subst hx; exact hs hk _ rfl
        · exact .keep _ (Nat.le_refl _)
      · split <;> exact .keep _ (Nat.le_refl _)
      · exact .keep _ (Nat.le_refl _)
  · exact .keep _ (Nat.le_refl _)

theorem pairResponse_done {r : Iam × Err} {iam' : Iam} {c : Nat} (h : pairResponse r = .done iam' c) :
    iam' = r.1 := by
  unfold pairResponse at h
  split at h <;> (injection h with h _; exact h.symm)

end Verif.Iam
