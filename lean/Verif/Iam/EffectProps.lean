import Verif.Iam.CoapProps

/-!
# IAM CoAP requests — property theorems (C58, C59, C60)
-/

namespace Verif.Iam

open Spec

/-! ### Helpers -/

theorem upd_split {l pre post : List User} {u : User} (hnd : (l.map User.addr).Nodup)
    (hl : l = pre ++ u :: post) (f : User → User) :
    l.map (fun w => if w.addr = u.addr then f w else w) = pre ++ f u :: post := by
  subst hl
  simp only [List.map_append, List.map_cons, List.nodup_append, List.nodup_cons, List.mem_map] at hnd
  obtain ⟨_, ⟨h2, _⟩, h3⟩ := hnd
  simp only [List.map_append, List.map_cons, if_true]
  congr 1
  · conv => rhs; rw [← List.map_id pre]
    apply List.map_congr_left
    intro w hw
    rw [if_neg]
    · rfl
    · intro he
      exact h3 w.addr ⟨w, hw, rfl⟩ u.addr (List.mem_cons_self ..) he
  · congr 1
    conv => rhs; rw [← List.map_id post]
    apply List.map_congr_left
    intro w hw
    rw [if_neg]
    · rfl
    · intro he; exact h2 ⟨w, hw, he⟩

theorem replaced_upd {iam : Iam} (ha : AddrOk iam) {n : String} {u : User}
    (hu : findUser iam.state (some n) = some u) (f : User → User) :
    Replaced iam.state (hasChanged (updUser iam u.addr f)).state n u (f u) := by
  obtain ⟨pre, post, hl, hn, hpre⟩ := findUser_first hu
  refine ⟨pre, post, hl, hn, hpre, ?_⟩
  simp only [hasChanged, updUser, upd_split ha.nodup hl f]

theorem changes_upd {iam : Iam} (ha : AddrOk iam) {n : String} {u : User}
    (hu : findUser iam.state (some n) = some u) (f : User → User) :
    Changes iam.state (hasChanged (updUser iam u.addr f)).state n f :=
  ⟨u, replaced_upd ha hu f⟩

theorem changes_const {iam : Iam} (ha : AddrOk iam) {n : String} {u u' : User}
    (hu : findUser iam.state (some n) = some u) {f : User → User} (hf : u' = f u) :
    Changes iam.state (hasChanged (updUser iam u.addr (fun _ => u'))).state n f := by
  subst hf
  exact ⟨u, replaced_upd ha hu (fun _ => f u)⟩

theorem removed_erase {iam : Iam} (ha : AddrOk iam) {n : String} {u : User}
    (hu : findUser iam.state (some n) = some u) :
    Removed iam.state (hasChanged (eraseUser iam u.addr)).state n := by
  obtain ⟨pre, post, hl, hn, hpre⟩ := findUser_first hu
  refine ⟨pre, u, post, hl, hn, hpre, ?_⟩
  have hnd := ha.nodup
  rw [hl] at hnd
  simp only [List.map_append, List.map_cons, List.nodup_append, List.nodup_cons, List.mem_map] at hnd
  obtain ⟨_, ⟨h2, _⟩, h3⟩ := hnd
  simp only [hasChanged, eraseUser, hl, List.filter_append, List.filter_cons, bne_self_eq_false,
    Bool.false_eq_true, if_false]
  congr 1
  congr 1
  · rw [List.filter_eq_self]
    intro w hw
    simpa using h3 w.addr ⟨w, hw, rfl⟩ u.addr (List.mem_cons_self ..)
  · rw [List.filter_eq_self]
    intro w hw
    simp only [bne_iff_ne, ne_eq]
    intro he; exact h2 ⟨w, hw, he⟩

theorem noOwner {st : IamState} {f : String} (h : ¬ (findUserByFp st (some f)).isSome = true) :
    ∀ w ∈ st.users, ¬ Owns f w := by
  intro w hw ho
  rw [Option.not_isSome_iff_eq_none] at h
  simp only [findUserByFp, List.find?_eq_none] at h
  obtain ⟨x, hx, hf⟩ := ho
  exact h w hw (List.any_eq_true.mpr ⟨x, hx, by simpa using hf⟩)

theorem decodeKv_text {v : CV} {k s : String} (h : decodeKv v k = some (some s)) :
    TextAt (.value v) k s := by
  unfold decodeKv at h
  split at h
  · split at h
    · rename_i _ kvs _ x hx
      obtain ⟨t, ht, hs⟩ := decodeString_text h
      subst ht
      exact ⟨kvs, t, rfl, hx, hs⟩
    · cases h
  · cases h

theorem decodeKv_of_text {k : String} {kvs : List (String × CV)} {t : String}
    (h : kvs.lookup k = some (.text t)) (hl : t.utf8ByteSize < 1024) :
    decodeKv (.map kvs) k = some (some (cstr t)) := by
  simp [decodeKv, h, decodeString, strlen, hl]

theorem decodeKv_optional {v : CV} {k : String} : OptTextAt (.value v) k ((decodeKv v k).getD none) := by
  have key : ∀ kvs t, Payload.value v = .value (.map kvs) → kvs.lookup k = some (.text t) →
      ¬ 1024 ≤ t.utf8ByteSize → decodeKv v k = some (some (cstr t)) := by
    intro kvs t h1 h2 h3
    injection h1 with h1; subst h1
    exact decodeKv_of_text h2 (by omega)
  cases h : decodeKv v k with
  | none =>
    intro kvs t h1 h2
    refine Decidable.byContradiction fun h3 => ?_
    rw [key kvs t h1 h2 h3] at h; cases h
  | some o =>
    cases o with
    | none =>
      intro kvs t h1 h2
      refine Decidable.byContradiction fun h3 => ?_
      rw [key kvs t h1 h2 h3] at h; injection h with h; cases h
    | some s => exact decodeKv_text h

theorem noText {p : Payload} (h : ∀ v, p ≠ .value v) {k : String} : OptTextAt p k none :=
  fun kvs _ h1 _ => absurd h1 (h (.map kvs))

theorem categorySet_nodup (cs : List String) : (categorySet cs).Nodup := by
  have : ∀ (cs acc : List String), acc.Nodup →
      (cs.foldl (fun acc c => if acc.contains c then acc else acc ++ [c]) acc).Nodup := by
    intro cs
    induction cs with
    | nil => intro acc h; exact h
    | cons x xs ih =>
      intro acc h
      simp only [List.foldl_cons]
      apply ih
      by_cases hx : acc.contains x = true
      · rw [if_pos hx]; exact h
      · rw [if_neg hx]
        rw [List.nodup_append]
        refine ⟨h, by simp, ?_⟩
        intro a ha b hb he
        simp only [List.mem_singleton] at hb
        subst hb he
        exact hx (List.contains_iff_mem.mpr ha)
  exact this cs [] List.nodup_nil

theorem decodeString_opt {v : CV} {o : Option String} (h : decodeString v = some o) : OptText (.value v) o := by
  cases o with
  | none => rw [decodeString_null h]; rfl
  | some s =>
    obtain ⟨t, ht, hs⟩ := decodeString_text h
    subst ht; exact ⟨t, rfl, hs⟩

theorem categorySet_iff (cs : List String) (c : String) : c ∈ categorySet cs ↔ c ∈ cs := by
  refine ⟨categorySet_mem cs c, ?_⟩
  have : ∀ (cs acc : List String), (c ∈ acc ∨ c ∈ cs) →
      c ∈ cs.foldl (fun acc c => if acc.contains c then acc else acc ++ [c]) acc := by
    intro cs
    induction cs with
    | nil => intro acc h; simpa using h
    | cons x xs ih =>
      intro acc h
      simp only [List.foldl_cons]
      apply ih
      by_cases hx : acc.contains x = true
      · rw [if_pos hx]
        rcases h with h | h
        · exact .inl h
        · rcases List.mem_cons.mp h with rfl | h
          · exact .inl (List.contains_iff_mem.mp hx)
          · exact .inr h
      · rw [if_neg hx]
        rcases h with h | h
        · exact .inl (List.mem_append_left _ h)
        · rcases List.mem_cons.mp h with rfl | h
          · exact .inl (by simp)
          · exact .inr h
  exact fun h => this cs [] (.inr h)

theorem decodeItems_text {vs : List CV} {cs : List String} (h : decodeItems vs = .ok (some cs)) :
    ∃ ts : List String, vs = ts.map CV.text ∧ cs = ts.map cstr := by
  induction vs generalizing cs with
  | nil =>
    simp only [decodeItems, Res.ok.injEq, Option.some.injEq] at h
    exact ⟨[], rfl, h.symm⟩
  | cons v vs ih =>
    simp only [decodeItems] at h
    split at h
    · cases h
    · cases h
    · rename_i s hs
      split at h
      · cases h
      · cases h
      · rename_i ss hss
        injection h with h; injection h with h
        obtain ⟨ts, h1, h2⟩ := ih hss
        obtain ⟨t, ht, hst⟩ := decodeString_text hs
        subst h1 h2 ht hst h
        exact ⟨t :: ts, rfl, rfl⟩

theorem remove_split {u u' : User} {f : String} (h : userRemoveFingerprint u f = some u') :
    ∃ pre x post, u.fingerprints = pre ++ x :: post ∧ x.fingerprint = f ∧ (∀ y ∈ pre, y.fingerprint ≠ f) ∧
      u' = { u with fingerprints := pre ++ post } := by
  unfold userRemoveFingerprint at h
  split at h
  · rename_i hany
    injection h with h
    simp only [List.any_eq_true, beq_iff_eq] at hany
    obtain ⟨x, hx, hxf⟩ := hany
    obtain ⟨y, l1, l2, h1, h2, h3, h4⟩ := List.exists_of_eraseP (p := fun x : Fp => x.fingerprint == f) hx (by simpa using hxf)
    rw [h4] at h
    refine ⟨l1, y, l2, h3, by simpa using h2, ?_, h.symm⟩
    intro z hz
    simpa using h1 z hz
  · cases h

/-! ## C58 -/

theorem pairNewClient_effect {iam : Iam} (ha : AddrOk iam) {d : Dev} {p : Payload} {n : String}
    {f fpn : Option String} {iam' : Iam} (hname : OptTextAt p "FingerprintName" fpn)
    (h : pairNewClient iam d (some n) f fpn = (iam', .ok)) :
    ∃ fp, f = some fp ∧ OpenPaired iam iam' d p n fp := by
  unfold pairNewClient at h
  split at h
  · rename_i name fp hn
    injection hn with hn; subst hn
    refine ⟨fp, rfl, ?_⟩
    split at h
    · injection h with _ h; cases h
    split at h
    · rename_i hfree hkey
      split at h
      · rename_i role sct hrole hsct
        split at h
        · injection h with _ h; cases h
        · simp only [allocUser] at h
          split at h
          · injection h with _ h; cases h
          · rename_i x hx
            injection h with h _
            subst h
            unfold addUser at hx
            split at hx
            · cases hx
            · injection hx with hx
              subst hx
              exact .new iam.nextAddr role sct fpn hrole hsct hname (noOwner (by simp [hkey]))
                ⟨(findUser_none _ n).mp hfree, rfl⟩
      · injection h with _ h; cases h
    · rename_i a b hfa hb
      split at h
      · rename_i hab
        injection h with h _
        subst h
        obtain ⟨g, hg, hfb⟩ := (findUserByFp_some _ _ _).mp hb
        injection hg with hg; subst hg
        have := ha.inj a (findUser_mem hfa) b hfb.mem hab
        subst this
        exact .already rfl ⟨a, findUser_first hfa, hfb.prop⟩
      · injection h with _ h; cases h
    · injection h with _ h; cases h
  · injection h with _ h; cases h

theorem pairResponse_effect {iam iam' : Iam} (ha : AddrOk iam) {d : Dev} {p : Payload} {n : String}
    {f fpn : Option String} {c : Nat} (hname : OptTextAt p "FingerprintName" fpn)
    (h : pairResponse (pairNewClient iam d (some n) f fpn) = .done iam' c) (hc : c < 400) :
    ∃ fp, f = some fp ∧ OpenPaired iam iam' d p n fp := by
  generalize hr : pairNewClient iam d (some n) f fpn = r at h
  obtain ⟨x, e⟩ := r
  cases e <;> simp only [pairResponse] at h <;> obtain ⟨rfl, rfl⟩ := done_inj h <;> try omega
  exact pairNewClient_effect ha hname hr

theorem optional_effect {E : Env} {iam iam' : Iam} (ha : AddrOk iam) {d : Dev} {ref : Nat}
    {action username : String} {p : Payload} {valid : String → Bool} {f : Option String → User → User}
    {c : Nat} (h : hSetOptional E iam d ref action username p valid f = .done iam' c)
    (hc : c < 400) : ∃ v, OptText p v ∧ Changes iam.state iam'.state username (f v) := by
  unfold hSetOptional at h
  rcases withPayload_done h with ⟨rfl, rfl⟩ | ⟨v, hp, h⟩
  · omega
  split at h
  · obtain ⟨_, rfl⟩ := done_inj h; omega
  · rename_i val hval
    split at h
    · obtain ⟨_, rfl⟩ := done_inj h; omega
    · rcases withAccess_done h with ⟨_, rfl⟩ | ⟨_, h⟩
      · omega
      split at h
      · obtain ⟨_, rfl⟩ := done_inj h; omega
      · rename_i u hu
        split at h
        · obtain ⟨_, rfl⟩ := done_inj h; omega
        · obtain ⟨rfl, _⟩ := done_inj h
          exact ⟨val, by rw [hp]; exact decodeString_opt hval, changes_upd ha hu (f val)⟩

/-- C58: the property fails. Creating a user is answered with 201 although the user was not added,
because the device had no room for its server connect token. -/
theorem C58_success_took_effect_create_violated :
    ∃ i, handle demoEnv { openIam with limits := {} } { newSct := some "t", addSctOk := false } 5
        (.createUser (.value (.map [("Username", .text "x")]))) = .done i 201 ∧
      i.state = openIam.state := ⟨_, rfl, by decide +kernel⟩

/-- C58: setting the notification token is answered with 204 although memory ran out and nothing was
stored. -/
theorem C58_success_took_effect_fcm_violated :
    ∃ i, handle demoEnv openIam { allocOk := false } 5
        (.setFcm "guest" (.value (.map [("Token", .text "t"), ("ProjectId", .text "p")]))) = .done i 204 ∧
      i.state = openIam.state := ⟨_, rfl, by decide +kernel⟩

/-- C58: the same for the friendly name of the device. -/
theorem C58_success_took_effect_name_violated :
    ∃ i, handle demoEnv openIam { allocOk := false } 5
        (.setDeviceInfo "friendly-name" (.value (.text "My device"))) = .done i 204 ∧
      i.state = openIam.state := ⟨_, rfl, by decide +kernel⟩

/-- C58, when memory suffices and tokens can be registered: after a success response the change the
request asked for is visible in the state. -/
theorem C58_success_took_effect_partial (E : Env) (iam iam' : Iam) (d : Dev) (ref : Nat) (r : Req) (c : Nat)
    (hw : WellFormed iam) (hmem : d.allocOk = true) (htok : d.addSctOk = true)
    (h : handle E iam d ref r = .done iam' c) (hc : c < 400) : TookEffect iam iam' d r := by
  have ha := wellFormed_addrOk hw
  have no : ∀ {x : Iam} {k : Nat} {G : Prop}, 400 ≤ k → HRes.done x k = .done iam' c → G := by
    intro x k G hk h
    obtain ⟨_, rfl⟩ := done_inj h; omega
  have nopay : ∀ {G : Prop}, iam' = iam ∧ c = 400 → G := by intro G h; omega
  have noacc : ∀ {G : Prop}, iam' = iam ∧ c = 403 → G := by intro G h; omega
  cases r with
  | createUser p =>
    simp only [handle, hCreateUser] at h
    rcases withAccess_done h with h | ⟨_, h⟩
    · exact noacc h
    split at h
    · exact no (by omega) h
    rcases withPayload_done h with h | ⟨v, hp, h⟩
    · exact nopay h
    split at h
    · exact no (by omega) h
    · cases h
    rename_i username hdec
    split at h
    · exact no (by omega) h
    split at h
    · exact no (by omega) h
    split at h
    · exact no (by omega) h
    rename_i hfree
    split at h
    · exact no (by omega) h
    rename_i sct hsct
    split at h
    · exact no (by omega) h
    simp only [allocUser, addUser, htok, Bool.not_true, Bool.and_false, Bool.false_eq_true, if_false] at h
    split at h
    · obtain ⟨rfl, _⟩ := done_inj h
      refine .createUser p username sct iam.nextAddr (by rw [hp]; exact decodeKv_text hdec) hsct ⟨?_, rfl⟩
      rw [Option.not_isSome_iff_eq_none] at hfree
      exact (findUser_none _ _).mp hfree
    · exact no (by omega) h
  | deleteUser u =>
    simp only [handle, hDeleteUser] at h
    rcases withAccess_done h with h | ⟨_, h⟩
    · exact noacc h
    unfold deleteUser at h
    split at h
    · rename_i heq
      split at heq
      · exact no (by omega) h
      · injection heq with _ heq; cases heq
    · rename_i heq
      split at heq
      · injection heq with _ heq; cases heq
      · rename_i w hu
        injection heq with heq _
        obtain ⟨rfl, _⟩ := done_inj h
        subst heq
        exact .deleteUser u (removed_erase ha hu)
    · exact no (by omega) h
  | setRole u p =>
    simp only [handle, hSetRole] at h
    rcases withPayload_done h with h | ⟨v, hp, h⟩
    · exact nopay h
    split at h
    · rename_i role hr
      rcases withAccess_done h with h | ⟨_, h⟩
      · exact noacc h
      split at h
      · rename_i x heq
        obtain ⟨rfl, _⟩ := done_inj h
        unfold setUserRole at heq
        split at heq
        · injection heq with _ heq; cases heq
        · rename_i w hu
          split at heq
          · injection heq with _ heq; cases heq
          · rename_i x hx
            injection heq with heq _
            subst heq
            obtain ⟨t, ht, hs⟩ := decodeString_text hr
            obtain ⟨_, hx1, hx2⟩ := (findRole_some _ _ _).mp hx
            injection hx1 with hx1; subst hx1
            exact .setRole u p role ⟨t, by rw [hp, ht], hs⟩ ⟨x, hx2.mem, hx2.prop⟩ (changes_upd ha hu _)
      · exact no (by omega) h
    · exact no (by omega) h
  | setUsername u p =>
    simp only [handle, hSetUsername] at h
    rcases withPayload_done h with h | ⟨v, hp, h⟩
    · exact nopay h
    split at h
    · rename_i new hr
      split at h
      · exact no (by omega) h
      split at h
      · exact no (by omega) h
      rcases withAccess_done h with h | ⟨_, h⟩
      · exact noacc h
      split at h
      · exact no (by omega) h
      rename_i hfree
      split at h
      · exact no (by omega) h
      rename_i w hu
      split at h
      · exact no (by omega) h
      obtain ⟨rfl, _⟩ := done_inj h
      obtain ⟨t, ht, hs⟩ := decodeString_text hr
      rw [Option.not_isSome_iff_eq_none] at hfree
      exact .setUsername u p new ⟨t, by rw [hp, ht], hs⟩ ((findUser_none _ _).mp hfree) (changes_upd ha hu _)
    · exact no (by omega) h
  | setDisplayName u p =>
    obtain ⟨v, h1, h2⟩ := optional_effect (f := fun v u => { u with displayName := v }) ha h hc
    exact .setDisplayName u p v h1 h2
  | setPassword u p =>
    obtain ⟨v, h1, h2⟩ := optional_effect (f := fun v u => { u with password := v }) ha h hc
    exact .setPassword u p v h1 h2
  | setOauthSubject u p =>
    obtain ⟨v, h1, h2⟩ := optional_effect (f := fun v u => { u with oauthSubject := v }) ha h hc
    exact .setOauthSubject u p v h1 h2
  | setFingerprint u p =>
    simp only [handle, hSetFingerprint] at h
    rcases withPayload_done h with h | ⟨v, hp, h⟩
    · exact nopay h
    split at h
    · exact no (by omega) h
    rename_i fp hfp
    split at h
    · exact no (by omega) h
    rcases withAccess_done h with h | ⟨_, h⟩
    · exact noacc h
    split at h
    · exact no (by omega) h
    split at h
    · exact no (by omega) h
    rename_i w hu
    split at h
    · exact no (by omega) h
    split at h
    · exact no (by omega) h
    rename_i u' hu'
    obtain ⟨rfl, _⟩ := done_inj h
    cases fp with
    | none =>
      have hv := decodeString_null hfp
      subst hp hv
      cases hx : w.fingerprints with
      | nil => simp [userSetFingerprint, hx] at hu'
      | cons x xs =>
        simp only [userSetFingerprint, hx, Option.some.injEq] at hu'
        subst hu'
        exact .clearFingerprint u w x xs hx (replaced_upd ha hu _)
    | some f =>
      obtain ⟨t, ht, hs⟩ := decodeString_text hfp
      have hT : Texts p f := ⟨t, by rw [hp, ht], hs⟩
      cases hx : w.fingerprints with
      | nil =>
        simp only [userSetFingerprint, hx, Option.some.injEq] at hu'
        subst hu'
        exact .firstFingerprint u p f w hT hx (replaced_upd ha hu _)
      | cons x xs =>
        simp only [userSetFingerprint, hx, Option.some.injEq] at hu'
        subst hu'
        exact .setFingerprint u p f w x.fingerprint x.name xs hT hx (replaced_upd ha hu _)
  | addFingerprint u f p =>
    simp only [handle, hAddFingerprint] at h
    rcases withPayload_done h with h | ⟨v, hp, h⟩
    · exact nopay h
    rcases withAccess_done h with h | ⟨_, h⟩
    · exact noacc h
    split at h
    · exact no (by omega) h
    split at h
    · exact no (by omega) h
    rename_i w hu
    split at h
    · exact no (by omega) h
    simp only [userAddFingerprint] at h
    obtain ⟨rfl, _⟩ := done_inj h
    refine .addFingerprint u f p _ (by rw [hp]; exact decodeKv_optional) (noOwner (by assumption))
      (changes_const ha hu rfl)
  | deleteFingerprint u f =>
    simp only [handle, hDeleteFingerprint] at h
    rcases withAccess_done h with h | ⟨_, h⟩
    · exact noacc h
    split at h
    · exact no (by omega) h
    rename_i w hu
    split at h
    · exact no (by omega) h
    rename_i u' hu'
    obtain ⟨rfl, _⟩ := done_inj h
    obtain ⟨pre, x, post, h1, h2, h3, rfl⟩ := remove_split hu'
    exact .deleteFingerprint u f w pre x post h1 h2 h3 (replaced_upd ha hu _)
  | setSct u p =>
    simp only [handle, hSetSct] at h
    rcases withPayload_done h with h | ⟨v, hp, h⟩
    · exact nopay h
    split at h
    · rename_i sct hr
      split at h
      · exact no (by omega) h
      rcases withAccess_done h with h | ⟨_, h⟩
      · exact noacc h
      split at h
      · exact no (by omega) h
      rename_i w hu
      split at h
      · exact no (by omega) h
      obtain ⟨rfl, _⟩ := done_inj h
      obtain ⟨t, ht, hs⟩ := decodeString_text hr
      exact .setSct u p sct ⟨t, by rw [hp, ht], hs⟩ (changes_upd ha hu _)
    · exact no (by omega) h
  | setFcm u p =>
    simp only [handle, hSetFcm] at h
    rcases withPayload_done h with h | ⟨v, hp, h⟩
    · exact nopay h
    rcases withAccess_done h with h | ⟨_, h⟩
    · exact noacc h
    split at h
    · exact no (by omega) h
    rename_i w hu
    split at h
    · rename_i t i ht hi
      rw [if_pos hmem] at h
      split at h
      · obtain ⟨rfl, _⟩ := done_inj h
        exact .setFcm u p t i (by rw [hp]; exact decodeKv_text ht) (by rw [hp]; exact decodeKv_text hi)
          (changes_upd ha hu _)
      · exact no (by omega) h
    · exact no (by omega) h
  | setCategories u p =>
    simp only [handle, hSetCategories] at h
    rcases withPayload_done h with h | ⟨v, hp, h⟩
    · exact nopay h
    split at h
    · cases h
    · exact no (by omega) h
    rename_i cs hcs
    rcases withAccess_done h with h | ⟨_, h⟩
    · exact noacc h
    split at h
    · exact no (by omega) h
    · rename_i x heq
      obtain ⟨rfl, _⟩ := done_inj h
      unfold setUserCategories at heq
      split at heq
      · injection heq with _ heq; cases heq
      · rename_i w hu
        split at heq
        · rename_i hall
          injection heq with heq _
          subst heq
          unfold decodeStringSet at hcs
          split at hcs
          · rename_i vs
            obtain ⟨ts, h1, h2⟩ := decodeItems_text hcs
            subst hp h1 h2
            refine .setCategories u _ ts (fun c => categorySet_iff _ _) (categorySet_nodup _) ?_
              (changes_upd ha hu _)
            intro c hc
            have := List.all_eq_true.mp hall c ((categorySet_iff _ _).mp hc)
            exact List.contains_iff_mem.mp this
          · cases hcs
        · injection heq with _ heq; cases heq
    · exact no (by omega) h
    · exact no (by omega) h
  | setSettings k p =>
    simp only [handle, hSetSettings] at h
    rcases withAccess_done h with h | ⟨_, h⟩
    · exact noacc h
    rcases withPayload_done h with h | ⟨v, hp, h⟩
    · exact nopay h
    have db : ∀ {b}, decodeBool v = some b → v = .bool b := by
      intro b hb
      unfold decodeBool at hb
      split at hb
      · injection hb with hb; rw [hb]
      · cases hb
    split at h
    · rename_i hk
      split at h
      · exact no (by omega) h
      · rename_i b hb
        have := db hb
        subst hk hp this
        obtain ⟨rfl, _⟩ := done_inj h
        exact .passwordOpen b rfl
    split at h
    · rename_i hk
      split at h
      · exact no (by omega) h
      · rename_i b hb
        have := db hb
        subst hk hp this
        obtain ⟨rfl, _⟩ := done_inj h
        exact .passwordInvite b rfl
    split at h
    · rename_i hk
      split at h
      · exact no (by omega) h
      · rename_i b hb
        have := db hb
        subst hk hp this
        obtain ⟨rfl, _⟩ := done_inj h
        exact .localOpen b rfl
    · exact no (by omega) h
  | setDeviceInfo k p =>
    simp only [handle, hSetDeviceInfo] at h
    rcases withAccess_done h with h | ⟨_, h⟩
    · exact noacc h
    rcases withPayload_done h with h | ⟨v, hp, h⟩
    · exact nopay h
    split at h
    · rename_i hk
      split at h
      · rename_i fn hfn
        split at h
        · exact no (by omega) h
        obtain ⟨rfl, _⟩ := done_inj h
        obtain ⟨t, ht, hs⟩ := decodeString_text hfn
        subst hk
        exact .friendlyName p fn ⟨t, by rw [hp, ht], hs⟩ rfl
      · exact no (by omega) h
    · exact no (by omega) h
  | pairLocalInitial p =>
    simp only [handle, hPairLocalInitial] at h
    split at h
    · exact no (by omega) h
    rcases withAccess_done h with h | ⟨_, h⟩
    · exact noacc h
    split at h
    · exact no (by omega) h
    split at h
    · exact no (by omega) h
    rename_i w hu
    split at h
    · exact no (by omega) h
    obtain ⟨n, hn, _⟩ := (findUser_some _ _ _).mp hu
    rw [hn] at hu
    have pu : ∀ {fpName}, OptTextAt p "FingerprintName" fpName → pairUser iam d w fpName = .done iam' c →
        TookEffect iam iam' d (.pairLocalInitial p) := by
      intro fpName hname h
      unfold pairUser at h
      split at h
      · exact no (by omega) h
      rename_i hkey
      have hkey : d.ci2.fpOk = true := by
        cases hx : d.ci2.fpOk
        · rw [hx] at hkey; exact absurd rfl hkey
        · rfl
      split at h
      · exact no (by omega) h
      rename_i u' hu'
      obtain ⟨rfl, _⟩ := done_inj h
      unfold userAddFingerprint at hu'
      split at hu'
      · cases hu'
      · rename_i f hf
        injection hu' with hu'; subst hu'
        exact .pairLocalInitial p n f fpName hn ⟨hkey, hf⟩ hname (changes_const ha hu rfl)
    split at h
    · exact pu (noText (by simp)) h
    · exact no (by omega) h
    · exact no (by omega) h
    · split at h
      · exact no (by omega) h
      · rename_i fpName hname
        have := decodeKv_optional (v := ‹CV›) (k := "FingerprintName")
        rw [hname] at this
        exact pu this h
  | pairLocalOpen p =>
    simp only [handle, hPairLocalOpen] at h
    split at h
    · exact no (by omega) h
    rcases withAccess_done h with h | ⟨_, h⟩
    · exact noacc h
    split at h
    · exact no (by omega) h
    split at h
    · exact no (by omega) h
    rename_i hkey
    have hkey : d.ci2.fpOk = true := by simpa using hkey
    rcases withPayload_done h with h | ⟨v, hp, h⟩
    · exact nopay h
    split at h
    · rename_i n hn
      obtain ⟨fp, h1, h2⟩ := pairResponse_effect ha (p := p) (by rw [hp]; exact decodeKv_optional) h hc
      exact .pairLocalOpen p n fp (by rw [hp]; exact decodeKv_text hn) ⟨hkey, h1⟩ h2
    · exact no (by omega) h
  | pairPasswordInvite p =>
    simp only [handle, hPairPasswordInvite] at h
    split at h
    · exact no (by omega) h
    rcases withAccess_done h with h | ⟨_, h⟩
    · exact noacc h
    split at h
    · exact no (by omega) h
    split at h
    · exact no (by omega) h
    rename_i n hn
    split at h
    · exact no (by omega) h
    rename_i w hu
    split at h
    · exact no (by omega) h
    rename_i hkey
    have hfk : d.ci2.fpOk = true := by simpa using hkey
    split at h
    · rename_i b hb
      split at h
      · rename_i hab
        obtain ⟨rfl, _⟩ := done_inj h
        obtain ⟨g, hg, hfb⟩ := (findUserByFp_some _ _ _).mp hb
        have := ha.inj b hfb.mem w (findUser_mem hu) hab
        subst this
        exact .alreadyPaired p n g hn ⟨hfk, hg⟩ ⟨b, findUser_first hu, hfb.prop⟩ rfl
      · exact no (by omega) h
    split at h
    · exact no (by omega) h
    split at h
    · exact no (by omega) h
    rename_i u' hu'
    obtain ⟨rfl, _⟩ := done_inj h
    unfold userAddFingerprint at hu'
    split at hu'
    · cases hu'
    · rename_i f hf
      injection hu' with hu'; subst hu'
      refine .pairPasswordInvite p n f _ hn ⟨hfk, hf⟩ ?_ (noOwner ?_) (changes_const ha hu rfl)
      · split
        · exact decodeKv_optional
        · rename_i hnv; exact noText hnv
      · have hkey : findUserByFp iam.state d.ci2.fingerprint = none := by assumption
        rw [← hf, hkey]; simp
  | pairPasswordOpen p =>
    simp only [handle, hPairPasswordOpen] at h
    split at h
    · exact no (by omega) h
    split at h
    · cases h
    · exact no (by omega) h
    split at h
    · exact no (by omega) h
    split at h
    · exact no (by omega) h
    rename_i hkey
    have hkey : d.ci2.fpOk = true := by simpa using hkey
    rcases withPayload_done h with h | ⟨v, hp, h⟩
    · exact nopay h
    split at h
    · exact no (by omega) h
    split at h
    · rename_i n hn
      obtain ⟨fp, h1, h2⟩ := pairResponse_effect ha (p := p) (by rw [hp]; exact decodeKv_optional) h hc
      exact .pairPasswordOpen p n fp (by rw [hp]; exact decodeKv_text hn) ⟨hkey, h1⟩ h2
    · exact no (by omega) h

example : ∃ i, handle demoEnv openIam {} 5 (.setFcm "guest"
    (.value (.map [("Token", .text "t"), ("ProjectId", .text "p")]))) = .done i 204 ∧ WellFormed openIam :=
  ⟨_, rfl, openIam_wellFormed⟩

/-! ## C59 -/

/-- C59: the property fails for every user and every key of full length: passing NULL for the name of a
fingerprint, which the header allows, is undefined (`strlen(NULL)`). -/
theorem C59_null_name_violated (iam : Iam) (d : Dev) (username fp : String) (hfp : strlen fp = 64) :
    api iam d (.addUserFingerprint username fp none) = .ub := by
  simp only [api, addUserFingerprint, hfp, ne_eq, not_true_eq_false, if_false]

/-- C59, with a name: the fingerprint is stored. -/
theorem C59_name_given_partial (iam : Iam) (d : Dev) (username fp name : String) (u : User)
    (hw : WellFormed iam) (hfp : strlen fp = 64) (hn : strlen name ≤ iam.limits.displayNameMax)
    (hu : FirstWith (fun u => u.username = username) iam.state.users u) :
    ∃ iam', api iam d (.addUserFingerprint username fp (some name)) = .ok (iam', .ok) ∧
      Replaced iam.state iam'.state username u
        { u with fingerprints := u.fingerprints ++ [⟨fp, some name⟩] } := by
  have hf : findUser iam.state (some username) = some u := (findUser_some _ _ _).mpr ⟨username, rfl, hu⟩
  refine ⟨_, ?_, replaced_upd (wellFormed_addrOk hw) hf
    (fun _ => { u with fingerprints := u.fingerprints ++ [⟨fp, some name⟩] })⟩
  simp only [api, addUserFingerprint, hfp, hf, userAddFingerprint, ne_eq, not_true_eq_false, if_false]
  rw [if_neg (by omega)]

example : strlen k64 = 64 ∧ FirstWith (fun u => u.username = "admin") openIam.state.users
    ⟨0, "admin", none, some "User", none, none, none, none, [], none, [⟨k64, none⟩]⟩ :=
  ⟨by decide +kernel, [], _, rfl, rfl, by simp⟩

/-! ## C60 -/

/-- C60: the property fails. A client allowed to create users sends a null username. -/
theorem C60_null_username_violated :
    handle demoEnv { openIam with limits := {} } {} 5 (.createUser (.value (.map [("Username", .null)]))) = .ub := by
  rfl

/-- C60: it also fails without any permission. A list of notification categories with a null item is
decoded before access is checked, and the null is inserted in a string set. -/
theorem C60_null_category_violated :
    handle demoEnv { openIam with conf := ⟨[], [], none⟩ } {} 5
      (.setCategories "guest" (.value (.array [.null]))) = .ub := by rfl

/-- A request whose payload has no null where a text is expected. -/
def NoNull : Req → Prop
  | .createUser (.value (.map kvs)) => kvs.lookup "Username" ≠ some .null
  | .setCategories _ (.value (.array vs)) => ∀ v ∈ vs, v ≠ .null
  | _ => True

theorem checkAccess_defined {E : Env} {iam : Iam} (hp : PointersLive iam) (ci : ConnInfo) (ref : Nat)
    (action : String) (attrs : Attrs) : checkAccess E iam ci ref action attrs ≠ .ub := by
  have hact : actingUser iam ci ref ≠ .ub := by
    intro hub
    obtain ⟨_, _, c, hc, hno⟩ := (C08_identity_undefined _ _ _).mp hub
    obtain ⟨u, hu, he⟩ := hp c hc.mem
    exact hno u hu he
  unfold checkAccess
  split
  · simp
  · split
    · rename_i hub; exact absurd hub hact
    · simp only; split <;> simp

theorem withAccess_defined {E : Env} {iam : Iam} (hp : PointersLive iam) {d : Dev} {ref : Nat}
    {action : String} {attrs : Attrs} {k : HRes} (hk : k ≠ .ub) : withAccess E iam d ref action attrs k ≠ .ub := by
  unfold withAccess
  split
  · rename_i h; exact absurd h (checkAccess_defined hp _ _ _ _)
  · simp
  · exact hk

theorem withPayload_defined {iam : Iam} {p : Payload} {k : CV → HRes} (hk : ∀ v, p = .value v → k v ≠ .ub) :
    withPayload iam p k ≠ .ub := by
  unfold withPayload
  split
  · exact hk _ rfl
  · simp

theorem decodeItems_defined {vs : List CV} (h : ∀ v ∈ vs, v ≠ .null) : decodeItems vs ≠ .ub := by
  induction vs with
  | nil => simp [decodeItems]
  | cons v vs ih =>
    have ih' := ih (fun v hv => h v (List.mem_cons_of_mem _ hv))
    simp only [decodeItems]
    split
    · simp
    · rename_i hn; exact absurd (decodeString_null hn) (h v (List.mem_cons_self ..))
    · split
      · rename_i hub; exact absurd hub ih'
      · simp
      · simp

/-- C60, for payloads without such nulls and when no authorised connection refers to a deleted user:
every request is answered. -/
theorem C60_requests_answered_partial (E : Env) (iam : Iam) (d : Dev) (ref : Nat) (r : Req)
    (hp : PointersLive iam) (hr : NoNull r) : ∃ iam' c, handle E iam d ref r = .done iam' c := by
  have key : handle E iam d ref r ≠ .ub := by
    cases r with
    | createUser p =>
      refine withAccess_defined hp ?_
      split
      · simp
      refine withPayload_defined fun v hv => ?_
      split
      · simp
      · rename_i hn
        unfold decodeKv at hn
        split at hn
        · split at hn
          · rename_i hx
            rw [decodeString_null hn] at hx
            subst hv
            exact absurd hx hr
          · cases hn
        · cases hn
      · simp only [allocUser]
        repeat' split
        all_goals simp
    | deleteUser u =>
      refine withAccess_defined hp ?_
      split <;> simp
    | setRole u p =>
      refine withPayload_defined fun v hv => ?_
      split
      · refine withAccess_defined hp ?_
        split <;> simp
      · simp
    | setUsername u p =>
      refine withPayload_defined fun v hv => ?_
      split
      · split
        · simp
        split
        · simp
        refine withAccess_defined hp ?_
        repeat' split
        all_goals simp
      · simp
    | setDisplayName u p =>
      refine withPayload_defined fun v hv => ?_
      split
      · simp
      split
      · simp
      refine withAccess_defined hp ?_
      repeat' split
      all_goals simp
    | setPassword u p =>
      refine withPayload_defined fun v hv => ?_
      split
      · simp
      split
      · simp
      refine withAccess_defined hp ?_
      repeat' split
      all_goals simp
    | setOauthSubject u p =>
      refine withPayload_defined fun v hv => ?_
      split
      · simp
      split
      · simp
      refine withAccess_defined hp ?_
      repeat' split
      all_goals simp
    | setFingerprint u p =>
      refine withPayload_defined fun v hv => ?_
      split
      · simp
      split
      · simp
      refine withAccess_defined hp ?_
      repeat' split
      all_goals simp
    | addFingerprint u f p =>
      refine withPayload_defined fun v hv => ?_
      refine withAccess_defined hp ?_
      repeat' split
      all_goals simp
    | deleteFingerprint u f =>
      refine withAccess_defined hp ?_
      repeat' split
      all_goals simp
    | setSct u p =>
      refine withPayload_defined fun v hv => ?_
      split
      · split
        · simp
        refine withAccess_defined hp ?_
        repeat' split
        all_goals simp
      · simp
    | setFcm u p =>
      refine withPayload_defined fun v hv => ?_
      refine withAccess_defined hp ?_
      repeat' split
      all_goals simp
    | setCategories u p =>
      refine withPayload_defined fun v hv => ?_
      split
      · rename_i hub
        unfold decodeStringSet at hub
        split at hub
        · subst hv; exact absurd hub (decodeItems_defined hr)
        · cases hub
      · simp
      refine withAccess_defined hp ?_
      split <;> simp
    | setSettings k p =>
      refine withAccess_defined hp ?_
      refine withPayload_defined fun v hv => ?_
      repeat' split
      all_goals simp
    | setDeviceInfo k p =>
      refine withAccess_defined hp ?_
      refine withPayload_defined fun v hv => ?_
      repeat' split
      all_goals simp
    | pairLocalInitial p =>
      simp only [handle, hPairLocalInitial]
      split
      · simp
      refine withAccess_defined hp ?_
      have pu : ∀ u n, pairUser iam d u n ≠ .ub := by
        intro u n; unfold pairUser
        repeat' split
        all_goals simp
      repeat' split
      all_goals first | simp; done | exact pu _ _
    | pairLocalOpen p =>
      simp only [handle, hPairLocalOpen]
      split
      · simp
      refine withAccess_defined hp ?_
      split
      · simp
      split
      · simp
      refine withPayload_defined fun v hv => ?_
      split
      · unfold pairResponse; split <;> simp
      · simp
    | pairPasswordInvite p =>
      simp only [handle, hPairPasswordInvite]
      split
      · simp
      refine withAccess_defined hp ?_
      repeat' split
      all_goals simp
    | pairPasswordOpen p =>
      simp only [handle, hPairPasswordOpen]
      split
      · simp
      split
      · rename_i hub
        unfold passwordOpenPossible at hub
        split at hub
        · rename_i h; exact absurd h (checkAccess_defined hp _ _ _ _)
        · cases hub
      · simp
      split
      · simp
      split
      · simp
      refine withPayload_defined fun v hv => ?_
      split
      · simp
      split
      · unfold pairResponse; split <;> simp
      · simp
  cases hres : handle E iam d ref r with
  | done i c => exact ⟨i, c, rfl⟩
  | ub => exact absurd hres key

example : PointersLive { openIam with authorized := [(7, 1)] } ∧
    NoNull (.createUser (.value (.map [("Username", .text "x")]))) := by
  constructor
  · intro c hc
    simp at hc; subst hc
    exact ⟨⟨1, "guest", none, some "User", some "secret", none, none, none, [], none, []⟩, by decide +kernel, rfl⟩
  · simp [NoNull]

end Verif.Iam
