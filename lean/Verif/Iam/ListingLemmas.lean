import Verif.Iam.Listing
import Verif.Iam.ListingSpec
import Verif.Cbor.CborProps
import Verif.Iam.JsonText

/-!
# IAM resources which are read — lemmas
-/

namespace Verif.Iam.Listing
open Verif.Cbor Verif.Iam

/-- An encoder function succeeds and encodes some bytes, whatever the size of the buffer. -/
def Puts (f : Enc → Option Enc) (bs : Bytes) : Prop :=
  ∀ cap pre e, Buf.Is cap pre e.buf → ∃ e', f e = some e' ∧ Buf.Is cap (pre ++ bs) e'.buf ∧ e'.unknown = e.unknown

theorem notOom_fit (cap bs) : notOom (fitErr cap bs) = false := by
  rcases fitErr_cases cap bs with h | h <;> rw [h] <;> rfl

theorem Puts.nil : Puts some [] := fun _ _ e h => ⟨e, rfl, by simpa using h, rfl⟩

theorem Puts.bind {f g : Enc → Option Enc} {a b : Bytes} (hf : Puts f a) (hg : Puts g b) :
    Puts (fun e => (f e).bind g) (a ++ b) := by
  intro cap pre e h
  obtain ⟨e1, h1, h2, h3⟩ := hf cap pre e h
  obtain ⟨e2, g1, g2, g3⟩ := hg cap _ e1 h2
  exact ⟨e2, by simp [h1, g1], by simpa using g2, by rw [g3, h3]⟩

theorem puts_text (s : String) : Puts (textz s) (Spec.text s).enc := by
  intro cap pre e h
  obtain ⟨h1, h2, _, h4⟩ := string_wrote (s := utf8 s) h 3
  refine ⟨(e.string (3 * 32) (utf8 s)).1, ?_, by simpa [Spec.text, Item.enc] using h1, h4⟩
  unfold textz checked Enc.text
  rw [h2, notOom_fit]; rfl

theorem puts_bool (b : Bool) : Puts (boolz b) (Item.bool b).enc := by
  intro cap pre e h
  cases b
  · obtain ⟨h1, h2, _, h4⟩ := number_wrote (n := 20) h 7
    refine ⟨(e.number 20 (7 * 32)).1, ?_, h1, h4⟩
    show checked (e.number 20 (7 * 32)) = _
    unfold checked; rw [h2, notOom_fit]; rfl
  · obtain ⟨h1, h2, _, h4⟩ := number_wrote (n := 21) h 7
    refine ⟨(e.number 21 (7 * 32)).1, ?_, h1, h4⟩
    show checked (e.number 21 (7 * 32)) = _
    unfold checked; rw [h2, notOom_fit]; rfl

theorem puts_container {mt : Nat} {body : Enc → Option Enc} {bs : Bytes} (hb : Puts body bs) :
    Puts (fun e => if notOom (e.create none mt).2.2 then none
      else (body (e.create none mt).2.1).bind fun c => checked ((e.create none mt).1.close c))
      (headIndef mt :: (bs ++ [brk])) := by
  intro cap pre e h
  obtain ⟨h1, h2⟩ := h.append (d := [headIndef mt]) (.inl (by simp))
  have hc : e.create none mt = (e.decrement, { buf := (e.buf.append [headIndef mt]).1, remaining := 0, unknown := true },
      (e.buf.append [headIndef mt]).2) := rfl
  obtain ⟨c, b1, b2, b3⟩ := hb cap _ { buf := (e.buf.append [headIndef mt]).1, remaining := 0, unknown := true } h1
  obtain ⟨c1, c2, c3, c4⟩ := close_indef (e := e.decrement) b2 b3
  refine ⟨(e.decrement.close c).1, ?_, by simpa using c1, c4⟩
  simp only [hc, h2, notOom_fit, Bool.false_eq_true, if_false, b1, Option.bind_some, checked, c2]

theorem puts_map {body : Enc → Option Enc} {p : List (Item × Item)} (hb : Puts body (Item.encm p)) :
    Puts (inMap body) (Item.map true p).enc := by
  simp only [Item.enc]
  exact puts_container (mt := 5) hb

theorem puts_array {body : Enc → Option Enc} {l : List Item} (hb : Puts body (Item.encs l)) :
    Puts (inArray body) (Item.arr true l).enc := by
  simp only [Item.enc]
  exact puts_container (mt := 4) hb

theorem puts_each {α : Type} {f : α → Enc → Option Enc} {g : α → Item} (h : ∀ a, Puts (f a) (g a).enc) (l : List α) :
    Puts (each f l) (Item.encs (l.map g)) := by
  induction l with
  | nil => simp only [List.map, Item.encs]; exact Puts.nil
  | cons a l ih => simp only [List.map, Item.encs]; exact (h a).bind ih

theorem encm_append (p q : List (Item × Item)) : Item.encm (p ++ q) = Item.encm p ++ Item.encm q := by
  induction p with
  | nil => simp [Item.encm]
  | cons x p ih => obtain ⟨k, v⟩ := x; simp [Item.encm, ih]

theorem puts_field {f : Enc → Option Enc} {v : Item} (k : String) (hf : Puts f v.enc) :
    Puts (fun e => (textz k e).bind f) (Item.encm (Spec.field k v)) := by
  simpa [Spec.field, Item.encm] using (puts_text k).bind hf

theorem puts_entry (k v : String) : Puts (entry k v) (Item.encm (Spec.field k (Spec.text v))) :=
  puts_field k (puts_text v)

theorem puts_opt (k : String) (v : Option String) : Puts (optEntry k v) (Item.encm (Spec.optField k v)) := by
  cases v with
  | none => simp only [Spec.optField, Item.encm]; exact Puts.nil
  | some v => exact puts_entry k v

theorem puts_fp (fp : Fp) : Puts (encFp fp) (Spec.fpItem fp).enc := by
  refine puts_map ?_
  rw [encm_append]
  exact (puts_entry _ _).bind (puts_opt _ _)

theorem puts_fcm (u : User) : Puts (encFcm u)
    (Item.map true (Spec.optField "Token" u.fcmToken ++ Spec.optField "ProjectId" u.fcmProjectId)).enc := by
  refine puts_map ?_
  rw [encm_append]
  exact (puts_opt _ _).bind (puts_opt _ _)

theorem puts_fcmField (u : User) :
    Puts (fcmEntry u) (Item.encm (Spec.fcmField u)) := by
  by_cases h : (u.fcmToken.isSome || u.fcmProjectId.isSome) = true
  · have h1 : fcmEntry u = fun m => (textz "Fcm" m).bind (encFcm u) := by funext m; unfold fcmEntry; rw [if_pos h]
    have h2 : Spec.fcmField u = Spec.field "Fcm"
        (.map true (Spec.optField "Token" u.fcmToken ++ Spec.optField "ProjectId" u.fcmProjectId)) := by
      unfold Spec.fcmField; rw [if_pos h]
    rw [h1, h2]
    exact puts_field "Fcm" (puts_fcm u)
  · have h1 : fcmEntry u = some := by funext m; unfold fcmEntry; rw [if_neg h]
    have h2 : Spec.fcmField u = [] := by unfold Spec.fcmField; rw [if_neg h]
    rw [h1, h2]
    simp only [Item.encm]
    exact Puts.nil

theorem puts_user (u : User) : Puts (encUser u) (Spec.userItem u).enc := by
  refine puts_map ?_
  simp only [encm_append, List.append_assoc]
  refine (puts_entry _ _).bind ((puts_opt _ _).bind ((puts_opt _ _).bind ?_))
  have h1 : Puts (fun m => (textz "Fingerprints" m).bind (inArray (each encFp u.fingerprints)))
      (Item.encm (Spec.field "Fingerprints" (.arr true (u.fingerprints.map Spec.fpItem)))) :=
    puts_field _ (puts_array (puts_each puts_fp _))
  have h2 : Puts (fun m => (textz "NotificationCategories" m).bind (inArray (each textz u.notificationCategories)))
      (Item.encm (Spec.field "NotificationCategories" (.arr true (u.notificationCategories.map Spec.text)))) :=
    puts_field _ (puts_array (puts_each puts_text _))
  have := h1.bind ((puts_opt "Fingerprint" (u.fingerprints.getLast?.map (·.fingerprint))).bind
    ((puts_opt "Sct" u.sct).bind ((puts_fcmField u).bind (h2.bind (puts_opt "OauthSubject" u.oauthSubject)))))
  simpa [Option.bind_assoc] using this

theorem puts_settings (st : IamState) : Puts (encSettings st) (Spec.settingsItem st).enc := by
  refine puts_map ?_
  simp only [encm_append, List.append_assoc]
  have := (puts_field "PasswordOpenPairing" (puts_bool st.passwordOpenPairing)).bind
    ((puts_field "PasswordInvitePairing" (puts_bool st.passwordInvitePairing)).bind
    ((puts_field "LocalOpenPairing" (puts_bool st.localOpenPairing)).bind
    ((puts_opt "PasswordOpenSct" st.passwordOpenSct).bind (puts_opt "PasswordOpenPassword" st.passwordOpenPassword))))
  simpa [Option.bind_assoc] using this

/-- Measuring and writing the same thing. -/
theorem twoPass_same {f : Enc → Option Enc} {bs : Bytes} (h : Puts f bs) (mem : Mem) (onNull : Reply) :
    twoPass mem onNull f f = if !mem.alloc bs.length then onNull else if mem.setOk then .content bs else .error 500 := by
  obtain ⟨e, h1, h2, _⟩ := h none [] (Enc.init none) rfl
  obtain ⟨w, w1, w2, _⟩ := h (some bs.length) [] (Enc.init (some bs.length)) (by simp [Buf.Is, Enc.init])
  simp only [Buf.Is, List.nil_append] at h2
  simp only [Buf.Is, List.nil_append, Nat.le_refl, if_true, Nat.sub_self] at w2
  unfold twoPass
  simp only [h1, extra, Enc.extra, h2, w1, respond, w2, payload, List.replicate_zero, List.append_nil]

/-- The descriptions in the answer of the pairing resource. -/
def aboutFields (a : About) (friendlyName : Option String) : List (String × Option String) :=
  [("NabtoVersion", a.nabtoVersion), ("AppVersion", a.appVersion), ("AppName", a.appName), ("ProductId", a.productId),
    ("DeviceId", a.deviceId), ("FriendlyName", friendlyName)]

theorem puts_pairing (modes : List String) (a : About) (friendlyName : Option String) :
    Puts (encPairing modes a friendlyName) (Spec.pairingItem modes (aboutFields a friendlyName)).enc := by
  refine puts_map ?_
  simp only [aboutFields, List.flatMap_cons, List.flatMap_nil, List.append_nil, encm_append]
  have := (puts_field "Modes" (puts_array (puts_each puts_text modes))).bind
    ((puts_opt "NabtoVersion" a.nabtoVersion).bind ((puts_opt "AppVersion" a.appVersion).bind
    ((puts_opt "AppName" a.appName).bind ((puts_opt "ProductId" a.productId).bind
    ((puts_opt "DeviceId" a.deviceId).bind (puts_opt "FriendlyName" friendlyName))))))
  simpa [Option.bind_assoc, Spec.names] using this

theorem categories_done (names : List String) (cap pre) (e : Enc) (h : Buf.Is cap pre e.buf) :
    Buf.Is cap (pre ++ (Spec.names names).enc) (encCategories names e).1.buf ∧
      (encCategories names e).2 = fitErr cap (pre ++ (Spec.names names).enc) := by
  obtain ⟨h1, h2⟩ := h.append (d := [headIndef 4]) (.inl (by simp))
  have hc : e.createArray none = (e.decrement, { buf := (e.buf.append [headIndef 4]).1, remaining := 0, unknown := true },
      (e.buf.append [headIndef 4]).2) := rfl
  obtain ⟨c, b1, b2, b3⟩ := puts_each puts_text names cap _
    { buf := (e.buf.append [headIndef 4]).1, remaining := 0, unknown := true } h1
  obtain ⟨c1, c2, c3, c4⟩ := close_indef (e := e.decrement) b2 b3
  have he : encCategories names e = e.decrement.close c := by
    unfold encCategories
    simp only [hc, h2, notOom_fit, Bool.false_eq_true, if_false, b1]
  rw [he]
  have hb : pre ++ (Spec.names names).enc = pre ++ [headIndef 4] ++ Item.encs (names.map Spec.text) ++ [brk] := by
    simp [Spec.names, Item.enc]
  rw [hb]
  exact ⟨c1, c2⟩

theorem names_fail (names : List String) : encNames names (Enc.init none) = none ∧
    encNames names (Enc.init (some 0)) = none := by
  constructor <;> rfl

/-! ## Reading a document -/

/-- The value of a key. -/
def get (k : String) : List (Item × Item) → Option Item
  | [] => none
  | (.text b, v) :: l => if b = utf8 k then some v else get k l
  | _ :: l => get k l

theorem text_inj {s t : String} : Spec.text s = Spec.text t ↔ s = t := by
  constructor
  · intro h; injection h with h; exact enc_inj h
  · rintro rfl; rfl

theorem get_append (k : String) (p q : List (Item × Item)) : get k (p ++ q) = (get k p).or (get k q) := by
  induction p with
  | nil => rfl
  | cons x p ih =>
    obtain ⟨a, v⟩ := x
    cases a with
    | text b =>
      simp only [List.cons_append, get]
      split
      · rfl
      · exact ih
    | _ => simpa [get] using ih

theorem get_field (k x : String) (v : Item) : get k (Spec.field x v) = if x = k then some v else none := by
  have h : utf8 x = utf8 k ↔ x = k := ⟨enc_inj, fun h => by rw [h]⟩
  simp [Spec.field, get, Spec.text, h]

theorem get_opt (k x : String) (v : Option String) : get k (Spec.optField x v) = if x = k then v.map Spec.text else none := by
  cases v with
  | none => simp [Spec.optField, get]
  | some v => simp [Spec.optField, get_field]

theorem get_fcm (k : String) (u : User) : get k (Spec.fcmField u) = if "Fcm" = k then
    (if u.fcmToken.isSome || u.fcmProjectId.isSome then
      some (.map true (Spec.optField "Token" u.fcmToken ++ Spec.optField "ProjectId" u.fcmProjectId)) else none) else none := by
  unfold Spec.fcmField
  split
  · rw [get_field]
  · simp [get]

theorem map_text_inj {a b : Option String} (h : a.map Spec.text = b.map Spec.text) : a = b := by
  cases a <;> cases b <;> simp [text_inj] at h ⊢
  exact h

theorem list_text_inj {a b : List String} (h : a.map Spec.text = b.map Spec.text) : a = b := by
  induction a generalizing b with
  | nil => cases b <;> simp at h ⊢
  | cons x a ih =>
    cases b with
    | nil => simp at h
    | cons y b => simp only [List.map_cons, List.cons.injEq, text_inj] at h ⊢; exact ⟨h.1, ih h.2⟩

theorem fp_inj {a b : Fp} (h : Spec.fpItem a = Spec.fpItem b) : a = b := by
  obtain ⟨f, n⟩ := a
  obtain ⟨g, m⟩ := b
  simp only [Spec.fpItem, Item.map.injEq, true_and] at h
  have h1 := congrArg (get "Fingerprint") h
  have h2 := congrArg (get "Name") h
  simp [get_append, get_field, get_opt] at h1 h2
  rw [text_inj] at h1
  rw [h1, map_text_inj h2]

theorem list_fp_inj {a b : List Fp} (h : a.map Spec.fpItem = b.map Spec.fpItem) : a = b := by
  induction a generalizing b with
  | nil => cases b <;> simp at h ⊢
  | cons x a ih =>
    cases b with
    | nil => simp at h
    | cons y b => simp only [List.map_cons, List.cons.injEq] at h ⊢; exact ⟨fp_inj h.1, ih h.2⟩

theorem user_inj {u v : User} (h : Spec.userItem u = Spec.userItem v) : Spec.publicOf u = Spec.publicOf v := by
  simp only [Spec.userItem, Item.map.injEq, true_and] at h
  have h1 := congrArg (get "Username") h
  have h2 := congrArg (get "DisplayName") h
  have h3 := congrArg (get "Role") h
  have h4 := congrArg (get "Fingerprints") h
  have h5 := congrArg (get "Sct") h
  have h6 := congrArg (get "Fcm") h
  have h7 := congrArg (get "NotificationCategories") h
  have h8 := congrArg (get "OauthSubject") h
  simp only [get_append, get_field, get_opt, get_fcm] at h1 h2 h3 h4 h5 h6 h7 h8
  simp at h1 h2 h3 h4 h5 h6 h7 h8
  have e6 : u.fcmToken = v.fcmToken ∧ u.fcmProjectId = v.fcmProjectId := by
    split at h6
    · rename_i hu
      split at h6
      · simp only [Option.some.injEq, Item.map.injEq, true_and] at h6
        have a1 := congrArg (get "Token") h6
        have a2 := congrArg (get "ProjectId") h6
        simp [get_append, get_opt] at a1 a2
        exact ⟨map_text_inj a1, map_text_inj a2⟩
      · cases h6
    · rename_i hu
      split at h6
      · cases h6
      · rename_i hv
        simp at hu hv
        simp [hu, hv]
  simp only [Spec.publicOf, Spec.Public.mk.injEq]
  exact ⟨text_inj.1 h1, map_text_inj h2, map_text_inj h3, map_text_inj h5, e6.1, e6.2, list_text_inj h7, map_text_inj h8,
    list_fp_inj h4⟩

/-! ## The passwords of the users -/

theorem find_map {p : User → Bool} {f : User → User} (h : ∀ u, p (f u) = p u) (l : List User) :
    (l.map f).find? p = (l.find? p).map f := by
  induction l with
  | nil => rfl
  | cons u l ih => simp only [List.map_cons, List.find?_cons, h]; split <;> simp [ih]

/-- Another password. -/
def repw (pw : User → Option String) (u : User) : User := { u with password := pw u }

theorem findUser_pw (pw : User → Option String) (iam : Iam) (n : Option String) :
    findUser (Spec.withPasswords pw iam).state n = (findUser iam.state n).map (repw pw) := by
  cases n with
  | none => rfl
  | some n => exact find_map (f := repw pw) (p := fun u => u.username == n) (fun _ => rfl) _

theorem findFp_pw (pw : User → Option String) (iam : Iam) (n : Option String) :
    findUserByFp (Spec.withPasswords pw iam).state n = (findUserByFp iam.state n).map (repw pw) := by
  cases n with
  | none => rfl
  | some n =>
    exact find_map (f := repw pw) (p := fun u => u.fingerprints.any (fun x => x.fingerprint == n)) (fun _ => rfl) _

/-- The result with another password. -/
def mapUser (pw : User → Option String) : Res (Option User) → Res (Option User)
  | .ok o => .ok (o.map (repw pw))
  | .ub => .ub

theorem actingUser_pw (pw : User → Option String) (iam : Iam) (ci : ConnInfo) (ref : Nat) :
    actingUser (Spec.withPasswords pw iam) ci ref = mapUser pw (actingUser iam ci ref) := by
  unfold actingUser
  rw [findFp_pw, findUser_pw]
  cases findUserByFp iam.state ci.fingerprint with
  | some u => rfl
  | none =>
    cases hp : ci.pwAuth with
    | true =>
      simp only [if_true]
      cases findUser iam.state ci.pwUser with
      | some u => rfl
      | none =>
        simp only [Option.map_none]
        have ha : (Spec.withPasswords pw iam).authorized = iam.authorized := rfl
        simp only [ha]
        cases iam.authorized.find? (fun c => c.1 == ref) with
        | none => rfl
        | some c =>
          have : deref (Spec.withPasswords pw iam).state c.2 = (deref iam.state c.2).map (repw pw) :=
            find_map (f := repw pw) (p := fun u => u.addr == c.2) (fun _ => rfl) _
          simp only [this]
          cases deref iam.state c.2 <;> rfl
    | false =>
      simp only [Bool.false_eq_true, if_false, Option.map_none]
      have ha : (Spec.withPasswords pw iam).authorized = iam.authorized := rfl
      simp only [ha]
      cases iam.authorized.find? (fun c => c.1 == ref) with
      | none => rfl
      | some c =>
        have : deref (Spec.withPasswords pw iam).state c.2 = (deref iam.state c.2).map (repw pw) :=
            find_map (f := repw pw) (p := fun u => u.addr == c.2) (fun _ => rfl) _
        simp only [this]
        cases deref iam.state c.2 <;> rfl

theorem checkAccess_pw (pw : User → Option String) (E : Env) (iam : Iam) (ci : ConnInfo) (ref : Nat) (action : String)
    (attrs : Attrs) : checkAccess E (Spec.withPasswords pw iam) ci ref action attrs = checkAccess E iam ci ref action attrs := by
  unfold checkAccess
  rw [actingUser_pw]
  cases actingUser iam ci ref with
  | ub => rfl
  | ok o => cases o <;> rfl

theorem guarded_pw (pw : User → Option String) (E : Env) (iam : Iam) (ci : ConnInfo) (ref : Nat) (action : String)
    (attrs : Attrs) (k : Reply) :
    guarded E (Spec.withPasswords pw iam) ci ref action attrs k = guarded E iam ci ref action attrs k := by
  unfold guarded; rw [checkAccess_pw]

theorem modes_pw (pw : User → Option String) (E : Env) (iam : Iam) (ci : ConnInfo) (ref : Nat) :
    pairingModes E (Spec.withPasswords pw iam) ci ref = pairingModes E iam ci ref := by
  unfold pairingModes passwordOpenPossible localOpenPossible passwordInvitePossible localInitialPossible
  have h : initialUnpaired (Spec.withPasswords pw iam).state = initialUnpaired iam.state := by
    unfold initialUnpaired
    rw [findUser_pw]
    have : (Spec.withPasswords pw iam).state.initialPairingUsername = iam.state.initialPairingUsername := rfl
    rw [this]
    cases findUser iam.state iam.state.initialPairingUsername <;> rfl
  simp only [checkAccess_pw, h]
  rfl

end Verif.Iam.Listing
