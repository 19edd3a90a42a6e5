import Verif.Core.CborUseAt

/-!
# Decoding of CBOR payloads: properties

C71: no payload from a client or from the basestation causes undefined behaviour, and payloads mean what they say.
-/

namespace Verif.Core.CborUse.Props
open Verif.Cbor

/-! ## Decoders without undefined behaviour -/

/-- C71. Rendezvous requests, any bytes. -/
theorem C71_rendezvous_safe (payload : Bytes) : rendezvousPayload payload ≠ .ub := (rendezvousPayload_sat payload).ne_ub

/-- C71. Attach responses, any bytes, any allocation failures. -/
theorem C71_attach_safe (mem : Mem) (payload : Bytes) : attachResponse mem payload ≠ .ub :=
  (attachResponse_sat mem payload).ne_ub

/-- C71. Requests of the IAM module with a string, a boolean, a map or an FCM token, any bytes. -/
theorem C71_iam_safe (mem : Mem) (payload : Bytes) (k : Bytes) :
    (do let v ← parserInit payload; decodeString mem v) ≠ .ub ∧
    (do let v ← parserInit payload; decodeBool v) ≠ .ub ∧
    (do let v ← parserInit payload; decodeKvString mem v k) ≠ .ub ∧
    (do let v ← parserInit payload; decodeFcm mem v) ≠ .ub := by
  refine ⟨R.Sat.ne_ub (P := fun _ => True) ?_, R.Sat.ne_ub (P := fun _ => True) ?_, R.Sat.ne_ub (P := fun _ => True) ?_,
    R.Sat.ne_ub (P := fun _ => True) ?_⟩
  all_goals refine (parserInit_sat payload).bind fun v ⟨hg, _⟩ => ?_
  · exact (decodeString_sat mem hg).imp fun _ _ => trivial
  · unfold decodeBool getBool
    split
    · rename_i h; rw [if_neg (by simp [h])]; trivial
    · trivial
  · unfold decodeKvString
    split
    · trivial
    · rename_i h
      exact (find_sat hg (by simpa using h) k).bind fun w hw => (decodeString_sat mem hw).imp fun _ _ => trivial
  · unfold decodeFcm
    split
    · trivial
    · rename_i h
      have h : v.type = .map := by simpa using h
      refine (findIgnore_sat' hg h _).bind fun a ha => (findIgnore_sat' hg h _).bind fun b hb => ?_
      exact (decodeString_sat mem ha).bind fun _ _ => (decodeString_sat mem hb).bind fun _ _ => trivial

/-! ## Notification categories -/

/-- The elements of an array at which an iterator can be. -/
def Element (payload : Bytes) (v : Value) : Prop :=
  ∃ root w, parserInit payload = .ok root ∧ enter root = .ok w ∧ Steps w v

/-- C71, violated. A set of strings with the element `null`. -/
theorem C71_string_set_violated :
    (do let v ← parserInit [0x81, 0xf6]; decodeStringSet allMem v) = .ub := by decide +kernel

/-- C71 for a set of strings without `null` elements, any bytes. -/
theorem C71_string_set_partial (mem : Mem) (payload : Bytes) (h : ∀ v, Element payload v → v.type ≠ .null) :
    (do let v ← parserInit payload; decodeStringSet mem v) ≠ .ub := by
  refine R.Sat.ne_ub (P := fun _ => True) ?_
  have hp := parserInit_sat payload
  cases hr : parserInit payload with
  | err e => trivial
  | ub => rw [hr] at hp; exact hp.elim
  | ok root =>
    rw [hr] at hp
    simp only [R.bind_eq, R.bind]
    unfold decodeStringSet
    split
    · trivial
    · rename_i ht
      have ht : root.type = .arr := by simpa using ht
      have he := enter_sat hp.1 (by rw [ht]; rfl)
      cases hw : enter root with
      | err e => trivial
      | ub => rw [hw] at he; exact he.elim
      | ok w =>
        rw [hw] at he
        exact decodeSetLoop_sat mem _ [] he.good (Nat.lt_succ_self _) fun u hu => h u ⟨root, w, hr, hw, hu⟩

example : ∀ v, Element [0x80] v → v.type ≠ .null := by
  rintro v ⟨root, w, h1, h2, h3⟩
  have e1 : root = { Value.none with rest := [0x80], remaining := 1, type := .arr } := by
    have : parserInit [0x80] = .ok { Value.none with rest := [0x80], remaining := 1, type := .arr } := by decide
    rw [this] at h1; cases h1; rfl
  subst e1
  have e2 : enter { Value.none with rest := [0x80], remaining := 1, type := .arr } =
      .ok { Value.none with rest := [], remaining := 0 } := by decide
  rw [e2] at h2
  cases h2
  suffices v = { Value.none with rest := [], remaining := 0 } by rw [this]; simp [Value.none]
  induction h3 with
  | here => rfl
  | next _ h0 _ ih => rw [ih] at h0; exact absurd rfl h0

/-! ## Password authentication -/

/-- C71. The request which starts the password authentication is undefined exactly if the payload starts with a CBOR item
which is not a map. No access control comes before it. -/
theorem C71_password_request_exact (mem : Mem) (payload : Bytes) :
    readUsernameAndPassword mem payload = .ub ↔ ∃ v, parserInit payload = .ok v ∧ v.type ≠ .map := by
  have hp := parserInit_sat payload
  unfold readUsernameAndPassword
  cases hr : parserInit payload with
  | err e => simp
  | ub => rw [hr] at hp; exact hp.elim
  | ok v =>
    rw [hr] at hp
    simp only [R.bind_eq, R.bind]
    constructor
    · intro h
      refine ⟨v, rfl, fun ht => ?_⟩
      revert h
      refine R.Sat.ne_ub (P := fun _ => True) ?_
      exact (find_sat hp.1 ht _).bind fun a ha => (find_sat hp.1 ht _).bind fun b hb =>
        (copyTextString_sat mem _ ha).bind fun _ _ => (copyByteString_sat mem _ hb).bind fun _ _ => trivial
    · rintro ⟨w, hw, hne⟩
      cases hw
      rw [find_type hne]

/-- C71, violated: one byte sent by any client. -/
theorem C71_password_request_violated : readUsernameAndPassword allMem [0x00] = .ub :=
  (C71_password_request_exact allMem [0x00]).2 ⟨_, rfl, by decide⟩

/-- C71. A request which is a map gives the user name and the point, or is refused. -/
theorem C71_password_request_partial (i : Item) (hm : ∃ ind p, i = .map ind p) (hf : i.Fits) (hd : i.depth ≤ 1025)
    (tl : Bytes) : R.opt (readUsernameAndPassword allMem (i.enc ++ tl)) = .ok (Spec.credentials i) := by
  obtain ⟨ind, p, rfl⟩ := hm
  exact credentials_at hf hd tl

example : R.opt (readUsernameAndPassword allMem
    ((Item.map true [(.text (key "T"), .bytes [4, 5]), (.text (key "Username"), .text [97])]).enc ++ []))
    = .ok (some ([97], [4, 5])) := by
  rw [C71_password_request_partial _ ⟨_, _, rfl⟩ (by simp [Item.Fits, Item.Fitsm, key])
    (by simp [Item.depth, Item.depthm])]
  decide

/-! ## ICE servers -/

/-- C71, violated: an element of the array which is not a map. -/
theorem C71_ice_servers_violated : iceResponse allMem [0x81, 0x00] = .ub := by decide +kernel

/-- C71 for arrays of maps, any bytes. In particular the credential is never used uninitialised. -/
theorem C71_ice_servers_partial (mem : Mem) (payload : Bytes)
    (h : ∀ v, Element payload v → v.remaining ≠ 0 → v.type = .map) : iceResponse mem payload ≠ .ub := by
  refine R.Sat.ne_ub (P := fun _ => True) ?_
  unfold iceResponse
  have hp := parserInit_sat payload
  cases hr : parserInit payload with
  | err e => trivial
  | ub => rw [hr] at hp; exact hp.elim
  | ok root =>
    rw [hr] at hp
    simp only [R.bind_eq, R.bind]
    split
    · trivial
    · rename_i ht
      have ht : root.type = .arr := by simpa using ht
      have hc : isContainer root.type = true := by rw [ht]; rfl
      have he := enter_sat hp.1 hc
      cases hw : enter root with
      | err e => trivial
      | ub => rw [hw] at he; exact he.elim
      | ok w =>
        rw [hw] at he
        refine (iceLoop_sat mem _ [] he.good (Nat.lt_succ_self _) fun u hu => h u ⟨root, w, hr, hw, hu⟩).bind
          fun p ⟨p1, p2, p3⟩ => ?_
        exact (leave_sat hp.1 hc p1 p2 (by have := he.lt; omega)).bind fun _ _ => trivial

example : ∀ v, Element [0x80] v → v.remaining ≠ 0 → v.type = .map := by
  rintro v ⟨root, w, h1, h2, h3⟩
  have e1 : root = { Value.none with rest := [0x80], remaining := 1, type := .arr } := by
    have : parserInit [0x80] = .ok { Value.none with rest := [0x80], remaining := 1, type := .arr } := by decide
    rw [this] at h1; cases h1; rfl
  subst e1
  have e2 : enter { Value.none with rest := [0x80], remaining := 1, type := .arr } =
      .ok { Value.none with rest := [], remaining := 0 } := by decide
  rw [e2] at h2
  cases h2
  suffices v = { Value.none with rest := [], remaining := 0 } by rw [this]; simp
  induction h3 with
  | here => rfl
  | next _ h0 _ ih => rw [ih] at h0; exact absurd rfl h0

/-- An array of maps gives the servers in their order. -/
theorem ice_servers_exact (ind : Bool) (l : List Item) (hm : ∀ i ∈ l, ∃ ind p, i = .map ind p) (hf : (Item.arr ind l).Fits)
    (hd : (Item.arr ind l).depth ≤ 1025) (tl : Bytes) :
    R.opt (iceResponse allMem ((Item.arr ind l).enc ++ tl)) = .ok (Spec.iceServers l) := ice_at hf hd hm tl

example : R.opt (iceResponse allMem ((Item.arr false [.map true [(.text (key "Urls"), .arr true [.text [1], .text [2]])]]).enc ++ []))
    = .ok (some [{ username := none, credential := none, urls := [[1], [2]] }]) := by
  rw [ice_servers_exact _ _ (by simp) (by simp [Item.Fits, Item.Fitss, Item.Fitsm, key])
    (by simp [Item.depth, Item.depths, Item.depthm])]
  decide

/-! ## Numbers -/

/-- C71, violated: the error code, the status code or the message format is `-2^31 - 1`. -/
theorem C71_integers_violated :
    restError allMem ((Item.map false [(.text (key "Error"), .map false [(.text (key "Code"), .nint (2 ^ 31))])]).enc) = .ub ∧
    fcmResponse allMem ((Item.map false [(.text (key "StatusCode"), .nint (2 ^ 31)), (.text (key "Body"), .text [])]).enc) = .ub ∧
    serviceInvokeResponse allMem ((Item.map false [(.text (key "StatusCode"), .nint (2 ^ 31))]).enc) = .ub ∧
    serviceInvokeResponse allMem ((Item.map false [(.text (key "StatusCode"), .uint 200),
      (.text (key "MessageFormat"), .nint (2 ^ 31))]).enc) = .ub := by
  refine ⟨?_, ?_, ?_, ?_⟩ <;> decide +kernel

/-- A field of a message. -/
def FieldOf (payload k : Bytes) (v : Value) : Prop := ∃ root, parserInit payload = .ok root ∧ find root k = .ok v

/-- A field of the error in a message. -/
def ErrorFieldOf (payload k : Bytes) (v : Value) : Prop :=
  ∃ root e, parserInit payload = .ok root ∧ findIgnore root (key "Error") = .ok e ∧ findIgnore e k = .ok v

/-- C71 for error answers without such an integer, any bytes. -/
theorem C71_rest_error_partial (mem : Mem) (payload : Bytes)
    (h : ∀ v, ErrorFieldOf payload (key "Code") v → ¬ Overflow v) : restError mem payload ≠ .ub := by
  refine R.Sat.ne_ub (P := fun _ => True) ?_
  unfold restError
  have hp := parserInit_sat payload
  cases hr : parserInit payload with
  | err e => trivial
  | ub => rw [hr] at hp; exact hp.elim
  | ok root =>
    rw [hr] at hp
    simp only [R.bind_eq, R.bind]
    split
    · trivial
    · rename_i ht
      obtain ⟨e, he, ge⟩ := findIgnore_sat hp.1 (by simpa using ht) (key "Error")
      simp only [he]
      split
      · trivial
      · rename_i ht'
        obtain ⟨c, hc, gc⟩ := findIgnore_sat ge (by simpa using ht') (key "Code")
        obtain ⟨m, hm, gm⟩ := findIgnore_sat ge (by simpa using ht') (key "Message")
        simp only [hc, hm]
        refine (sat_opt (copyTextString_sat mem 1024 gm)).bind fun o _ => ?_
        split
        · rename_i hi
          refine (sat_opt (getInt_sat gc hi (h c ⟨root, e, hr, he, hc⟩))).bind fun o _ => ?_
          cases o <;> trivial
        · trivial

/-- C71 for answers to push notifications without such an integer, any bytes. -/
theorem C71_fcm_partial (mem : Mem) (payload : Bytes)
    (h : ∀ v, FieldOf payload (key "StatusCode") v → ¬ Overflow v) : fcmResponse mem payload ≠ .ub := by
  refine R.Sat.ne_ub (P := fun _ => True) ?_
  unfold fcmResponse
  have hp := parserInit_sat payload
  cases hr : parserInit payload with
  | err e => trivial
  | ub => rw [hr] at hp; exact hp.elim
  | ok root =>
    rw [hr] at hp
    simp only [R.bind_eq, R.bind]
    split
    · trivial
    · rename_i ht
      have ht : root.type = .map := by simpa using ht
      have hs := find_sat hp.1 ht (key "StatusCode")
      cases hc : find root (key "StatusCode") with
      | err e => trivial
      | ub => rw [hc] at hs; exact hs.elim
      | ok c =>
        rw [hc] at hs
        refine (find_sat hp.1 ht (key "Body")).bind fun b hb => (copyTextString_sat mem _ hb).bind fun _ _ => ?_
        split
        · trivial
        · rename_i hi
          refine (getInt_sat hs (by simpa using hi) (h c ⟨root, hr, hc⟩)).bind fun t _ => ?_
          split <;> trivial

/-- C71 for answers to service invocations without such an integer, any bytes. -/
theorem C71_service_invoke_partial (mem : Mem) (payload : Bytes)
    (h : ∀ v, FieldOf payload (key "StatusCode") v ∨ FieldOf payload (key "MessageFormat") v → ¬ Overflow v) :
    serviceInvokeResponse mem payload ≠ .ub := by
  refine R.Sat.ne_ub (P := fun _ => True) ?_
  unfold serviceInvokeResponse
  have hp := parserInit_sat payload
  cases hr : parserInit payload with
  | err e => trivial
  | ub => rw [hr] at hp; exact hp.elim
  | ok root =>
    rw [hr] at hp
    simp only [R.bind_eq, R.bind]
    split
    · trivial
    · rename_i ht
      have ht : root.type = .map := by simpa using ht
      have hs := find_sat hp.1 ht (key "StatusCode")
      cases hc : find root (key "StatusCode") with
      | err e => trivial
      | ub => rw [hc] at hs; exact hs.elim
      | ok c =>
        rw [hc] at hs
        refine (find_sat hp.1 ht (key "Message")).bind fun m hm => ?_
        have hs' := find_sat hp.1 ht (key "MessageFormat")
        cases hf : find root (key "MessageFormat") with
        | err e => trivial
        | ub => rw [hf] at hs'; exact hs'.elim
        | ok f =>
          rw [hf] at hs'
          simp only []
          split
          · trivial
          · rename_i hi
            refine (getInt_sat hs (by simpa using hi) (h c (.inl ⟨root, hr, hc⟩))).bind fun t _ => ?_
            split
            · trivial
            · split
              · rename_i hfi
                refine (getInt_sat hs' hfi (h f (.inr ⟨root, hr, hf⟩))).bind fun t _ => ?_
                split
                · exact (copyByteString_sat mem _ hm).bind fun _ _ => trivial
                · split <;> trivial
              · exact (copyByteString_sat mem _ hm).bind fun _ _ => trivial

/-- Messages with small numbers meet the hypotheses. -/
theorem fieldOf_eq {payload k : Bytes} {v : Value} {b : Bool}
    (h : (do let r ← parserInit payload; let v ← find r k; pure v.bit4) = R.ok b) (hv : FieldOf payload k v) : v.bit4 = b := by
  obtain ⟨root, h1, h2⟩ := hv
  rw [h1] at h
  simp only [R.bind_eq, R.bind, h2] at h
  injection h

example : ∀ v, FieldOf (Item.map false [(.text (key "StatusCode"), .uint 200), (.text (key "Body"), .text [79, 75])]).enc
    (key "StatusCode") v → ¬ Overflow v := by
  intro v hv ho
  have := fieldOf_eq (b := false) (by decide +kernel) hv
  rw [ho.1] at this
  cases this

example : ∀ v, FieldOf (Item.map true [(.text (key "StatusCode"), .uint 200), (.text (key "MessageFormat"), .uint 0),
    (.text (key "Message"), .bytes [79, 75])]).enc (key "StatusCode") v ∨
    FieldOf (Item.map true [(.text (key "StatusCode"), .uint 200), (.text (key "MessageFormat"), .uint 0),
    (.text (key "Message"), .bytes [79, 75])]).enc (key "MessageFormat") v → ¬ Overflow v := by
  intro v hv ho
  have : v.bit4 = false := hv.elim (fieldOf_eq (by decide +kernel)) (fieldOf_eq (by decide +kernel))
  rw [ho.1] at this
  cases this

example : ∀ v, ErrorFieldOf (Item.map false [(.text (key "Error"), .map false [(.text (key "Code"), .uint 3)])]).enc
    (key "Code") v → ¬ Overflow v := by
  rintro v ⟨root, e, h1, h2, h3⟩ ho
  have h : (do let r ← parserInit (Item.map false [(.text (key "Error"), .map false [(.text (key "Code"), .uint 3)])]).enc
               let e ← findIgnore r (key "Error")
               let v ← findIgnore e (key "Code"); pure v.bit4) = R.ok false := by decide +kernel
  rw [h1] at h
  simp only [R.bind_eq, R.bind, h2, h3, ho.1] at h
  cases h

example : fcmResponse allMem ((Item.map false [(.text (key "StatusCode"), .uint 200), (.text (key "Body"), .text [79, 75])]).enc)
    = .ok (200, [79, 75]) := by decide +kernel

/-! ## What the payloads mean -/

/-- Packets are sent exactly to the endpoints of a rendezvous request, up to the first invalid one. -/
theorem rendezvous_exact (i : Item) (hf : i.Fits) (hd : i.depth ≤ 1025) (tl : Bytes) :
    rendezvousPayload (i.enc ++ tl) = .ok (Spec.rendezvous i) := rendezvous_at hf hd tl

example : rendezvousPayload ((Item.arr true [.map true [(.text (key "Ip"), .bytes [10, 0, 0, 1]), (.text (key "Port"), .uint 443)]]).enc
    ++ []) = .ok ([([10, 0, 0, 1], 443)], true) := by
  rw [rendezvous_exact _ (by simp [Item.Fits, Item.Fitss, Item.Fitsm, key]) (by simp [Item.depth, Item.depths, Item.depthm])]
  decide

/-- An attach response means what it says. -/
theorem attach_response_exact (i : Item) (hf : i.Fits) (hd : i.depth ≤ 1025) (tl : Bytes) :
    attachResponse allMem (i.enc ++ tl) = .ok (Spec.attach i) := attach_at hf hd tl

example : attachResponse allMem ((Item.map true [(.text (key "Status"), .uint 1), (.text (key "Host"), .text [97, 46, 98]),
    (.text (key "Port"), .uint 443), (.text (key "Fingerprint"), .bytes [])]).enc ++ []) = .ok (.redirect [97, 46, 98] 443) := by
  rw [attach_response_exact _ (by simp [Item.Fits, Item.Fitsm, key]) (by simp [Item.depth, Item.depthm])]
  decide

/-- C71. The answer to a push notification, for any data item with a status code in the range of `int`: exactly the status
code and the body, refused if one is missing or out of range. -/
theorem fcm_response_exact (i : Item) (hf : i.Fits) (hd : i.depth ≤ 1025) (hs : Spec.Small "StatusCode" i) (tl : Bytes) :
    R.opt (fcmResponse allMem (i.enc ++ tl)) = .ok (Spec.fcm i) := fcm_at hf hd hs tl

example : Spec.fcm (Item.map true [(.text (key "StatusCode"), .uint 200), (.text (key "Body"), .text [79, 75])]) =
    some (200, [79, 75]) ∧ Spec.fcm (Item.map true [(.text (key "StatusCode"), .nint 0), (.text (key "Body"), .text [79, 75])]) =
    none := by decide

example : Spec.Small "StatusCode" (Item.map true [(.text (key "StatusCode"), .uint 200), (.text (key "Body"), .text [79, 75])]) := by
  intro z hz
  have : Option.bind (Spec.field "StatusCode" (Item.map true [(.text (key "StatusCode"), .uint 200),
    (.text (key "Body"), .text [79, 75])])) Spec.int = some 200 := by decide
  rw [this] at hz
  cases hz
  decide

/-- C71. The answer to a service invocation, for any data item with numbers in the range of `int`. -/
theorem service_invoke_exact (i : Item) (hf : i.Fits) (hd : i.depth ≤ 1025) (hs : Spec.Small "StatusCode" i)
    (hm : Spec.Small "MessageFormat" i) (tl : Bytes) :
    R.opt (serviceInvokeResponse allMem (i.enc ++ tl)) = .ok (Spec.serviceInvoke i) := serviceInvoke_at hf hd hs hm tl

example : Spec.serviceInvoke (Item.map true [(.text (key "StatusCode"), .uint 200), (.text (key "MessageFormat"), .uint 2),
    (.text (key "Message"), .bytes [79, 75])]) = some (200, 2, some [79, 75]) := by decide

/-- Numbers outside the range of `int` are cut off: 2^32 + 200 is taken as the status code 200. -/
theorem status_code_cut_off_violated :
    fcmResponse allMem ((Item.map false [(.text (key "StatusCode"), .uint (2 ^ 32 + 200)), (.text (key "Body"), .text [])]).enc) =
      .ok (200, []) := by decide +kernel

/-- A request of the IAM module with a string, a boolean, a map or an FCM token. -/
theorem iam_request_exact (i : Item) (hf : i.Fits) (hd : i.depth ≤ 1025) (tl : Bytes) (s : String) (hs : 0 ∉ key s) :
    ∃ v, parserInit (i.enc ++ tl) = .ok v ∧
      R.opt (decodeString allMem v) = .ok (Spec.iamString (some i)) ∧
      R.opt (decodeBool v) = .ok (Spec.boolean i) ∧
      R.opt (decodeKvString allMem v (key s)) = .ok (Spec.iamString (Spec.field s i)) ∧
      R.opt (decodeFcm allMem v) = .ok (match Spec.iamString (Spec.field "Token" i), Spec.iamString (Spec.field "ProjectId" i) with
        | some t, some p => some (t, p)
        | _, _ => none) := by
  obtain ⟨v, hv, hi⟩ := parserInit_at hf tl
  exact ⟨v, hv, decodeString_see (o := some i) hi, decodeBool_at hi, decodeKv_at hd hi hs, decodeFcm_at hd hi⟩

example : ∃ v, parserInit ((Item.map false [(.text (key "Role"), .chunks true [[97], [98]])]).enc ++ [7]) = .ok v ∧
    R.opt (decodeKvString allMem v (key "Role")) = .ok (some (some [97, 98])) := by
  obtain ⟨v, h1, -, -, h2, -⟩ := iam_request_exact (.map false [(.text (key "Role"), .chunks true [[97], [98]])])
    (by simp [Item.Fits, Item.Fitsm, key]) (by simp [Item.depth, Item.depthm]) [7] "Role" (by decide)
  exact ⟨v, h1, by rw [h2]; decide⟩

end Verif.Core.CborUse.Props
