import Verif.Core.PayloadsSpec
import Verif.Iam.ListingLemmas

/-!
# Documents which the device sends: lemmas
-/

namespace Verif.Core.Payloads
open Verif.Cbor Verif.Iam.Listing

theorem puts_cstr (s : Bytes) : Puts (cstr s) (Item.text s).enc := by
  intro cap pre e h
  obtain ⟨h1, h2, _, h4⟩ := string_wrote (s := s) h 3
  refine ⟨(e.string (3 * 32) s).1, ?_, by simpa [Item.enc] using h1, h4⟩
  unfold cstr checked Enc.text
  rw [h2, notOom_fit]; rfl

theorem puts_blob (s : Bytes) : Puts (blob s) (Item.bytes s).enc := by
  intro cap pre e h
  obtain ⟨h1, h2, _, h4⟩ := string_wrote (s := s) h 2
  refine ⟨(e.string (2 * 32) s).1, ?_, by simpa [Item.enc] using h1, h4⟩
  unfold blob checked Enc.bytes
  rw [h2, notOom_fit]; rfl

theorem puts_num (n : Nat) : Puts (num n) (Item.uint n).enc := by
  intro cap pre e h
  obtain ⟨h1, h2, _, h4⟩ := number_wrote (n := n) h 0
  refine ⟨(e.number n (0 * 32)).1, ?_, by simpa [Item.enc] using h1, h4⟩
  unfold num checked Enc.uint
  rw [h2, notOom_fit]; rfl

theorem puts_pair {f : Enc → Option Enc} {v : Item} (k : String) (hf : Puts f v.enc) :
    Puts (pair k f) ((Spec.key k).enc ++ v.enc) := (puts_text k).bind hf

/-- An encoder function of the core writes a document of indefinite length. -/
def Writes (f : Enc → Enc × EErr) (bs : Bytes) : Prop :=
  ∀ cap e, Buf.Is cap [] e.buf → Buf.Is cap bs (f e).1.buf ∧ (f e).2 = fitErr cap bs

theorem writes_document {major : Nat} {body : Enc → Option Enc} {bs : Bytes} (hb : Puts body bs) :
    Writes (document major body) (headIndef major :: (bs ++ [brk])) := by
  intro cap e h
  obtain ⟨h1, h2⟩ := h.append (d := [headIndef major]) (.inl (by simp))
  have hc : e.create none major = (e.decrement, { buf := (e.buf.append [headIndef major]).1, remaining := 0, unknown := true },
      (e.buf.append [headIndef major]).2) := rfl
  obtain ⟨c, b1, b2, b3⟩ := hb cap _ { buf := (e.buf.append [headIndef major]).1, remaining := 0, unknown := true } h1
  obtain ⟨c1, c2, c3, c4⟩ := close_indef (e := e.decrement) b2 b3
  have he : document major body e = e.decrement.close c := by
    unfold document
    simp only [hc, h2, notOom_fit, Bool.false_eq_true, if_false, b1]
  rw [he]
  simp only [List.nil_append, List.cons_append] at c1 c2
  exact ⟨c1, c2⟩

theorem build_of {f : Enc → Enc × EErr} {bs : Bytes} (h : Writes f bs) (alloc : Nat → Bool) :
    build alloc f = if alloc bs.length then .payload bs else .outOfMemory := by
  obtain ⟨m1, m2⟩ := h none (Enc.init none) rfl
  obtain ⟨w1, w2⟩ := h (some bs.length) (Enc.init (some bs.length)) (by simp [Buf.Is, Enc.init])
  simp only [Buf.Is] at m1
  simp only [Buf.Is, Nat.le_refl, if_true, Nat.sub_self] at w1
  simp only [fitErr] at m2
  simp only [fitErr, Nat.le_refl, if_true] at w2
  have hx : (f (Enc.init none)).1.extra = bs.length := by unfold Enc.extra; rw [m1]
  unfold build
  simp only [m2, hx, w2, w1, payload]
  cases alloc bs.length <;> simp

theorem puts_map_pairs {body : Enc → Option Enc} {p : List (Item × Item)} (hb : Puts body (Item.encm p)) :
    Writes (document 5 body) (Item.map true p).enc := by
  simpa only [Item.enc] using writes_document (major := 5) hb

theorem puts_arr {body : Enc → Option Enc} {l : List Item} (hb : Puts body (Item.encs l)) :
    Writes (document 4 body) (Item.arr true l).enc := by
  simpa only [Item.enc] using writes_document (major := 4) hb

theorem orEmpty_given (s : Option Bytes) : orEmpty s = Spec.given s := by cases s <;> rfl

theorem writes_attach (a : Attach) : Writes (attachStart a) (Spec.attach a).enc := by
  rw [show attachStart a = document 5 _ from rfl]
  simp only [orEmpty_given]
  refine puts_map_pairs ?_
  have := (puts_pair "NabtoVersion" (puts_cstr a.version)).bind ((puts_pair "AppName" (puts_cstr (Spec.given a.appName))).bind
    ((puts_pair "AppVersion" (puts_cstr (Spec.given a.appVersion))).bind ((puts_pair "ProductId" (puts_cstr a.productId)).bind
    (puts_pair "DeviceId" (puts_cstr a.deviceId)))))
  simpa [Item.encm, Option.bind_assoc] using this

theorem writes_scts (l : List Bytes) : Writes (scts l) (Spec.texts l).enc := puts_arr (puts_each puts_cstr l)

theorem writes_fcm (p b : Bytes) : Writes (fcm p b) (Spec.fcm p b).enc := by
  refine puts_map_pairs ?_
  have := (puts_pair "ProjectId" (puts_cstr p)).bind (puts_pair "Body" (puts_cstr b))
  simpa [Item.encm] using this

theorem writes_invoke (s m : Bytes) : Writes (invoke s m) (Spec.invoke s m).enc := by
  refine puts_map_pairs ?_
  have := (puts_pair "ServiceId" (puts_cstr s)).bind (puts_pair "Message" (puts_blob m))
  simpa [Item.encm] using this

theorem writes_ice (i : Bytes) : Writes (ice i) (Spec.ice i).enc := by
  refine puts_map_pairs ?_
  have := puts_pair "Identifier" (puts_cstr i)
  simpa [Item.encm] using this

theorem puts_ep (ep : Verif.Net.Addr.Endpoint) : Puts (encEp ep) (Spec.endpoint ep).enc := by
  refine puts_map ?_
  have := (puts_pair "Ip" (puts_blob (ipBytes ep.ip))).bind (puts_pair "Port" (puts_num ep.port.toNat))
  simpa [Item.encm] using this

theorem writes_endpoints (l : List Verif.Net.Addr.Endpoint) : Writes (endpoints l) (Spec.endpoints l).enc :=
  puts_arr (puts_each puts_ep l)

theorem puts_metas (l : List (Bytes × Bytes)) :
    Puts (each encMeta l) (Item.encm (l.map fun kv => (.text kv.1, .text kv.2))) := by
  induction l with
  | nil => simp only [List.map, Item.encm]; exact Puts.nil
  | cons a l ih =>
    have := ((puts_cstr a.1).bind (puts_cstr a.2)).bind ih
    simp only [List.map, Item.encm]
    simp only [List.append_assoc] at this
    exact this

theorem puts_service (s : Service) : Puts (encService s) (Spec.service s).enc := by
  refine puts_map ?_
  have := (puts_pair "Id" (puts_cstr s.id)).bind ((puts_pair "Type" (puts_cstr s.type)).bind
    ((puts_pair "Host" (puts_cstr s.host)).bind ((puts_pair "Port" (puts_num s.port.toNat)).bind
    ((puts_pair "StreamPort" (puts_num s.streamPort.toNat)).bind (puts_pair "Metadata" (puts_map (puts_metas s.metadata)))))))
  simpa [Item.encm, Option.bind_assoc] using this

theorem puts_services (ids : List Bytes) : Puts (encServices ids) (Spec.texts ids).enc := puts_array (puts_each puts_cstr ids)

theorem depths_zero {α : Type} {f : α → Item} {n : Nat} (h : ∀ a, (f a).depth ≤ n) (l : List α) :
    Item.depths (l.map f) ≤ n := by
  induction l with
  | nil => simp [Item.depths]
  | cons a l ih => simp only [List.map_cons, Item.depths]; have := h a; omega

theorem plains_map {α : Type} {f : α → Item} {l : List α} (h : ∀ a ∈ l, (f a).Plain) : Item.Plains (l.map f) := by
  induction l with
  | nil => simp [Item.Plains]
  | cons a l ih =>
    simp only [List.map_cons, Item.Plains]
    exact ⟨h a (by simp), ih fun b hb => h b (by simp [hb])⟩

theorem metas_ok {l : List (Bytes × Bytes)} (h : ∀ kv ∈ l, Spec.Short kv.1 ∧ Spec.Short kv.2) :
    Item.Plainm (l.map fun kv => (.text kv.1, .text kv.2)) ∧
      Item.depthm (l.map fun kv => (Item.text kv.1, Item.text kv.2)) = 0 := by
  induction l with
  | nil => simp [Item.Plainm, Item.depthm]
  | cons a l ih =>
    have := ih fun b hb => h b (by simp [hb])
    simp only [List.map_cons, Item.Plainm, Item.depthm, Item.Plain, Item.depth]
    exact ⟨⟨(h a (by simp)).1, (h a (by simp)).2, this.1⟩, by omega⟩

end Verif.Core.Payloads
