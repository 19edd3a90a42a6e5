import Verif.Iam.JsonLemmas
import Verif.Iam.JsonSpec

/-!
# IAM serializer — lemmas about texts
-/

namespace Verif.Iam

open Verif.Json (Json Fits FitsElems FitsMembers mapElems mapMembers enc)
open Spec

theorem zero_utf8 {c : Char} (h : 0 ∈ String.utf8EncodeChar c) : c = Char.ofNat 0 := by
  have hv : c.val.toNat = 0 := by
    unfold String.utf8EncodeChar at h
    simp only at h
    split at h
    · next h1 =>
      rw [List.mem_singleton] at h
      have := congrArg UInt8.toNat h
      have e : c.val.toNat = c.toNat := rfl
      simp at this
      omega
    · split at h
      · next h1 h2 =>
        exfalso
        simp only [List.mem_cons, List.not_mem_nil, or_false] at h
        rcases h with h | h <;> (have := congrArg UInt8.toNat h; simp at this; omega)
      · split at h
        · exfalso
          simp only [List.mem_cons, List.not_mem_nil, or_false] at h
          rcases h with h | h | h <;> (have := congrArg UInt8.toNat h; simp at this; omega)
        · exfalso
          simp only [List.mem_cons, List.not_mem_nil, or_false] at h
          rcases h with h | h | h | h <;> (have := congrArg UInt8.toNat h; simp at this; omega)
  apply Char.ext
  apply UInt32.toNat_inj.1
  rw [hv]
  rfl

theorem zero_enc {s : String} (h : CString s) : 0 ∉ enc s := by
  intro h0
  rw [enc, List.mem_flatMap] at h0
  obtain ⟨c, hc, h0⟩ := h0
  rw [zero_utf8 h0] at hc
  exact h hc

theorem enc_inj {s t : String} (h : enc s = enc t) : s = t := by
  rw [← String.toByteArray_inj, ← String.utf8Encode_toList, ← String.utf8Encode_toList]
  unfold enc at h
  simp only [List.utf8Encode, h]

mutual

theorem map_inj (a b : Doc) (h : a.map enc = b.map enc) : a = b := by
  cases a <;> cases b <;> simp only [Json.map, reduceCtorEq, Json.bool.injEq, Json.num.injEq, Json.str.injEq,
    Json.arr.injEq, Json.obj.injEq] at h ⊢
  · exact h
  · exact h
  · exact enc_inj h
  · exact mapElems_inj _ _ h
  · exact mapMembers_inj _ _ h

theorem mapElems_inj (a b : List Doc) (h : mapElems enc a = mapElems enc b) : a = b := by
  cases a with
  | nil => cases b with
    | nil => rfl
    | cons y b => simp [mapElems] at h
  | cons x a => cases b with
    | nil => simp [mapElems] at h
    | cons y b =>
      simp only [mapElems, List.cons.injEq] at h
      rw [map_inj x y h.1, mapElems_inj a b h.2]

theorem mapMembers_inj (a b : List (String × Doc)) (h : mapMembers enc a = mapMembers enc b) : a = b := by
  cases a with
  | nil => cases b with
    | nil => rfl
    | cons y b => obtain ⟨k, y⟩ := y; simp [mapMembers] at h
  | cons x a =>
    obtain ⟨k, x⟩ := x
    cases b with
    | nil => simp [mapMembers] at h
    | cons y b =>
      obtain ⟨k', y⟩ := y
      simp only [mapMembers, List.cons.injEq, Prod.mk.injEq] at h
      rw [enc_inj h.1.1, map_inj x y h.1.2, mapMembers_inj a b h.2]

end

/-! ## Documents whose texts are read back -/

/-- The text of a document is read back at a depth. -/
def Good (d : Nat) (j : Doc) : Prop := Fits d (j.map enc)

theorem fitsElems {d : Nat} {l : List Doc} (h : ∀ x ∈ l, Good d x) : FitsElems d (mapElems enc l) := by
  induction l with
  | nil => simp [mapElems, FitsElems]
  | cons x l ih => exact ⟨h x (by simp), ih (fun y hy => h y (by simp [hy]))⟩

theorem fitsMembers {d : Nat} {l : List (String × Doc)} (h : ∀ m ∈ l, CString m.1 ∧ Good d m.2) :
    FitsMembers d (mapMembers enc l) := by
  induction l with
  | nil => simp [mapMembers, FitsMembers]
  | cons x l ih =>
    obtain ⟨k, x⟩ := x
    have := h (k, x) (by simp)
    exact ⟨zero_enc this.1, this.2, ih (fun y hy => h y (by simp [hy]))⟩

theorem Good.str {d s} (h : CString s) : Good d (.str s) := zero_enc h

theorem Good.bool {d b} : Good d (.bool b) := by cases b <;> trivial

theorem Good.num {d i} (h : Json.isInt i) : Good d (.num i) := h

theorem Good.arr {d l} (hd : d < 1000) (h : ∀ x ∈ l, Good (d + 1) x) : Good d (.arr l) := ⟨hd, fitsElems h⟩

theorem Good.obj {d l} (hd : d < 1000) (h : ∀ m ∈ l, CString m.1 ∧ Good (d + 1) m.2) : Good d (.obj l) :=
  ⟨hd, fitsMembers h⟩

theorem good_opt {d k s} (hk : CString k) (h : ∀ x ∈ s.toList, CString x) : ∀ m ∈ optMember k s, CString m.1 ∧ Good d m.2 := by
  cases s with
  | none => simp [optMember]
  | some s =>
    intro m hm
    simp only [optMember, List.mem_singleton] at hm
    subst hm
    exact ⟨hk, .str (h s (by simp))⟩

theorem good_set {d l} (hd : d < 1000) (h : ∀ x ∈ l, CString x) : Good d (setDoc l) := by
  apply Good.arr hd
  intro x hx
  rw [List.mem_map] at hx
  obtain ⟨s, hs, rfl⟩ := hx
  exact .str (h s hs)

theorem good_cons {d k x l} (hk : CString k) (hx : Good d x) (hl : ∀ m ∈ l, CString m.1 ∧ Good d m.2) :
    ∀ m ∈ (k, x) :: l, CString m.1 ∧ Good d m.2 := by
  intro m hm
  rw [List.mem_cons] at hm
  rcases hm with rfl | hm
  · exact ⟨hk, hx⟩
  · exact hl m hm

theorem good_append {d} {l l' : List (String × Doc)} (hl : ∀ m ∈ l, CString m.1 ∧ Good d m.2) (hl' : ∀ m ∈ l', CString m.1 ∧ Good d m.2) :
    ∀ m ∈ l ++ l', CString m.1 ∧ Good d m.2 := by
  intro m hm
  rw [List.mem_append] at hm
  rcases hm with hm | hm
  · exact hl m hm
  · exact hl' m hm

theorem good_nil {d} : ∀ m ∈ ([] : List (String × Doc)), CString m.1 ∧ Good d m.2 := by simp

theorem good_map {α d} {l : List α} {g : α → Doc} (hd : d < 1000) (h : ∀ x ∈ l, Good (d + 1) (g x)) : Good d (.arr (l.map g)) := by
  apply Good.arr hd
  intro x hx
  rw [List.mem_map] at hx
  obtain ⟨s, hs, rfl⟩ := hx
  exact h s hs

theorem good_fp {d} {f : Fp} (hd : d < 1000) (h : ∀ s ∈ f.fingerprint :: f.name.toList, CString s) : Good d (fpDoc f) :=
  .obj hd (good_cons (by decide) (.str (h _ (by simp))) (good_opt (by decide) (fun s hs => h s (by simp [hs]))))

theorem good_user {d} {u : User} (hd : d < 900) (h : ∀ s ∈ userStrings u, CString s) : Good d (userDoc u) := by
  simp only [userStrings, List.mem_cons, List.mem_append, List.mem_flatMap] at h
  refine .obj (by omega) (good_cons (by decide) (.str (h _ (by simp))) (good_cons (by decide) ?_ ?_))
  · exact good_map (by omega) (fun f hf => good_fp (by omega) (fun s hs => h s (.inr ⟨f, hf, by simpa using hs⟩)))
  refine good_append (good_opt (by decide) (fun s hs => h s (by simp [hs]))) ?_
  refine good_append (good_opt (by decide) (fun s hs => h s (by simp [hs]))) ?_
  refine good_append (good_opt (by decide) (fun s hs => h s (by simp [hs]))) ?_
  refine good_append (good_opt (by decide) (fun s hs => h s (by simp [hs]))) ?_
  refine good_append ?_ (good_append ?_ (good_opt (by decide) (fun s hs => h s (by simp [hs]))))
  · unfold fcmMember
    split
    · exact good_cons (by decide) (.obj (by omega) (good_append (good_opt (by decide) (fun s hs => h s (by simp [hs])))
        (good_opt (by decide) (fun s hs => h s (by simp [hs]))))) good_nil
    · exact good_nil
  · unfold categoriesMember
    split
    · exact good_cons (by decide) (good_set (by omega) (fun s hs => h s (by simp [hs]))) good_nil
    · exact good_nil

theorem good_state {st : IamState} (h : ∀ s ∈ stateStrings st, CString s) : Good 0 (stateDoc st) := by
  simp only [stateStrings, List.mem_append, List.mem_flatMap] at h
  refine .obj (by omega) (good_cons (by decide) (.num (by unfold Json.isInt; omega)) ?_)
  refine good_append (good_opt (by decide) (fun s hs => h s (by simp [hs]))) ?_
  refine good_append (good_opt (by decide) (fun s hs => h s (by simp [hs]))) ?_
  refine good_cons (by decide) .bool (good_cons (by decide) .bool (good_cons (by decide) .bool (good_cons (by decide) .bool ?_)))
  refine good_append (good_opt (by decide) (fun s hs => h s (by simp [hs]))) ?_
  refine good_append (good_opt (by decide) (fun s hs => h s (by simp [hs]))) ?_
  refine good_append (good_opt (by decide) (fun s hs => h s (by simp [hs]))) ?_
  exact good_cons (by decide) (good_map (by omega) (fun u hu => good_user (by omega) (fun s hs => h s (.inr ⟨u, hu, hs⟩)))) good_nil

theorem good_statement {d} {s : Statement} (hd : d < 900) (h : ∀ x ∈ s.actions ++ s.conditions.flatMap (fun c => c.key :: c.values), CString x) :
    Good d (statementDoc s) := by
  simp only [List.mem_append, List.mem_flatMap] at h
  refine .obj (by omega) (good_append ?_ (good_cons (by decide) (good_set (by omega) (fun x hx => h x (.inl hx))) ?_))
  · cases s.effect
    · exact good_cons (by decide) (.str (by decide)) good_nil
    · exact good_cons (by decide) (.str (by decide)) good_nil
    · exact good_nil
    · exact good_nil
  · split
    · refine good_cons (by decide) (good_map (by omega) (fun c hc => ?_)) good_nil
      refine .obj (by omega) (good_cons (by cases c.op <;> decide) (.obj (by omega) (good_cons ?_ ?_ good_nil)) good_nil)
      · exact h _ (.inr ⟨c, hc, by simp⟩)
      · exact good_set (by omega) (fun x hx => h x (.inr ⟨c, hc, by simp [hx]⟩))
    · exact good_nil

theorem good_config {c : Config} (h : ∀ s ∈ configStrings c, CString s) : Good 0 (configDoc c) := by
  simp only [configStrings, List.mem_append, List.mem_flatMap] at h
  refine .obj (by omega) (good_cons (by decide) (.num (by unfold Json.isInt; omega)) (good_cons (by decide) ?_ (good_cons (by decide) ?_
    (good_cons (by decide) ?_ good_nil))))
  · refine good_map (by omega) (fun p hp => ?_)
    refine .obj (by omega) (good_cons (by decide) (.str (h _ (.inr ⟨p, hp, by simp⟩))) (good_cons (by decide) ?_ good_nil))
    refine good_map (by omega) (fun s hs => good_statement (by omega) (fun x hx => h x (.inr ⟨p, hp, ?_⟩)))
    rw [List.mem_cons, List.mem_flatMap]
    exact .inr ⟨s, hs, hx⟩
  · refine good_map (by omega) (fun r hr => ?_)
    exact .obj (by omega) (good_cons (by decide) (.str (h _ (.inl (.inr ⟨r, hr, by simp⟩)))) (good_cons (by decide)
      (good_set (by omega) (fun x hx => h x (.inl (.inr ⟨r, hr, by simp [hx]⟩)))) good_nil))
  · exact .obj (by omega) (good_opt (by decide) (fun s hs => h s (.inl (.inl hs))))

/-! ## Loops of the loader -/

theorem loadAll_spec {α} {f : Doc → Option α} {l : List Doc} {r : List α} (h : loadAll f l = some r) : l.map f = r.map some := by
  induction l generalizing r with
  | nil => simp only [loadAll, Option.some.injEq] at h; subst h; rfl
  | cons x l ih =>
    rw [loadAll] at h
    cases hx : f x with
    | none => rw [hx] at h; cases h
    | some a =>
      rw [hx] at h
      simp only [Option.map_eq_some_iff] at h
      obtain ⟨r', h, rfl⟩ := h
      rw [List.map_cons, hx, ih h]
      rfl

theorem mem_setInsert {set s x} : x ∈ setInsert set s ↔ x ∈ set ∨ x = s := by
  unfold setInsert
  split
  · next h => grind
  · simp

theorem insertAll_spec {set : List String} {l : List Doc} {r : List String} (h : insertAll set l = some r) :
    ∃ vs : List String, l = vs.map .str ∧ ∀ v, v ∈ r ↔ v ∈ set ∨ v ∈ vs := by
  induction l generalizing set with
  | nil =>
    simp only [insertAll, Option.some.injEq] at h
    exact ⟨[], rfl, by simp [h]⟩
  | cons x l ih =>
    cases x with
    | str s =>
      rw [insertAll] at h
      obtain ⟨vs, rfl, h2⟩ := ih h
      refine ⟨s :: vs, rfl, fun v => ?_⟩
      rw [h2, mem_setInsert]
      grind
    | _ => cases h

theorem parseOp_mem {s op} (h : parseOp s = some op) : (s, op) ∈ opNames := by
  unfold parseOp at h
  unfold opNames
  (repeat' split at h) <;> cases h <;> subst_vars <;> simp

/-- A loaded condition is the first restriction of its document. -/
theorem conditionFromJson_spec {j : Doc} {c : Condition} (h : conditionFromJson j = some c) :
    ∃ op kv ops key values kvs, j = .obj ((op, .obj kv) :: ops) ∧ kv = (key, values) :: kvs ∧ Means (op, key, values) c := by
  unfold conditionFromJson at h
  split at h
  · next name kv rest =>
    cases hp : parseOp name with
    | none => rw [hp] at h; cases h
    | some op =>
      rw [hp] at h
      simp only at h
      split at h
      · next key values kvs =>
        rw [Option.map_eq_some_iff] at h
        obtain ⟨v, hv, rfl⟩ := h
        obtain ⟨vs, rfl, h2⟩ := insertAll_spec hv
        exact ⟨name, _, rest, key, _, kvs, rfl, rfl, parseOp_mem hp, rfl, vs, rfl, by simpa using h2⟩
      · cases h
  · cases h

theorem find_mem {l : List (String × Doc)} {n x} (h : Json.find l n = some x) : ∃ k, (k, x) ∈ l ∧ Json.lower k = Json.lower n := by
  induction l with
  | nil => cases h
  | cons m l ih =>
    rw [Json.find] at h
    split at h
    · next hm => cases h; exact ⟨m.1, by simp, hm⟩
    · obtain ⟨k, h1, h2⟩ := ih h
      exact ⟨k, by simp [h1], h2⟩

theorem asArr_eq {o : Option Doc} {l} (h : Json.asArr o = some l) : o = some (.arr l) := by
  unfold Json.asArr at h
  split at h
  · cases h; rfl
  · cases h

theorem asStr_eq {o : Option Doc} {l} (h : Json.asStr o = some l) : o = some (.str l) := by
  unfold Json.asStr at h
  split at h
  · cases h; rfl
  · cases h

/-- What a statement document which was accepted looks like. -/
theorem statementFromJson_spec {j : Doc} {s : Statement} (h : statementFromJson j = some s) :
    ∃ (e : String) (vs : List String), Json.getItem j "Effect" = some (.str e) ∧ parseEffect e = some s.effect ∧
      Json.getItem j "Actions" = some (.arr (vs.map .str)) ∧ (∀ v, v ∈ s.actions ↔ v ∈ vs) ∧
      ((∃ l, Json.getItem j "Conditions" = some (.arr l) ∧ l.map conditionFromJson = s.conditions.map some) ∨
        ((∀ l, Json.getItem j "Conditions" ≠ some (.arr l)) ∧ s.conditions = [])) := by
  unfold statementFromJson at h
  split at h
  · cases h
  · split at h
    · next e acts he ha =>
      split at h
      · cases h
      · next ef hef =>
        split at h
        · cases h
        · next acts' hacts =>
          obtain ⟨vs, rfl, hvs⟩ := insertAll_spec hacts
          refine ⟨e, vs, asStr_eq he, ?_, asArr_eq ha, ?_, ?_⟩
          · split at h
            · rw [Option.map_eq_some_iff] at h; obtain ⟨_, _, rfl⟩ := h; exact hef
            · cases h; exact hef
          · split at h
            · rw [Option.map_eq_some_iff] at h; obtain ⟨_, _, rfl⟩ := h; simpa using hvs
            · cases h; simpa using hvs
          · split at h
            · next l hl =>
              rw [Option.map_eq_some_iff] at h
              obtain ⟨c, hc, rfl⟩ := h
              exact .inl ⟨l, asArr_eq hl, loadAll_spec hc⟩
            · next hl =>
              cases h
              refine .inr ⟨fun l h' => ?_, rfl⟩
              rw [h'] at hl
              cases hl
    · cases h

end Verif.Iam
