import Verif.Cbor.Round

/-!
# tinycbor parser on well formed input: containers and maps, lemmas
-/

namespace Verif.Cbor

/-- The keys and values of a map in the order of the encoding. -/
def flat : List (Item × Item) → List Item
  | [] => []
  | (k, v) :: l => k :: v :: flat l

theorem encm_flat (l : List (Item × Item)) : Item.encm l = Item.encs (flat l) := by
  induction l with
  | nil => simp [Item.encm, Item.encs, flat]
  | cons p l ih => obtain ⟨k, v⟩ := p; simp [Item.encm, Item.encs, flat, ih]

theorem flat_length (l : List (Item × Item)) : (flat l).length = 2 * l.length := by
  induction l with
  | nil => rfl
  | cons p l ih => obtain ⟨k, v⟩ := p; simp [flat, ih]; omega

theorem fitsm_flat {l : List (Item × Item)} (h : Item.Fitsm l) : Item.Fitss (flat l) := by
  induction l with
  | nil => trivial
  | cons p l ih => obtain ⟨k, v⟩ := p; simp only [Item.Fitsm] at h; exact ⟨h.1, h.2.1, ih h.2.2⟩

theorem depthm_flat (l : List (Item × Item)) : Item.depthm l = Item.depths (flat l) := by
  induction l with
  | nil => simp [Item.depthm, Item.depths, flat]
  | cons p l ih => obtain ⟨k, v⟩ := p; simp [Item.depthm, Item.depths, flat, ih, Nat.max_assoc]

theorem encs_append (l k : List Item) : Item.encs (l ++ k) = Item.encs l ++ Item.encs k := by
  induction l with
  | nil => simp [Item.encs]
  | cons i l ih => simp [Item.encs, ih]

/-- The elements of a container, and whether it is a map and has an indefinite length. -/
def Item.elems : Item → Option (Bool × Bool × List Item)
  | .arr ind l => some (ind, false, l)
  | .map ind l => some (ind, true, flat l)
  | _ => none

theorem AtL.bound {ind m tl i l v} (h : AtL ind m tl (i :: l) v) : ind = false → l.length + 1 < u32max := h.2.1.lt

/-- Entering a container. -/
theorem enter_at {ind m tl i l} {v : Value} {cind cm : Bool} {cl : List Item} (he : i.elems = some (cind, cm, cl))
    (hi : i.Fits) (hv : AtL ind m tl (i :: l) v) :
    ∃ w, enter v = .ok w ∧ AtL cind cm (Item.encs l ++ term ind tl) cl w := by
  obtain ⟨hr, hc, hfl⟩ := hv
  -- a container of definite length
  have known (mt n : Nat) (hm : mt = 4 ∧ cl.length = n ∧ cm = false ∨ mt = 5 ∧ cl.length = 2 * n ∧ cm = true)
      (hn : n < 2 ^ 31) (hcl : Item.Fitss cl)
      (hr : v.rest = head mt n ++ (Item.encs cl ++ (Item.encs l ++ term ind tl)))
      (hfl : v = v.setHead (majorTy mt) n false) :
      ∃ w, enter v = .ok w ∧ AtL false cm (Item.encs l ++ term ind tl) cl w := by
    have ht : v.type = majorTy mt := by rw [hfl]; rfl
    have hu : v.unknown = false := by rw [hfl]; rfl
    have hk : enterKnown v = .ok { v with rest := Item.encs cl ++ (Item.encs l ++ term ind tl), remaining := cl.length } := by
      unfold enterKnown
      rw [numAdvance_setHead (by omega) hr hfl]
      simp only [R.bind_eq, R.bind]
      rw [if_neg (by unfold u32max; omega), if_neg (by unfold u32max; omega)]
      rcases hm with ⟨rfl, h2, -⟩ | ⟨rfl, h2, -⟩ <;> simp [ht, majorTy, h2]
    have hcon : isContainer v.type = true := by rw [ht]; rcases hm with ⟨rfl, -⟩ | ⟨rfl, -⟩ <;> rfl
    have hmap : decide (v.type = .map) = cm := by
      rw [ht]; rcases hm with ⟨rfl, -, rfl⟩ | ⟨rfl, -, rfl⟩ <;> rfl
    unfold enter
    rw [if_neg (by simp [hcon])]
    simp only [hu, Bool.false_eq_true, if_false, R.bind_eq, hk, R.bind]
    cases cl with
    | nil => exact ⟨_, rfl, by simp [Item.encs, term], rfl, rfl, rfl⟩
    | cons j cl =>
      rw [if_neg (by simp)]
      refine nextNoDec_cons hcl.1 rfl ⟨rfl, fun _ => ?_, hmap, fun h => ?_⟩
      · unfold u32max; rcases hm with ⟨-, h2, -⟩ | ⟨-, h2, -⟩ <;> simp at h2 <;> omega
      · rcases hm with ⟨-, -, h2⟩ | ⟨-, h2, -⟩
        · rw [h2] at h; cases h
        · simp only [List.length_cons] at h2
          simp only [h2]
          simp
  -- a container of indefinite length
  have indef (mt : Nat) (hm : mt = 4 ∧ cm = false ∨ mt = 5 ∧ cm = true ∧ cl.length % 2 = 0) (hcl : Item.Fitss cl)
      (hr : v.rest = headIndef mt :: (Item.encs cl ++ term true (Item.encs l ++ term ind tl)))
      (ht : v.type = majorTy mt) (hu : v.unknown = true) :
      ∃ w, enter v = .ok w ∧ AtL true cm (Item.encs l ++ term ind tl) cl w := by
    have hcon : isContainer v.type = true := by rw [ht]; rcases hm with ⟨rfl, -⟩ | ⟨rfl, -⟩ <;> rfl
    have hmap : decide (v.type = .map) = cm := by
      rw [ht]; rcases hm with ⟨rfl, rfl⟩ | ⟨rfl, rfl, -⟩ <;> rfl
    have hnt : v.type ≠ .tag := by rw [ht]; rcases hm with ⟨rfl, -⟩ | ⟨rfl, -⟩ <;> simp [majorTy]
    unfold enter
    rw [if_neg (by simp [hcon])]
    have hk : Value.skip { v with remaining := u32max } 1 =
        .ok { v with remaining := u32max, rest := Item.encs cl ++ term true (Item.encs l ++ term ind tl) } := by
      simp [Value.skip, hr]
    simp only [hu, if_true, R.bind_eq, hu ▸ hk, R.bind]
    rw [if_neg (by simp [u32max])]
    cases cl with
    | nil =>
      unfold nextNoDec
      rw [if_pos ⟨rfl, by simp [Item.encs, term, brk]⟩, if_neg (by simp [hnt])]
      exact ⟨_, rfl, by simp [Item.encs], rfl, rfl, rfl⟩
    | cons j cl =>
      refine nextNoDec_cons hcl.1 rfl ⟨rfl, fun h => (by cases h), hmap, fun h => ?_⟩
      rcases hm with ⟨-, h2⟩ | ⟨-, -, h2⟩
      · rw [h2] at h; cases h
      · simp only [List.length_cons] at h2
        simp [h2]
  cases i with
  | arr b k =>
    simp only [Item.elems, Option.some.injEq, Prod.mk.injEq] at he
    obtain ⟨rfl, rfl, rfl⟩ := he
    simp only [Item.Fits] at hi
    cases b
    · exact known 4 k.length (.inl ⟨rfl, rfl, rfl⟩) hi.1 hi.2 (by rw [hr]; simp [Item.encs, Item.enc]) hfl
    · exact indef 4 (.inl ⟨rfl, rfl⟩) hi.2 (by rw [hr]; simp [Item.encs, Item.enc, term]) (by rw [hfl]; rfl) (by rw [hfl]; rfl)
  | map b k =>
    simp only [Item.elems, Option.some.injEq, Prod.mk.injEq] at he
    obtain ⟨rfl, rfl, rfl⟩ := he
    simp only [Item.Fits] at hi
    have hcl := fitsm_flat hi.2
    cases b
    · exact known 5 k.length (.inr ⟨rfl, flat_length k, rfl⟩) hi.1 hcl
        (by rw [hr]; simp [Item.encs, Item.enc, encm_flat]) hfl
    · exact indef 5 (.inr ⟨rfl, rfl, by rw [flat_length]; omega⟩) hcl
        (by rw [hr]; simp [Item.encs, Item.enc, term, encm_flat]) (by rw [hfl]; rfl) (by rw [hfl]; rfl)
  | _ => simp [Item.elems] at he

theorem elems_container {i : Item} {x} (h : i.elems = some x) (v : Value) : isContainer (i.flags v).type = true := by
  cases i <;> simp [Item.elems] at h <;> cases ‹Bool› <;> rfl

/-- Leaving a container. -/
theorem leave_at {ind m tl i l} {v w : Value} {x} {cind cm : Bool} (he : i.elems = some x) (hl : Item.Fitss l)
    (hv : AtL ind m tl (i :: l) v) (hw : AtL cind cm (Item.encs l ++ term ind tl) [] w) :
    ∃ u, leave v w = .ok u ∧ AtL ind m tl l u := by
  obtain ⟨hr, hc, hfl⟩ := hv
  obtain ⟨w1, w2, w3, w4⟩ := hw
  have hcon : isContainer v.type = true := by rw [hfl]; exact elems_container he v
  have hnt : v.type ≠ .tag := by intro h; rw [h] at hcon; cases hcon
  unfold leave
  rw [if_neg (by simp [hcon, w2])]
  obtain ⟨u, hu, ha⟩ := next_at (u := { v with rest := Item.encs l ++ term ind tl }) hl rfl
    ⟨hc.rem, hc.lt, hc.isMap, hc.key⟩ hnt
  refine ⟨u, ?_, ha⟩
  rw [← hu]
  cases cind
  · simp only [w4, Bool.false_eq_true, if_false, w1, term, R.bind_eq, R.bind, R.pure_eq]
  · simp only [w4, if_true, w1, term, R.bind_eq, R.bind, Value.skip]
    simp

/-- What is left of an item when it is skipped by one call: the content of a tag. -/
def Item.after : Item → List Item
  | .tag _ i => [i]
  | _ => []

theorem noop_fun : Fun (fun _ _ => .ok true) (2 ^ 64) (fun s => decide (s.length ≤ 2 ^ 64)) (fun _ _ => true) :=
  ⟨fun _ _ _ => rfl, by simp, fun a c => by
    by_cases h : a.length + c.length ≤ 2 ^ 64
    · simp; omega
    · simp; omega⟩

theorem after_length (i : Item) (t : Bytes) : (Item.encs i.after ++ t).length < (i.enc ++ t).length := by
  cases i with
  | tag n j => simp only [Item.after, Item.encs, Item.enc, List.append_nil, List.length_append]; rw [head_eq]; simp
  | _ =>
    simp only [Item.after, Item.encs, List.length_append, List.nil_append]
    exact Nat.lt_add_of_pos_left (enc_pos _)

theorem fits_after {i : Item} (h : i.Fits) {l : List Item} (hl : Item.Fitss l) : Item.Fitss (i.after ++ l) := by
  cases i with
  | tag n j => simp only [Item.Fits] at h; exact ⟨h.2, hl⟩
  | _ => exact hl

theorem depth_after {i : Item} {l : List Item} {n : Nat} (h : Item.depths (i :: l) ≤ n) : Item.depths (i.after ++ l) ≤ n := by
  simp only [Item.depths] at h
  cases i with
  | tag k j => simp only [Item.depth] at h; simpa [Item.after, Item.depths] using h
  | _ => simp only [Item.after, List.nil_append]; omega

theorem fixed_at {ind m tl i l} {v : Value} (hi : i.Fits) (hl : Item.Fitss l) (hs : i.str = none) (he : i.elems = none)
    (hv : AtL ind m tl (i :: l) v) : ∃ u, advanceInternal v = .ok u ∧ AtL ind m tl (i.after ++ l) u := by
  obtain ⟨hr, hc, hfl⟩ := hv
  -- `numAdvance` moves behind the head
  have key (t : Bytes) (n : Nat) (hn : numAdvance v = .ok (n, { v with rest := t })) (hb : v.type ≠ .bytes ∧ v.type ≠ .text)
      (ht : t = Item.encs (i.after ++ l) ++ term ind tl) (hta : v.type = .tag ↔ i.after ≠ []) :
      ∃ u, advanceInternal v = .ok u ∧ AtL ind m tl (i.after ++ l) u := by
    subst ht
    unfold advanceInternal
    rw [hn]
    simp only [R.bind_eq, R.bind]
    rw [if_neg (by rintro (h | h); exact hb.1 h; exact hb.2 h)]
    cases ha : i.after with
    | nil =>
      rw [ha] at hta
      exact next_at hl rfl ⟨hc.rem, hc.lt, hc.isMap, hc.key⟩ (fun h => hta.1 h rfl)
    | cons j k =>
      cases i with
      | tag n j' =>
        simp only [Item.after, List.cons.injEq] at ha
        obtain ⟨rfl, rfl⟩ := ha
        exact next_tag_at (by simp only [Item.Fits] at hi; exact hi.2) rfl ⟨hc.rem, hc.lt, hc.isMap, hc.key⟩
          (hta.2 (by simp [Item.after]))
      | _ => simp [Item.after] at ha
  -- an item whose first byte is followed by `k` bytes
  have plain (b : UInt8) (r : Bytes) (hr : v.rest = b :: (r ++ (Item.encs l ++ term ind tl)))
      (hk : numBytes (small b) = r.length) (hnum : ∃ n, v.num = .ok n) :
      ∃ n, numAdvance v = .ok (n, { v with rest := Item.encs l ++ term ind tl }) := by
    obtain ⟨n, hnum⟩ := hnum
    refine ⟨n, ?_⟩
    unfold numAdvance
    simp only [R.bind_eq, R.bind, hnum, hr, Value.skip]
    simp [hk]
  cases i with
  | uint n =>
    exact key _ n (numAdvance_setHead (m := 0) hi (by rw [hr]; simp [Item.encs, Item.enc]; rfl) hfl)
      (by rw [hfl]; simp [Item.flags, Value.setHead]) (by simp [Item.after]) (by rw [hfl]; simp [Item.flags, Value.setHead, Item.after])
  | nint n =>
    exact key _ n (numAdvance_setHead (m := 1) hi (by rw [hr]; simp [Item.encs, Item.enc]; rfl) hfl)
      (by rw [hfl]; simp [Item.flags, Value.setHead]) (by simp [Item.after]) (by rw [hfl]; simp [Item.flags, Value.setHead, Item.after])
  | tag n j =>
    simp only [Item.Fits] at hi
    exact key _ n (numAdvance_setHead (m := 6) hi.1 (by rw [hr]; simp [Item.encs, Item.enc]; rfl) hfl)
      (by rw [hfl]; simp [Item.flags, Value.setHead]) (by simp [Item.after, Item.encs])
      (by rw [hfl]; simp [Item.flags, Value.setHead, Item.after])
  | bool b =>
    obtain ⟨n, h⟩ := plain (if b then 0xf5 else 0xf4) [] (by rw [hr]; simp [Item.encs, Item.enc]) (by cases b <;> rfl)
      ⟨v.extra, by unfold Value.num; rw [if_neg (by rw [hfl]; simp [Item.flags])]⟩
    exact key _ n h (by rw [hfl]; simp [Item.flags]) (by simp [Item.after]) (by rw [hfl]; simp [Item.flags, Item.after])
  | null =>
    obtain ⟨n, h⟩ := plain 0xf6 [] (by rw [hr]; simp [Item.encs, Item.enc]) rfl
      ⟨v.extra, by unfold Value.num; rw [if_neg (by rw [hfl]; simp [Item.flags])]⟩
    exact key _ n h (by rw [hfl]; simp [Item.flags]) (by simp [Item.after]) (by rw [hfl]; simp [Item.flags, Item.after])
  | undef =>
    obtain ⟨n, h⟩ := plain 0xf7 [] (by rw [hr]; simp [Item.encs, Item.enc]) rfl
      ⟨v.extra, by unfold Value.num; rw [if_neg (by rw [hfl]; simp [Item.flags])]⟩
    exact key _ n h (by rw [hfl]; simp [Item.flags]) (by simp [Item.after]) (by rw [hfl]; simp [Item.flags, Item.after])
  | half k =>
    obtain ⟨n, h⟩ := plain 0xf9 (be 2 k) (by rw [hr]; simp [Item.encs, Item.enc]) (by rw [be_length]; rfl)
      ⟨v.extra, by unfold Value.num; rw [if_neg (by rw [hfl]; simp [Item.flags])]⟩
    exact key _ n h (by rw [hfl]; simp [Item.flags]) (by simp [Item.after]) (by rw [hfl]; simp [Item.flags, Item.after])
  | float k =>
    have hr' : v.rest = 0xfa :: (be 4 k ++ (Item.encs l ++ term ind tl)) := by rw [hr]; simp [Item.encs, Item.enc]
    obtain ⟨n, h⟩ := plain 0xfa (be 4 k) hr' (by rw [be_length]; rfl)
      ⟨_, by
        unfold Value.num
        rw [if_pos (by rw [hfl]; rfl), show v.is64 = false by rw [hfl]; rfl]
        unfold Value.read
        rw [hr', if_pos (by simp [be_length])]
        rfl⟩
    exact key _ n h (by rw [hfl]; simp [Item.flags]) (by simp [Item.after]) (by rw [hfl]; simp [Item.flags, Item.after])
  | double k =>
    have hr' : v.rest = 0xfb :: (be 8 k ++ (Item.encs l ++ term ind tl)) := by rw [hr]; simp [Item.encs, Item.enc]
    obtain ⟨n, h⟩ := plain 0xfb (be 8 k) hr' (by rw [be_length]; rfl)
      ⟨_, by
        unfold Value.num
        rw [if_pos (by rw [hfl]; rfl), show v.is64 = true by rw [hfl]; rfl]
        unfold Value.read
        rw [hr', if_pos (by simp [be_length])]
        rfl⟩
    exact key _ n h (by rw [hfl]; simp [Item.flags]) (by simp [Item.after]) (by rw [hfl]; simp [Item.flags, Item.after])
  | bytes _ => simp [Item.str] at hs
  | text _ => simp [Item.str] at hs
  | chunks _ _ => simp [Item.str] at hs
  | arr _ _ => simp [Item.elems] at he
  | map _ _ => simp [Item.elems] at he

theorem skipString_at {ind m tl i l s} {v : Value} (hs : i.str = some s) (hi : i.Fits) (hl : Item.Fitss l)
    (hv : AtL ind m tl (i :: l) v) : ∃ u, skipString v = .ok (s, u) ∧ AtL ind m tl l u := by
  obtain ⟨w, hw, ha⟩ := iterate_at noop_fun hs hi hl hv
  refine ⟨w, ?_, ha⟩
  unfold skipString
  rw [R.bind_eq, hw]
  rfl

/-- The kinds of items. -/
theorem kinds (i : Item) : (∃ s, i.str = some s ∧ i.elems = none) ∨ (i.str = none ∧ ∃ x, i.elems = some x) ∨
    (i.str = none ∧ i.elems = none) := by
  cases i <;> simp [Item.str, Item.elems]

theorem kind_types (i : Item) (v : Value) :
    isFixed (i.flags v).type = (i.str.isNone && i.elems.isNone) ∧ isContainer (i.flags v).type = i.elems.isSome := by
  cases i <;> (try cases ‹Bool›) <;> constructor <;> rfl

theorem after_str {i : Item} (h : i.str.isSome ∨ i.elems.isSome) : i.after = [] := by
  cases i <;> simp_all [Item.str, Item.elems, Item.after]

theorem elemLoop_at {ind m tl} {step : Value → R Value} {d : Nat}
    (hs : ∀ i l v, i.Fits → Item.Fitss l → Item.depths (i :: l) ≤ d → AtL ind m tl (i :: l) v →
      ∃ u, step v = .ok u ∧ AtL ind m tl (i.after ++ l) u) (n : Nat) (l : List Item) (v : Value) (hn : v.rest.length < n)
    (hf : Item.Fitss l) (hd : Item.depths l ≤ d) (hv : AtL ind m tl l v) :
    ∃ u, elemLoop step n v = .ok u ∧ AtL ind m tl [] u := by
  induction n generalizing l v with
  | zero => omega
  | succ n ih =>
    unfold elemLoop
    cases l with
    | nil =>
      rw [if_pos hv.2.2.1]
      exact ⟨v, rfl, hv⟩
    | cons i l =>
      have hrem := hv.2.1.rem
      rw [if_neg (by rw [hrem]; cases ind <;> simp [u32max])]
      obtain ⟨u, hu, ha⟩ := hs i l v hf.1 hf.2 hd hv
      simp only [R.bind_eq, hu, R.bind]
      refine ih (i.after ++ l) u ?_ (fits_after hf.1 hf.2) (depth_after hd) ha
      have h1 := after_length i (Item.encs l ++ term ind tl)
      have h2 : v.rest = i.enc ++ (Item.encs l ++ term ind tl) := by rw [hv.1]; simp [Item.encs]
      have h3 : u.rest = Item.encs i.after ++ (Item.encs l ++ term ind tl) := by
        cases hx : i.after ++ l with
        | nil =>
          have : i.after = [] ∧ l = [] := by simpa using hx
          rw [hx] at ha
          rw [ha.1, this.1, this.2]; simp [Item.encs]
        | cons j k =>
          have hx' := hx ▸ ha
          rw [hx'.1, ← hx, encs_append]; simp
      rw [h2] at hn
      rw [h3]
      omega

/-- Skipping one item. -/
theorem advRec_at (n : Nat) {ind m tl} (i : Item) (l : List Item) (v : Value) (hi : i.Fits) (hl : Item.Fitss l)
    (hd : Item.depths (i :: l) ≤ n ∨ i.depth ≤ n) (hv : AtL ind m tl (i :: l) v) :
    ∃ u, advRec n v = .ok u ∧ AtL ind m tl (i.after ++ l) u := by
  induction n generalizing ind m tl i l v with
  | zero =>
    have hd : i.depth ≤ 0 := by rcases hd with h | h; simp only [Item.depths] at h; omega; exact h
    obtain ⟨k1, k2⟩ := kind_types i v
    rw [← hv.2.2] at k1 k2
    unfold advRec
    rcases kinds i with ⟨s, h1, h2⟩ | ⟨h1, x, h2⟩ | ⟨h1, h2⟩
    · simp only [h1, h2] at k1 k2
      rw [if_neg (by simp [k1]), if_pos (by simp [k2])]
      obtain ⟨u, hu, ha⟩ := skipString_at h1 hi hl hv
      refine ⟨u, by simp [hu], ?_⟩
      rw [after_str (by simp [h1])]; exact ha
    · exfalso
      cases i <;> simp [Item.elems, Item.depth] at h2 hd
    · simp only [h1, h2] at k1 k2
      rw [if_pos (by simp [k1])]
      exact fixed_at hi hl h1 h2 hv
  | succ n ih =>
    have hd : i.depth ≤ n + 1 := by rcases hd with h | h; simp only [Item.depths] at h; omega; exact h
    obtain ⟨k1, k2⟩ := kind_types i v
    rw [← hv.2.2] at k1 k2
    unfold advRec
    rcases kinds i with ⟨s, h1, h2⟩ | ⟨h1, x, h2⟩ | ⟨h1, h2⟩
    · simp only [h1, h2] at k1 k2
      rw [if_neg (by simp [k1]), if_pos (by simp [k2])]
      obtain ⟨u, hu, ha⟩ := skipString_at h1 hi hl hv
      refine ⟨u, by simp [hu], ?_⟩
      rw [after_str (by simp [h1])]; exact ha
    · simp only [h1, h2] at k1 k2
      rw [if_neg (by simp [k1]), if_neg (by simp [k2])]
      obtain ⟨cind, cm, cl⟩ := x
      obtain ⟨w, hw, ha⟩ := enter_at h2 hi hv
      have hcl : Item.Fitss cl ∧ Item.depths cl ≤ n := by
        cases i <;> simp [Item.elems] at h2
        · obtain ⟨-, -, rfl⟩ := h2
          simp only [Item.Fits, Item.depth] at hi hd
          exact ⟨hi.2, by omega⟩
        · obtain ⟨-, -, rfl⟩ := h2
          simp only [Item.Fits, Item.depth, depthm_flat] at hi hd
          exact ⟨fitsm_flat hi.2, by omega⟩
      obtain ⟨u, hu, hb⟩ := elemLoop_at (fun i l v f1 f2 f3 hv => ih i l v f1 f2 (.inl f3) hv) (w.rest.length + 1) cl w
        (Nat.lt_succ_self _) hcl.1 hcl.2 ha
      obtain ⟨x, hx, hc⟩ := leave_at h2 hl hv hb
      refine ⟨x, ?_, by rw [after_str (by simp [h2])]; exact hc⟩
      simp only [R.bind_eq, hw, R.bind, hu, hx]
    · simp only [h1, h2] at k1 k2
      rw [if_pos (by simp [k1])]
      exact fixed_at hi hl h1 h2 hv

theorem AtL.ne {ind m tl i l v} (h : AtL ind m tl (i :: l) v) : v.type ≠ .invalid := by rw [h.2.2]; exact flags_ne i v

theorem AtL.pos {ind m tl i l v} (h : AtL ind m tl (i :: l) v) : v.remaining ≠ 0 := by
  rw [h.2.1.rem]; cases ind <;> simp [u32max]

theorem advance_at {ind m tl} {i : Item} {l : List Item} {v : Value} (hi : i.Fits) (hl : Item.Fitss l)
    (hd : i.depth ≤ maxRecursions) (hv : AtL ind m tl (i :: l) v) :
    ∃ u, advance v = .ok u ∧ AtL ind m tl (i.after ++ l) u := by
  unfold advance
  rw [if_neg hv.ne, if_neg hv.pos]
  exact advRec_at _ i l v hi hl (.inr hd) hv

/-- An item without its tags. -/
def Item.untag : Item → Item
  | .tag _ i => i.untag
  | i => i

theorem skipTags_at {ind m tl} (n : Nat) (i : Item) (l : List Item) (v : Value) (hn : v.rest.length < n) (hi : i.Fits)
    (hl : Item.Fitss l) (hv : AtL ind m tl (i :: l) v) :
    ∃ u, skipTags n v = .ok u ∧ AtL ind m tl (i.untag :: l) u := by
  induction n generalizing i v with
  | zero => omega
  | succ n ih =>
    unfold skipTags
    by_cases ht : v.type = .tag
    · rw [if_pos ht]
      have hx : ∃ k j, i = .tag k j := by
        rw [hv.2.2] at ht
        cases i with
        | tag k j => exact ⟨k, j, rfl⟩
        | chunks b _ => cases b <;> simp [Item.flags] at ht
        | arr b _ => cases b <;> simp [Item.flags, Value.setHead] at ht
        | map b _ => cases b <;> simp [Item.flags, Value.setHead] at ht
        | _ => simp [Item.flags, Value.setHead] at ht
      obtain ⟨k, j, rfl⟩ := hx
      obtain ⟨u, hu, ha⟩ := fixed_at hi hl rfl rfl hv
      have hadv : advanceFixed v = .ok u := by
        unfold advanceFixed
        rw [if_neg (by simp [ht, isFixed]), if_neg hv.pos, hu]
      simp only [R.bind_eq, hadv, R.bind]
      have h1 := after_length (.tag k j) (Item.encs l ++ term ind tl)
      have h2 : v.rest = (Item.tag k j).enc ++ (Item.encs l ++ term ind tl) := by rw [hv.1]; simp [Item.encs]
      have h3 : u.rest = Item.encs (Item.tag k j).after ++ (Item.encs l ++ term ind tl) := by
        rw [ha.1]; simp [Item.after, Item.encs]
      refine ih j u (by rw [h2] at hn; rw [h3]; omega) (by simp only [Item.Fits] at hi; exact hi.2) ha
    · rw [if_neg ht]
      refine ⟨v, rfl, ?_⟩
      have : i.untag = i := by
        rw [hv.2.2] at ht
        cases i <;> (try rfl)
        simp [Item.flags, Value.setHead] at ht
      rw [this]; exact hv

theorem skipTag_at {ind m tl} {i : Item} {l : List Item} {v : Value} (hi : i.Fits) (hl : Item.Fitss l)
    (hv : AtL ind m tl (i :: l) v) : ∃ u, skipTag v = .ok u ∧ AtL ind m tl (i.untag :: l) u :=
  skipTags_at _ i l v (Nat.lt_succ_self _) hi hl hv

theorem untag_fits {i : Item} (h : i.Fits) : i.untag.Fits := by
  fun_induction Item.untag i with
  | case1 n i ih => simp only [Item.Fits] at h; exact ih h.2
  | case2 i => exact h

theorem untag_depth (i : Item) : i.untag.depth = i.depth := by
  fun_induction Item.untag i with
  | case1 n i ih => rw [ih]; simp [Item.depth]
  | case2 i => rfl

theorem untag_after (i : Item) : i.untag.after = [] := by
  fun_induction Item.untag i with
  | case1 n i ih => exact ih
  | case2 i h => cases i <;> first | rfl | exact absurd rfl (h _ _)

/-! ## Looking up a key -/

/-- The content of a key which is a text string, possibly tagged or of indefinite length. -/
def Item.key : Item → Option Bytes
  | .text b => some b
  | .chunks true l => some l.flatten
  | .tag _ i => i.key
  | _ => none

/-- The value of the first entry with a key. -/
def lookup (s : Bytes) : List (Item × Item) → Option Item
  | [] => none
  | (k, v) :: l => if k.key = some s then some v else lookup s l

theorem key_untag (i : Item) : i.untag.key = i.key := by
  fun_induction Item.untag i with
  | case1 n i ih => rw [ih]; simp [Item.key]
  | case2 i => rfl

theorem key_type (i : Item) (v : Value) : ((i.untag.flags v).type = .text) ↔ i.key.isSome := by
  rw [← key_untag]
  have := untag_after i
  cases hi : i.untag with
  | chunks b l => cases b <;> simp [Item.flags, Item.key]
  | arr b l => cases b <;> simp [Item.flags, Item.key, Value.setHead]
  | map b l => cases b <;> simp [Item.flags, Item.key, Value.setHead]
  | tag n j => simp [hi, Item.after] at this
  | _ => simp [Item.flags, Item.key, Value.setHead]

theorem key_str {i : Item} {s : Bytes} (h : i.key = some s) : i.untag.str = some s := by
  rw [← key_untag] at h
  have := untag_after i
  cases hi : i.untag with
  | chunks b l => rw [hi] at h; cases b <;> simp [Item.key] at h; simp [Item.str, h]
  | text b => rw [hi] at h; simpa [Item.key, Item.str] using h
  | tag n j => simp [hi, Item.after] at this
  | _ => rw [hi] at h; simp [Item.key] at h

theorem prefix_step (key acc c : Bytes) : (acc ++ c).isPrefixOf key =
    (acc.isPrefixOf key && decide (acc.length + c.length ≤ key.length) &&
      decide (((key ++ [0]).drop acc.length).take c.length = c)) := by
  rw [Bool.eq_iff_iff]
  simp only [Bool.and_eq_true, decide_eq_true_eq, List.isPrefixOf_iff_prefix]
  constructor
  · rintro ⟨t, rfl⟩
    refine ⟨⟨⟨c ++ t, by simp⟩, by simp⟩, by simp⟩
  · rintro ⟨⟨⟨t, rfl⟩, h1⟩, h2⟩
    simp only [List.append_assoc, List.drop_left, List.length_append] at h1 h2
    rw [List.take_append_of_le_length (by omega)] at h2
    refine ⟨t.drop c.length, ?_⟩
    rw [List.append_assoc]
    congr 1
    rw [← h2, List.length_take]
    have : min c.length t.length = c.length := by omega
    rw [this, List.take_append_drop]

theorem memcmp_fun (s : Bytes) : Fun (memcmpTo s) s.length (fun a => a.isPrefixOf s)
    (fun o c => decide (((s ++ [0]).drop o).take c.length = c)) :=
  ⟨fun o c h => by unfold memcmpTo; rw [if_pos (by omega)], by simp, prefix_step s⟩

theorem memcmp_fin {s : Bytes} (hs : 0 ∉ s) (k : Bytes) : Fun.fin s.length (fun a => a.isPrefixOf s)
    (fun o c => decide (((s ++ [0]).drop o).take c.length = c)) k = decide (k = s) := by
  unfold Fun.fin
  by_cases hp : k.isPrefixOf s = true
  · obtain ⟨t, rfl⟩ := List.isPrefixOf_iff_prefix.1 hp
    cases t with
    | nil => simp
    | cons b t =>
      rw [if_pos ⟨hp, by simp⟩]
      have : b ≠ 0 := by rintro rfl; simp at hs
      simp [this]
  · rw [if_neg (fun h => hp h.1)]
    have : k ≠ s := by rintro rfl; simp at hp
    simp [this, hp]

theorem memcpy_fun {size buflen : Nat} (h : buflen ≤ size) :
    Fun (memcpyTo size) buflen (fun s => decide (s.length ≤ buflen)) (fun _ _ => true) :=
  ⟨fun o c hc => by unfold memcpyTo; rw [if_pos (by omega)], by simp, fun a c => by
    by_cases h : a.length + c.length ≤ buflen
    · simp; omega
    · simp; omega⟩

theorem memcpy_fin (buflen : Nat) (s : Bytes) :
    Fun.fin buflen (fun s => decide (s.length ≤ buflen)) (fun _ _ => true) s = decide (s.length ≤ buflen) := by
  unfold Fun.fin; split
  · rename_i h; simpa using h.1
  · rfl

/-- The value is in front of an item of some container. -/
def InFront (i : Item) (v : Value) : Prop := ∃ ind m tl l, Item.Fitss l ∧ i.Fits ∧ AtL ind m tl (i :: l) v

theorem findSkip_at {ind m tl} {i : Item} {l : List Item} {v : Value} (hi : i.Fits) (hl : Item.Fitss l)
    (hd : i.depth ≤ maxRecursions) (hv : AtL ind m tl (i :: l) v) : ∃ u, findSkip v = .ok u ∧ AtL ind m tl l u := by
  obtain ⟨w, hw, ha⟩ := skipTag_at hi hl hv
  obtain ⟨u, hu, hb⟩ := advance_at (untag_fits hi) hl (by rw [untag_depth]; exact hd) ha
  refine ⟨u, ?_, ?_⟩
  · unfold findSkip; rw [R.bind_eq, hw]; exact hu
  · rw [untag_after] at hb; exact hb

theorem AtL.rest_length {ind m tl l} {v : Value} (h : AtL ind m tl l v) :
    v.rest.length = (Item.encs l).length + (term ind tl).length := by
  cases l with
  | nil => rw [h.1]; simp [Item.encs]
  | cons i l => rw [h.1]; simp

theorem findLoop_at {s : Bytes} (hs : 0 ∉ s) {ind tl} (p : List (Item × Item)) (n : Nat) (v : Value)
    (hn : v.rest.length < n) (hf : Item.Fitsm p) (hd : Item.depthm p ≤ maxRecursions) (hv : AtL ind true tl (flat p) v) :
    ∃ o, findLoop s n v = .ok o ∧ (lookup s p = none → o = none) ∧
      (∀ i, lookup s p = some i → ∃ w, o = some w ∧ InFront i w) := by
  induction p generalizing n v with
  | nil =>
    cases n with
    | zero => omega
    | succ n =>
      unfold findLoop
      rw [if_pos hv.2.2.1]
      exact ⟨none, rfl, fun _ => rfl, fun i h => by simp [lookup] at h⟩
  | cons kv p ih =>
    obtain ⟨k, x⟩ := kv
    simp only [Item.Fitsm, Item.depthm] at hf hd
    have hfl : Item.Fitss (x :: flat p) := ⟨hf.2.1, fitsm_flat hf.2.2⟩
    simp only [flat] at hv
    cases n with
    | zero => omega
    | succ n =>
      unfold findLoop
      rw [if_neg hv.pos]
      obtain ⟨w, hw, ha⟩ := skipTag_at hf.1 hfl hv
      simp only [R.bind_eq, hw, R.bind]
      have hlen : (Item.encs (flat p)).length < (Item.encs (k :: x :: flat p)).length := by
        have := enc_pos k
        simp [Item.encs]; omega
      have hvl := hv.rest_length
      have hkt := key_type k w
      rw [← ha.2.2] at hkt
      cases hk : k.key with
      | some ks =>
        rw [hk] at hkt
        rw [if_pos (by simpa using hkt)]
        obtain ⟨u, hu, hb⟩ := iterate_at (memcmp_fun s) (key_str hk) (untag_fits hf.1) hfl ha
        rw [memcmp_fin hs] at hu
        simp only [hu]
        by_cases heq : ks = s
        · rw [if_pos (by simp [heq])]
          refine ⟨some u, ?_, fun h => ?_, fun i h => ?_⟩
          · unfold findHit
            rw [preparse_enc (i := x) hf.2.1 (t := Item.encs (flat p) ++ term ind tl) (by rw [hb.1]; simp [Item.encs]),
              ← hb.2.2]
          · simp [lookup, hk, heq] at h
          · simp only [lookup, hk, heq, if_true, Option.some.injEq] at h
            subst h
            exact ⟨u, rfl, ind, true, tl, flat p, hfl.2, hf.2.1, hb⟩
        · rw [if_neg (by simp [heq])]
          obtain ⟨y, hy, hc⟩ := findSkip_at hf.2.1 hfl.2 (by omega) hb
          simp only [hy]
          have hl : lookup s ((k, x) :: p) = lookup s p := by
            simp only [lookup, hk]; rw [if_neg (by simp [heq])]
          rw [hl]
          exact ih n y (by rw [hc.rest_length]; omega) hf.2.2 (by omega) hc
      | none =>
        rw [hk] at hkt
        rw [if_neg (by simpa using hkt)]
        obtain ⟨u, hu, hb⟩ := advance_at (untag_fits hf.1) hfl (by rw [untag_depth]; omega) ha
        rw [untag_after] at hb
        simp only [hu]
        obtain ⟨y, hy, hc⟩ := findSkip_at hf.2.1 hfl.2 (by omega) hb
        simp only [hy]
        have hl : lookup s ((k, x) :: p) = lookup s p := by
          simp only [lookup, hk]; rw [if_neg (by simp)]
        rw [hl]
        exact ih n y (by rw [hc.rest_length]; omega) hf.2.2 (by omega) hc

/-- Looking up a key in a map. -/
theorem find_at {s : Bytes} (hs : 0 ∉ s) {ind : Bool} {p : List (Item × Item)} {v : Value}
    (hd : Item.depthm p ≤ maxRecursions) (hv : InFront (.map ind p) v) :
    ∃ w, find v s = .ok w ∧ (lookup s p = none → w = Value.none) ∧ (∀ i, lookup s p = some i → InFront i w) := by
  obtain ⟨i1, m1, tl, l, hl, hi, hv⟩ := hv
  obtain ⟨w, hw, ha⟩ := enter_at rfl hi hv
  simp only [Item.Fits] at hi
  obtain ⟨o, ho, h1, h2⟩ := findLoop_at hs p (w.rest.length + 1) w (Nat.lt_succ_self _) hi.2 hd ha
  have ht : v.type = .map := by rw [hv.2.2]; cases ind <;> rfl
  cases hlk : lookup s p with
  | none =>
    refine ⟨Value.none, ?_, fun _ => rfl, fun i h => by cases h⟩
    unfold find
    rw [if_neg (by simp [ht])]
    simp only [R.bind_eq, hw, R.bind, ho, h1 hlk, R.pure_eq]
  | some i =>
    obtain ⟨u, rfl, hu⟩ := h2 i hlk
    refine ⟨u, ?_, fun h => (by cases h), fun j h => by cases h; exact hu⟩
    unfold find
    rw [if_neg (by simp [ht])]
    simp only [R.bind_eq, hw, R.bind, ho, R.pure_eq]

/-! ## The values -/

theorem parserInit_at {i : Item} (hi : i.Fits) (tl : Bytes) : ∃ v, parserInit (i.enc ++ tl) = .ok v ∧ InFront i v := by
  refine ⟨i.flags { Value.none with rest := i.enc ++ tl, remaining := 1 }, preparse_enc hi rfl,
    false, false, tl, [], trivial, hi, ?_, ?_, (flags_idem _ _).symm⟩
  · rw [flags_rest]; simp [Item.encs, term]
  · exact Ctx.flags (ind := false) (m := false) (k := 1) ⟨rfl, fun _ => (by simp [u32max]), rfl, fun h => (by cases h)⟩ i

theorem InFront.flags {i : Item} {v : Value} (h : InFront i v) : v = i.flags v := by
  obtain ⟨_, _, _, _, _, _, h⟩ := h; exact h.2.2

theorem copyString_at {size buflen : Nat} (hb : buflen ≤ size) {i : Item} {v : Value} {s : Bytes} (hs : i.str = some s)
    (hv : InFront i v) :
    (s.length ≤ buflen → ∃ w, copyString size buflen v = .ok (s, w)) ∧
    (buflen < s.length → copyString size buflen v = .err .oom) := by
  obtain ⟨ind, m, tl, l, hl, hi, hv⟩ := hv
  obtain ⟨w, hw, -⟩ := iterate_at (memcpy_fun hb) hs hi hl hv
  rw [memcpy_fin] at hw
  constructor
  · intro h
    refine ⟨w, ?_⟩
    unfold copyString
    rw [R.bind_eq, hw]
    simp [h]
  · intro h
    unfold copyString
    rw [R.bind_eq, hw]
    simp [show ¬ s.length ≤ buflen by omega]

theorem calcLength_at {i : Item} {v : Value} {s : Bytes} (hs : i.str = some s) (hv : InFront i v) :
    calcLength v = .ok s.length := by
  obtain ⟨ind, m, tl, l, hl, hi, hv⟩ := hv
  obtain ⟨w, hw, -⟩ := skipString_at hs hi hl hv
  unfold calcLength
  rw [R.bind_eq, hw]
  rfl

theorem num_at {i : Item} {v : Value} {n : Nat} (hi : i = .uint n ∨ i = .nint n) (hv : InFront i v) : v.num = .ok n := by
  obtain ⟨ind, m, tl, l, hl, hf, hv⟩ := hv
  rcases hi with rfl | rfl
  · exact num_setHead (m := 0) hf (by rw [hv.1]; simp [Item.encs, Item.enc]; rfl) hv.2.2
  · exact num_setHead (m := 1) hf (by rw [hv.1]; simp [Item.encs, Item.enc]; rfl) hv.2.2

theorem length_at {i : Item} {v : Value} {s : Bytes} (hi : i = .bytes s ∨ i = .text s) (hv : InFront i v) :
    stringLength v = .ok s.length := by
  obtain ⟨ind, m, tl, l, hl, hf, hv⟩ := hv
  unfold stringLength
  rcases hi with rfl | rfl
  · rw [if_neg (by rw [hv.2.2]; simp [Item.flags, Value.setHead]), if_neg (by rw [hv.2.2]; simp [Item.flags, Value.setHead])]
    exact num_setHead (m := 2) hf (by rw [hv.1]; simp [Item.encs, Item.enc]; rfl) hv.2.2
  · rw [if_neg (by rw [hv.2.2]; simp [Item.flags, Value.setHead]), if_neg (by rw [hv.2.2]; simp [Item.flags, Value.setHead])]
    exact num_setHead (m := 3) hf (by rw [hv.1]; simp [Item.encs, Item.enc]; rfl) hv.2.2

end Verif.Cbor
