import Verif.Cbor.Skip
import Verif.Cbor.Write

/-!
# Reading a whole document with the functions of tinycbor

`readItem` is a client of the parser, written for the specification of the round trip: it reads one item with the public
functions of the parser. The second part has the lemmas about it.
-/

namespace Verif.Cbor

/-- Read the elements of a container which has been entered. -/
def readElems (rd : Value → R Item) : Nat → Value → R (List Item)
  | 0, _ => .ub
  | n + 1, v =>
    if v.remaining = 0 then .ok []
    else do
      let i ← rd v
      let v ← advance v
      let l ← readElems rd n v
      pure (i :: l)

/-- The entries of a map from its elements. -/
def pairs : List Item → List (Item × Item)
  | k :: v :: l => (k, v) :: pairs l
  | _ => []

/-- Read an item with at most `d` levels of nesting. -/
def readItem : Nat → Value → R Item
  | d, v =>
    match v.type with
    | .int => do
      let n ← v.num
      pure (if v.bit4 then .nint n else .uint n)
    | .bytes => do
      let n ← calcLength v
      pure (.bytes (← copyBytes n n v))
    | .text => do
      let n ← calcLength v
      pure (.text (← copyText n n v))
    | .bool => do pure (.bool (← getBool v))
    | .null => .ok .null
    | .arr =>
      match d with
      | 0 => .err .tooDeep
      | d + 1 => do
        let w ← enter v
        pure (.arr v.unknown (← readElems (readItem d) (w.rest.length + 1) w))
    | .map =>
      match d with
      | 0 => .err .tooDeep
      | d + 1 => do
        let w ← enter v
        pure (.map v.unknown (pairs (← readElems (readItem d) (w.rest.length + 1) w)))
    | _ => .err .unknownType

theorem pairs_flat (l : List (Item × Item)) : pairs (flat l) = l := by
  induction l with
  | nil => rfl
  | cons p l ih => obtain ⟨k, v⟩ := p; simp [flat, pairs, ih]

theorem plainm_flat {l : List (Item × Item)} (h : Item.Plainm l) : Item.Plains (flat l) := by
  induction l with
  | nil => trivial
  | cons p l ih => obtain ⟨k, v⟩ := p; simp only [Item.Plainm] at h; exact ⟨h.1, h.2.1, ih h.2.2⟩

theorem plain_after {i : Item} (h : i.Plain) : i.after = [] := by
  cases i <;> first | rfl | simp [Item.Plain] at h

theorem readElems_at {ind m tl} {rd : Value → R Item} {d : Nat} (hd : d ≤ maxRecursions) (l : List Item)
    (hrd : ∀ i v, i.Plain → i.depth ≤ d → InFront i v → rd v = .ok i) (n : Nat) (v : Value)
    (hn : v.rest.length < n) (hp : Item.Plains l) (hl : Item.depths l ≤ d) (hv : AtL ind m tl l v) :
    readElems rd n v = .ok l := by
  induction l generalizing n v with
  | nil =>
    cases n with
    | zero => omega
    | succ n =>
      unfold readElems
      rw [if_pos hv.2.2.1]
  | cons i l ih =>
    cases n with
    | zero => omega
    | succ n =>
      simp only [Item.Plains, Item.depths] at hp hl
      have hf := plain_fits i hp.1
      have hfs := plains_fits l hp.2
      obtain ⟨u, hu, ha⟩ := advance_at hf hfs (by omega) hv
      rw [plain_after hp.1] at ha
      have h1 := hrd i v hp.1 (by omega) ⟨ind, m, tl, l, hfs, hf, hv⟩
      have hlen : u.rest.length < v.rest.length := by
        rw [hv.rest_length, AtL.rest_length ha]
        have := enc_pos i
        simp [Item.encs]; omega
      have h2 := ih n u (by omega) hp.2 (by omega) ha
      unfold readElems
      rw [if_neg hv.pos]
      simp only [R.bind_eq, h1, R.bind, hu, h2, R.pure_eq]

theorem readItem_at (d : Nat) (hd : d ≤ maxRecursions) (i : Item) (v : Value) (hp : i.Plain) (hi : i.depth ≤ d)
    (hv : InFront i v) : readItem d v = .ok i := by
  induction d generalizing i v with
  | zero =>
    have hfl := hv.flags
    unfold readItem
    cases i with
    | uint n =>
      rw [show v.type = .int by rw [hfl]; rfl]
      simp only [R.bind_eq, num_at (.inl rfl) hv, R.bind, show v.bit4 = false by rw [hfl]; rfl]; rfl
    | nint n =>
      rw [show v.type = .int by rw [hfl]; rfl]
      simp only [R.bind_eq, num_at (.inr rfl) hv, R.bind, show v.bit4 = true by rw [hfl]; rfl]; rfl
    | bytes b =>
      have ht : v.type = .bytes := by rw [hfl]; rfl
      obtain ⟨w, hw⟩ := (copyString_at (Nat.le_refl b.length) (i := .bytes b) rfl hv).1 (Nat.le_refl _)
      rw [ht]
      simp [calcLength_at (i := .bytes b) rfl hv, copyBytes, ht, hw]
    | text b =>
      have ht : v.type = .text := by rw [hfl]; rfl
      obtain ⟨w, hw⟩ := (copyString_at (Nat.le_refl b.length) (i := .text b) rfl hv).1 (Nat.le_refl _)
      rw [ht]
      simp [calcLength_at (i := .text b) rfl hv, copyText, ht, hw]
    | bool b =>
      have ht : v.type = .bool := by rw [hfl]; rfl
      have he : v.extra = if b then 21 else 0 := by rw [hfl]; rfl
      rw [ht]
      cases b <;> simp [getBool, ht, he]
    | null => rw [show v.type = .null by rw [hfl]; rfl]
    | arr b l => simp [Item.depth] at hi
    | map b l => simp [Item.depth] at hi
    | _ => simp [Item.Plain] at hp
  | succ d ih =>
    have hfl := hv.flags
    unfold readItem
    cases i with
    | uint n =>
      rw [show v.type = .int by rw [hfl]; rfl]
      simp only [R.bind_eq, num_at (.inl rfl) hv, R.bind, show v.bit4 = false by rw [hfl]; rfl]; rfl
    | nint n =>
      rw [show v.type = .int by rw [hfl]; rfl]
      simp only [R.bind_eq, num_at (.inr rfl) hv, R.bind, show v.bit4 = true by rw [hfl]; rfl]; rfl
    | bytes b =>
      have ht : v.type = .bytes := by rw [hfl]; rfl
      obtain ⟨w, hw⟩ := (copyString_at (Nat.le_refl b.length) (i := .bytes b) rfl hv).1 (Nat.le_refl _)
      rw [ht]
      simp [calcLength_at (i := .bytes b) rfl hv, copyBytes, ht, hw]
    | text b =>
      have ht : v.type = .text := by rw [hfl]; rfl
      obtain ⟨w, hw⟩ := (copyString_at (Nat.le_refl b.length) (i := .text b) rfl hv).1 (Nat.le_refl _)
      rw [ht]
      simp [calcLength_at (i := .text b) rfl hv, copyText, ht, hw]
    | bool b =>
      have ht : v.type = .bool := by rw [hfl]; rfl
      have he : v.extra = if b then 21 else 0 := by rw [hfl]; rfl
      rw [ht]
      cases b <;> simp [getBool, ht, he]
    | null => rw [show v.type = .null by rw [hfl]; rfl]
    | arr b l =>
      simp only [Item.Plain, Item.depth] at hp hi
      have ht : v.type = .arr := by rw [hfl]; cases b <;> rfl
      have hu : v.unknown = b := by rw [hfl]; cases b <;> rfl
      obtain ⟨ind, m, tl, k, hk, hf, hv⟩ := hv
      obtain ⟨w, hw, ha⟩ := enter_at rfl hf hv
      have hr := readElems_at (by omega) l (fun i v h1 h2 h3 => ih (by omega) i v h1 h2 h3) (w.rest.length + 1) w
        (Nat.lt_succ_self _) hp.2 (by omega) ha
      rw [ht]
      simp only [R.bind_eq, hw, R.bind, hr, hu, R.pure_eq]
    | map b l =>
      simp only [Item.Plain, Item.depth, depthm_flat] at hp hi
      have ht : v.type = .map := by rw [hfl]; cases b <;> rfl
      have hu : v.unknown = b := by rw [hfl]; cases b <;> rfl
      obtain ⟨ind, m, tl, k, hk, hf, hv⟩ := hv
      obtain ⟨w, hw, ha⟩ := enter_at rfl hf hv
      have hr := readElems_at (by omega) (flat l) (fun i v h1 h2 h3 => ih (by omega) i v h1 h2 h3) (w.rest.length + 1) w
        (Nat.lt_succ_self _) (plainm_flat hp.2) (by omega) ha
      rw [ht]
      simp only [R.bind_eq, hw, R.bind, hr, hu, R.pure_eq, pairs_flat]
    | _ => simp [Item.Plain] at hp

end Verif.Cbor
