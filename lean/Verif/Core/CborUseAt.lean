import Verif.Core.CborUseSpec
import Verif.Core.CborUseLemmas

/-!
# Decoding of well formed CBOR payloads: lemmas
-/

namespace Verif.Core.CborUse
open Verif.Cbor

/-- All allocations succeed. -/
def allMem : Mem := fun _ => true

theorem opt_of_ok {α : Type} (a : α) : R.opt (.ok a) = .ok (some a) := rfl

theorem opt_ok {α β : Type} {x : R α} {a : α} (h : x = .ok a) (f : α → R β) : R.opt (x >>= f) = R.opt (f a) := by
  rw [h]; rfl

theorem opt_some {α β : Type} {x : R α} {a : α} (h : R.opt x = .ok (some a)) (f : α → R β) :
    R.opt (x >>= f) = R.opt (f a) := by
  cases x with
  | ok b => cases h; rfl
  | err e => cases h
  | ub => cases h

theorem opt_none {α β : Type} {x : R α} (h : R.opt x = .ok none) (f : α → R β) : R.opt (x >>= f) = .ok none := by
  cases x with
  | ok b => cases h
  | err e => rfl
  | ub => cases h

theorem of_opt_some {α : Type} {x : R α} {a : α} (h : R.opt x = .ok (some a)) : x = .ok a := by
  cases x with
  | ok b => cases h; rfl
  | err e => cases h
  | ub => cases h

theorem of_opt_none {α : Type} {x : R α} (h : R.opt x = .ok none) : ∃ e, x = .err e := by
  cases x with
  | ok b => cases h
  | err e => exact ⟨e, rfl⟩
  | ub => cases h

/-- The type of an item. -/
def ity : Item → Ty
  | .uint _ => .int
  | .nint _ => .int
  | .bytes _ => .bytes
  | .text _ => .text
  | .chunks t _ => if t then .text else .bytes
  | .arr _ _ => .arr
  | .map _ _ => .map
  | .tag _ _ => .tag
  | .bool _ => .bool
  | .null => .null
  | .undef => .undef
  | .half _ => .half
  | .float _ => .float
  | .double _ => .double

theorem type_at {i : Item} {v : Value} (h : InFront i v) : v.type = ity i := by
  rw [h.flags]
  cases i <;> (try cases ‹Bool›) <;> rfl

/-- A field as it is found. -/
def Sees (o : Option Item) (w : Value) : Prop :=
  match o with
  | none => w = Value.none
  | some i => InFront i w

theorem find_see {s : Bytes} (hs : 0 ∉ s) {ind : Bool} {p : List (Item × Item)} {v : Value}
    (hd : Item.depthm p ≤ 1024) (hv : InFront (.map ind p) v) : ∃ w, find v s = .ok w ∧ Sees (lookup s p) w := by
  obtain ⟨w, h1, h2, h3⟩ := find_at hs hd hv
  refine ⟨w, h1, ?_⟩
  cases hl : lookup s p with
  | none => exact h2 hl
  | some i => exact h3 i hl

theorem lookup_depth {s : Bytes} {p : List (Item × Item)} {i : Item} (h : lookup s p = some i) :
    i.depth ≤ Item.depthm p := by
  induction p with
  | nil => cases h
  | cons kv p ih =>
    obtain ⟨k, v⟩ := kv
    simp only [lookup] at h
    simp only [Item.depthm]
    split at h
    · cases h; omega
    · have := ih h; omega

theorem see_text {o : Option Item} {w : Value} (h : Sees o w) : w.type = .text ↔ (o.bind Spec.text).isSome := by
  cases o with
  | none => cases h; simp [Value.none]
  | some i => rw [type_at h]; cases i <;> simp [ity, Spec.text] <;> (cases ‹Bool› <;> simp)

theorem see_bytes {o : Option Item} {w : Value} (h : Sees o w) : w.type = .bytes ↔ (o.bind Spec.bytes).isSome := by
  cases o with
  | none => cases h; simp [Value.none]
  | some i => rw [type_at h]; cases i <;> simp [ity, Spec.bytes] <;> (cases ‹Bool› <;> simp)

theorem text_str {i : Item} {s : Bytes} (h : Spec.text i = some s) : i.str = some s := by
  cases i <;> simp [Spec.text] at h <;> (try (cases ‹Bool› <;> simp at h)) <;> simp [Item.str, h]

theorem bytes_str {i : Item} {s : Bytes} (h : Spec.bytes i = some s) : i.str = some s := by
  cases i <;> simp [Spec.bytes] at h <;> (try (cases ‹Bool› <;> simp at h)) <;> simp [Item.str, h]

theorem copyText_at {i : Item} {v : Value} {s : Bytes} (h : Spec.text i = some s) (hv : InFront i v) (size buflen : Nat)
    (h1 : s.length ≤ buflen) (h2 : buflen ≤ size) : copyText size buflen v = .ok s := by
  have ht : v.type = .text := (see_text (o := some i) hv).2 (by simp [h])
  obtain ⟨w, hw⟩ := (copyString_at h2 (text_str h) hv).1 h1
  unfold copyText
  rw [if_neg (by simp [ht]), R.bind_eq, hw]; rfl

theorem copyBytes_at {i : Item} {v : Value} {s : Bytes} (h : Spec.bytes i = some s) (hv : InFront i v) (size buflen : Nat)
    (h1 : s.length ≤ buflen) (h2 : buflen ≤ size) : copyBytes size buflen v = .ok s := by
  have ht : v.type = .bytes := (see_bytes (o := some i) hv).2 (by simp [h])
  obtain ⟨w, hw⟩ := (copyString_at h2 (bytes_str h) hv).1 h1
  unfold copyBytes
  rw [if_neg (by simp [ht]), R.bind_eq, hw]; rfl

theorem copyTextString_see {o : Option Item} {w : Value} (h : Sees o w) (n : Nat) :
    R.opt (copyTextString allMem n w) = .ok ((o.bind Spec.text).filter (·.length ≤ n)) := by
  have ht := see_text h
  unfold copyTextString
  cases hb : o.bind Spec.text with
  | none => rw [if_pos (by rw [hb] at ht; simpa using ht)]; rfl
  | some s =>
    rw [if_neg (by rw [hb] at ht; simpa using ht)]
    obtain ⟨i, rfl, hi⟩ := Option.bind_eq_some_iff.1 hb
    have h : InFront i w := h
    rw [opt_ok (calcLength_at (text_str hi) h)]
    by_cases hl : s.length ≤ n
    · rw [if_neg (by omega), if_neg (by simp [allMem]), copyText_at hi h _ _ (by omega) (by omega)]
      simp [R.opt, hl, Option.filter]
    · rw [if_pos (by omega)]
      simp [R.opt, fail, hl, Option.filter]

theorem copyByteString_see {o : Option Item} {w : Value} (h : Sees o w) (n : Nat) :
    R.opt (copyByteString allMem n w) = .ok ((o.bind Spec.bytes).filter (·.length ≤ n)) := by
  have ht := see_bytes h
  unfold copyByteString
  cases hb : o.bind Spec.bytes with
  | none => rw [if_pos (by rw [hb] at ht; simpa using ht)]; rfl
  | some s =>
    rw [if_neg (by rw [hb] at ht; simpa using ht)]
    obtain ⟨i, rfl, hi⟩ := Option.bind_eq_some_iff.1 hb
    have h : InFront i w := h
    rw [opt_ok (calcLength_at (bytes_str hi) h)]
    by_cases hl : s.length ≤ n
    · rw [if_neg (by omega), if_neg (by simp [allMem]), copyBytes_at hi h _ _ (by omega) (by omega)]
      simp [R.opt, hl, Option.filter]
    · rw [if_pos (by omega)]
      simp [R.opt, fail, hl, Option.filter]

theorem see_uint {o : Option Item} {w : Value} (h : Sees o w) : isUint w = (o.bind Spec.uint).isSome := by
  cases o with
  | none => cases h; simp [Value.none, isUint]
  | some i =>
    have ht := type_at h
    cases i with
    | uint n =>
      have : w.bit4 = false := by rw [InFront.flags h]; rfl
      simp [isUint, ht, ity, this, Spec.uint]
    | nint n =>
      have : w.bit4 = true := by rw [InFront.flags h]; rfl
      simp [isUint, this, Spec.uint]
    | chunks b l => cases b <;> simp [isUint, ht, ity, Spec.uint]
    | _ => simp [isUint, ht, ity, Spec.uint]

theorem getUint64_see {o : Option Item} {w : Value} (h : Sees o w) {n : Nat} (hn : o.bind Spec.uint = some n) :
    getUint64 w = .ok n := by
  have hu := see_uint h
  rw [hn] at hu
  obtain ⟨i, rfl, hi⟩ := Option.bind_eq_some_iff.1 hn
  unfold getUint64
  rw [hu]
  cases i <;> simp [Spec.uint] at hi
  exact num_at (.inl rfl) (hi ▸ h)

theorem see_int {o : Option Item} {w : Value} (h : Sees o w) : w.type = .int ↔ (o.bind Spec.int).isSome := by
  cases o with
  | none => cases h; simp [Value.none]
  | some i =>
    rw [type_at h]
    cases i with
    | chunks b l => cases b <;> simp [ity, Spec.int]
    | _ => simp [ity, Spec.int]

theorem getInt_see {o : Option Item} {w : Value} (h : Sees o w) {z : Int} (hz : o.bind Spec.int = some z)
    (hs : -2 ^ 31 ≤ z ∧ z < 2 ^ 31) : getInt w = .ok z := by
  have ht := (see_int h).2 (by simp [hz])
  obtain ⟨i, rfl, hi⟩ := Option.bind_eq_some_iff.1 hz
  have h : InFront i w := h
  have hfl := h.flags
  unfold getInt
  rw [if_neg (by simp [ht])]
  cases i <;> simp [Spec.int] at hi
  · rename_i n _
    have hb : w.bit4 = false := by rw [hfl]; rfl
    simp only [R.bind_eq, num_at (.inl rfl) h, R.bind, hb]
    have ht : toInt n = n := by unfold toInt; rw [Nat.mod_eq_of_lt (by omega), if_pos (by omega)]
    rw [ht, ← hi]; rfl
  · rename_i n _
    have hb : w.bit4 = true := by rw [hfl]; rfl
    simp only [R.bind_eq, num_at (.inr rfl) h, R.bind, hb, if_true]
    have ht : toInt n = n := by unfold toInt; rw [Nat.mod_eq_of_lt (by omega), if_pos (by omega)]
    rw [ht, if_neg (by omega), ← hi]
    simp; omega

/-! ## Password authentication -/

theorem credentials_at {ind : Bool} {p : List (Item × Item)} (hf : (Item.map ind p).Fits)
    (hd : (Item.map ind p).depth ≤ 1025) (tl : Bytes) :
    R.opt (readUsernameAndPassword allMem ((Item.map ind p).enc ++ tl)) = .ok (Spec.credentials (.map ind p)) := by
  simp only [Item.depth] at hd
  obtain ⟨v, hv, hi⟩ := parserInit_at hf tl
  obtain ⟨u, hu, su⟩ := find_see (s := key "Username") (by decide) (by omega) hi
  obtain ⟨t, ht, st⟩ := find_see (s := key "T") (by decide) (by omega) hi
  unfold readUsernameAndPassword
  rw [opt_ok hv, opt_ok hu, opt_ok ht]
  have h1 := copyTextString_see su 4096
  have h2 := copyByteString_see st 256
  unfold Spec.credentials Spec.textField Spec.bytesField Spec.field
  generalize (Option.bind (lookup (key "Username") p) Spec.text).filter (·.length ≤ 4096) = a at h1
  generalize (Option.bind (lookup (key "T") p) Spec.bytes).filter (·.length ≤ 256) = b at h2
  cases a with
  | none => rw [opt_none h1]
  | some a =>
    rw [opt_some h1]
    cases b with
    | none => rw [opt_none h2]
    | some b => rw [opt_some h2]; rfl

/-! ## Rendezvous -/

theorem endpoint_at {i : Item} {v : Value} (hd : i.depth ≤ 1025) (hv : InFront i v) :
    R.opt (rendezvousEp v) = .ok (Spec.endpoint i) := by
  unfold rendezvousEp
  have ht := type_at hv
  cases i with
  | map ind p =>
    simp only [Item.depth] at hd
    rw [if_neg (by simp [ht, ity])]
    obtain ⟨u, hu, su⟩ := find_see (s := key "Ip") (by decide) (by omega) hv
    obtain ⟨t, ht, st⟩ := find_see (s := key "Port") (by decide) (by omega) hv
    rw [opt_ok hu, opt_ok ht]
    unfold Spec.endpoint Spec.field
    simp only
    generalize lookup (key "Ip") p = a at su
    generalize lookup (key "Port") p = b at st
    have h1 := see_bytes su
    have h2 := see_uint st
    by_cases ha : u.type = .bytes
    · rw [if_neg (by simp [ha])]
      rw [ha] at h1; simp only [true_iff] at h1
      obtain ⟨x, hx⟩ := Option.isSome_iff_exists.1 h1
      obtain ⟨i, rfl, hi⟩ := Option.bind_eq_some_iff.1 hx
      by_cases hb : isUint t = true
      · rw [if_neg (by simp [hb])]
        obtain ⟨n, hn⟩ := Option.isSome_iff_exists.1 (h2 ▸ hb)
        rw [opt_ok (getUint64_see st hn)]
        obtain ⟨j, rfl, hj⟩ := Option.bind_eq_some_iff.1 hn
        cases j <;> simp [Spec.uint] at hj
        subst hj
        have su : InFront i u := su
        cases i with
        | bytes s =>
          have hi : Spec.bytes (.bytes s) = some s := rfl
          rw [opt_ok (length_at (.inl rfl) su)]
          by_cases h4 : s.length = 4
          · rw [if_pos h4, opt_ok (copyBytes_at hi su _ _ (by omega) (by omega))]
            simp [R.opt, h4]
          · rw [if_neg h4]
            by_cases h16 : s.length = 16
            · rw [if_pos h16, opt_ok (copyBytes_at hi su _ _ (by omega) (by omega))]
              simp [R.opt, h16]
            · rw [if_neg h16]
              simp [R.opt, h4, h16]
        | chunks b l =>
          have : stringLength u = .err .unknownLength := by
            unfold stringLength
            have hu : u.unknown = true := by rw [InFront.flags su]; rfl
            rw [if_neg (by simp [ha]), if_pos hu]
          rw [opt_none (by rw [this]; rfl)]
        | _ => simp [Spec.bytes] at hi
      · rw [if_pos (by simpa using hb)]
        have : b.bind Spec.uint = none := by
          cases hn : b.bind Spec.uint with
          | none => rfl
          | some _ => rw [hn] at h2; exact absurd h2 hb
        cases b with
        | none => cases i <;> rfl
        | some j => cases j <;> first | (cases i <;> rfl) | (simp [Spec.uint] at this)
    · rw [if_pos ha]
      cases a with
      | none => rfl
      | some i => cases i <;> first | rfl | (exact absurd (h1.2 (by simp [Spec.bytes])) ha)
  | chunks b l => cases b <;> (rw [if_pos (by simp [ht, ity])]; rfl)
  | _ => rw [if_pos (by simp [ht, ity])]; rfl

theorem at_lt {ind m tl} {i : Item} {l : List Item} {v w : Value} (hv : AtL ind m tl (i :: l) v) (hw : AtL ind m tl l w) :
    w.rest.length < v.rest.length := by
  rw [hv.rest_length, hw.rest_length]
  have := enc_pos i
  simp only [Item.encs, List.length_append]
  omega

/-- Going to the next element of an array. -/
theorem advance_see {ind m tl} {i : Item} {l : List Item} {v : Value} (hi : i.Fits) (hl : Item.Fitss l)
    (hd : i.depth ≤ 1024) (ht : i.after = []) (hv : AtL ind m tl (i :: l) v) :
    ∃ w, advance v = .ok w ∧ AtL ind m tl l w ∧ w.rest.length < v.rest.length := by
  obtain ⟨w, hw, ha⟩ := advance_at hi hl (by simpa only [maxRecursions] using hd) hv
  rw [ht] at ha
  exact ⟨w, hw, ha, at_lt hv ha⟩

theorem endpoints_at {ind tl} (l : List Item) (n : Nat) (v : Value) (sent : List (Bytes × Nat)) (hn : v.rest.length < n)
    (hf : Item.Fitss l) (hd : Item.depths l ≤ 1024) (hv : AtL ind false tl l v) :
    ∃ o, rendezvousLoop n v sent = .ok (sent ++ (Spec.endpoints l).1, o) ∧
      if (Spec.endpoints l).2 then ∃ w, o = some w ∧ AtL ind false tl [] w else o = none := by
  induction l generalizing n v sent with
  | nil =>
    cases n with
    | zero => omega
    | succ n =>
      refine ⟨some v, ?_, by simp [Spec.endpoints, hv]⟩
      unfold rendezvousLoop
      rw [if_pos hv.2.2.1]; simp [Spec.endpoints]
  | cons i l ih =>
    cases n with
    | zero => omega
    | succ n =>
      simp only [Item.depths] at hd
      simp only [Item.Fitss] at hf
      have he := endpoint_at (i := i) (v := v) (by omega) ⟨_, _, _, l, hf.2, hf.1, hv⟩
      unfold rendezvousLoop
      rw [if_neg hv.pos, he]
      simp only [R.bind_eq, R.bind]
      cases ho : Spec.endpoint i with
      | none => exact ⟨none, by simp [Spec.endpoints, ho], by simp [Spec.endpoints, ho]⟩
      | some o =>
        have ht : i.after = [] := by
          cases i <;> first | rfl | (simp [Spec.endpoint, Spec.field] at ho)
        obtain ⟨w, hw, ha, hlt⟩ := advance_see hf.1 hf.2 (by omega) ht hv
        obtain ⟨q, h1, h2⟩ := ih n w (sent ++ o.toList) (by omega) hf.2 (by omega) ha
        refine ⟨q, ?_, ?_⟩
        · simp only [hw, R.opt, h1, Spec.endpoints, ho, List.append_assoc]
        · simpa [Spec.endpoints, ho] using h2

theorem rendezvous_at {i : Item} (hf : i.Fits) (hd : i.depth ≤ 1025) (tl : Bytes) :
    rendezvousPayload (i.enc ++ tl) = .ok (Spec.rendezvous i) := by
  obtain ⟨v, hv, ind, m, tl', l, hl, hi, ha⟩ := parserInit_at hf tl
  unfold rendezvousPayload
  rw [hv]
  simp only [R.bind_eq, R.bind, R.opt]
  have ht : v.type = ity i := type_at ⟨ind, m, tl', l, hl, hi, ha⟩
  cases i with
  | arr cind cl =>
    rw [if_neg (by simp [ht, ity])]
    obtain ⟨w, hw, hwa⟩ := enter_at (i := .arr cind cl) rfl hf ha
    simp only [Item.depth] at hd
    obtain ⟨o, h1, h2⟩ := endpoints_at cl _ w [] (Nat.lt_succ_self _) hi.2 (by omega) hwa
    simp only [hw, h1, Spec.rendezvous, List.nil_append]
    cases hb : (Spec.endpoints cl).2 with
    | false =>
      rw [hb] at h2
      simp only [Bool.false_eq_true, if_false] at h2
      subst h2
      simp [← hb]
    | true =>
      rw [hb] at h2
      simp only [if_true] at h2
      obtain ⟨u, rfl, hu⟩ := h2
      obtain ⟨x, hx, -⟩ := leave_at (i := .arr cind cl) rfl hl ha hu
      simp [hx, ← hb]
  | chunks b l => cases b <;> (rw [if_pos (by simp [ht, ity])]; rfl)
  | _ => rw [if_pos (by simp [ht, ity])]; rfl

/-! ## Attach -/

theorem map_or (i : Item) : (∃ ind p, i = .map ind p) ∨ (ity i ≠ .map ∧ ∀ s, Spec.field s i = none) := by
  cases i with
  | map ind p => exact .inl ⟨ind, p, rfl⟩
  | chunks b l => cases b <;> exact .inr ⟨by simp [ity], fun _ => rfl⟩
  | _ => exact .inr ⟨by simp [ity], fun _ => rfl⟩

theorem keepAlive_at {ind : Bool} {p : List (Item × Item)} {v : Value} (hd : Item.depthm p ≤ 1024)
    (hv : InFront (.map ind p) v) :
    ∃ o, R.opt (attachedKeepAlive v) = .ok o ∧
      o.map (fun (i, ri, mr) => (i % 2 ^ 32, ri % 2 ^ 32, mr % 2 ^ 32)) = Spec.keepAlive (.map ind p) := by
  obtain ⟨u, hu, su⟩ := find_see (s := key "KeepAlive") (by decide) hd hv
  unfold attachedKeepAlive Spec.keepAlive
  rw [opt_ok hu]
  cases hl : lookup (key "KeepAlive") p with
  | none =>
    rw [hl] at su
    have su : u = Value.none := su
    rw [if_pos (by rw [su]; simp [Value.none])]
    exact ⟨none, rfl, by simp [Spec.field, hl]⟩
  | some k =>
    rw [hl] at su
    have su : InFront k u := su
    simp only [Spec.field, hl]
    rcases map_or k with ⟨kind, kp, rfl⟩ | ⟨h1, h2⟩
    · rw [if_neg (by simp [type_at su, ity])]
      have hk := lookup_depth hl
      simp only [Item.depth] at hk
      obtain ⟨a, fa, sa⟩ := find_see (s := key "Interval") (by decide) (by omega) su
      obtain ⟨b, fb, sb⟩ := find_see (s := key "RetryInterval") (by decide) (by omega) su
      obtain ⟨c, fc, sc⟩ := find_see (s := key "MaxRetries") (by decide) (by omega) su
      rw [opt_ok fa, opt_ok fb, opt_ok fc]
      have ha := see_uint sa
      have hb := see_uint sb
      have hc := see_uint sc
      simp only [Spec.uintField, Spec.field]
      cases ea : (lookup (key "Interval") kp).bind Spec.uint with
      | none => rw [ea] at ha; rw [if_pos (by simp [ha])]; exact ⟨none, rfl, rfl⟩
      | some x =>
        rw [ea] at ha
        rw [if_neg (by simp [ha])]
        cases eb : (lookup (key "RetryInterval") kp).bind Spec.uint with
        | none => rw [eb] at hb; rw [if_pos (by simp [hb])]; exact ⟨none, rfl, rfl⟩
        | some y =>
          rw [eb] at hb
          rw [if_neg (by simp [hb])]
          cases ec : (lookup (key "MaxRetries") kp).bind Spec.uint with
          | none => rw [ec] at hc; rw [if_pos (by simp [hc])]; exact ⟨none, rfl, rfl⟩
          | some z =>
            rw [ec] at hc
            rw [if_neg (by simp [hc]), opt_ok (getUint64_see sa ea), opt_ok (getUint64_see sb eb),
              opt_ok (getUint64_see sc ec)]
            exact ⟨_, rfl, rfl⟩
    · rw [if_pos (by rw [type_at su]; exact h1)]
      simp only [Spec.uintField, h2]
      exact ⟨none, rfl, rfl⟩

theorem stun_at {ind : Bool} {p : List (Item × Item)} {v : Value} (hd : Item.depthm p ≤ 1024)
    (hv : InFront (.map ind p) v) : R.opt (attachedStun allMem v) = .ok (Spec.stun (.map ind p)) := by
  obtain ⟨u, hu, su⟩ := find_see (s := key "Stun") (by decide) hd hv
  unfold attachedStun Spec.stun
  rw [opt_ok hu]
  cases hl : lookup (key "Stun") p with
  | none =>
    rw [hl] at su
    have su : u = Value.none := su
    rw [if_pos (by rw [su]; simp [Value.none])]
    simp [Spec.field, hl, R.opt, fail]
  | some k =>
    rw [hl] at su
    have su : InFront k u := su
    simp only [Spec.field, hl]
    rcases map_or k with ⟨kind, kp, rfl⟩ | ⟨h1, h2⟩
    · rw [if_neg (by simp [type_at su, ity])]
      have hk := lookup_depth hl
      simp only [Item.depth] at hk
      obtain ⟨a, fa, sa⟩ := find_see (s := key "Host") (by decide) (by omega) su
      obtain ⟨b, fb, sb⟩ := find_see (s := key "Port") (by decide) (by omega) su
      rw [opt_ok fa, opt_ok fb]
      have ha := see_text sa
      have hb := see_uint sb
      simp only [Spec.uintField, Spec.textField, Spec.field]
      cases ea : (lookup (key "Host") kp).bind Spec.text with
      | none => rw [ea] at ha; rw [if_pos (by simpa using ha)]; rfl
      | some x =>
        rw [ea] at ha
        rw [if_neg (by simpa using ha)]
        obtain ⟨i, hi, hx⟩ := Option.bind_eq_some_iff.1 ea
        rw [hi] at sa
        have sa : InFront i a := sa
        cases eb : (lookup (key "Port") kp).bind Spec.uint with
        | none =>
          rw [eb] at hb; rw [if_pos (by simp [hb])]
          cases Option.filter (fun x => decide (x.length ≤ 255)) (some x) <;> rfl
        | some y =>
          rw [eb] at hb
          rw [if_neg (by simp [hb]), opt_ok (calcLength_at (text_str hx) sa)]
          by_cases h255 : x.length ≤ 255
          · rw [if_neg (by omega), if_neg (by simp [allMem]), opt_ok (copyText_at hx sa _ _ (by omega) (Nat.le_refl _)),
              opt_ok (getUint64_see sb eb)]
            simp [R.opt, h255, Option.filter]
          · rw [if_pos (by omega)]
            simp [R.opt, fail, h255, Option.filter]
    · rw [if_pos (by rw [type_at su]; exact h1)]
      simp only [Spec.textField, h2]
      rfl

theorem redirect_at {ind : Bool} {p : List (Item × Item)} {v : Value} (hd : Item.depthm p ≤ 1024)
    (hv : InFront (.map ind p) v) : R.opt (handleRedirect allMem v) = .ok (Spec.redirect (.map ind p)) := by
  obtain ⟨a, fa, sa⟩ := find_see (s := key "Host") (by decide) hd hv
  obtain ⟨b, fb, sb⟩ := find_see (s := key "Port") (by decide) hd hv
  obtain ⟨c, fc, sc⟩ := find_see (s := key "Fingerprint") (by decide) hd hv
  unfold handleRedirect Spec.redirect
  rw [opt_ok fa, opt_ok fb, opt_ok fc]
  simp only [Spec.uintField, Spec.field]
  have ha := see_text sa
  have hb := see_uint sb
  have hc := see_bytes sc
  cases ea : (lookup (key "Host") p).bind Spec.text with
  | none =>
    rw [ea] at ha; rw [if_pos (by simpa using ha)]
    cases hl : lookup (key "Host") p with
    | none => rfl
    | some i => rw [hl] at ea; cases i <;> first | rfl | (simp [Spec.text] at ea)
  | some x =>
    rw [ea] at ha
    rw [if_neg (by simpa using ha)]
    obtain ⟨i, hi, hx⟩ := Option.bind_eq_some_iff.1 ea
    rw [hi] at sa ⊢
    have sa : InFront i a := sa
    cases eb : (lookup (key "Port") p).bind Spec.uint with
    | none => rw [eb] at hb; rw [if_pos (by simp [hb])]; cases i <;> rfl
    | some y =>
      rw [eb] at hb
      rw [if_neg (by simp [hb])]
      cases ec : (lookup (key "Fingerprint") p).bind Spec.bytes with
      | none => rw [ec] at hc; rw [if_pos (by simpa using hc)]; cases i <;> rfl
      | some z =>
        rw [ec] at hc
        rw [if_neg (by simpa using hc)]
        cases i with
        | text s =>
          cases hx
          rw [opt_ok (length_at (.inr rfl) sa), opt_ok (getUint64_see sb eb)]
          by_cases hl : 1 ≤ x.length ∧ x.length ≤ 256
          · rw [if_neg (by omega), if_neg (by simp [allMem]), opt_ok (copyText_at rfl sa _ _ (Nat.le_refl _) (by omega))]
            simp [R.opt, hl]
          · rw [if_pos (by omega)]
            simp only [if_neg hl]; rfl
        | chunks t l =>
          have : stringLength a = .err .unknownLength := by
            unfold stringLength
            have hu : a.unknown = true := by rw [InFront.flags sa]; rfl
            rw [if_neg (by have := ha.2 rfl; simp [this]), if_pos hu]
          rw [opt_none (by rw [this]; rfl)]
        | _ => simp [Spec.text] at hx

theorem attach_at {i : Item} (hf : i.Fits) (hd : i.depth ≤ 1025) (tl : Bytes) :
    attachResponse allMem (i.enc ++ tl) = .ok (Spec.attach i) := by
  obtain ⟨v, hv, hi⟩ := parserInit_at hf tl
  unfold attachResponse
  simp only [R.bind_eq]
  rcases map_or i with ⟨ind, p, rfl⟩ | ⟨h1, h2⟩
  · simp only [Item.depth] at hd
    obtain ⟨a, fa, sa⟩ := find_see (s := key "Status") (by decide) (by omega) hi
    have ha := see_uint sa
    have hty : v.type = .map := by simp [type_at hi, ity]
    simp only [Spec.attach, Spec.uintField, Spec.field]
    cases ea : (lookup (key "Status") p).bind Spec.uint with
    | none =>
      rw [ea] at ha
      simp [hv, R.bind, hty, fa, ha, R.opt, fail]
    | some n =>
      rw [ea] at ha
      obtain ⟨ko, k1, k2⟩ := keepAlive_at (by omega) hi
      have ks := stun_at (by omega) hi
      have kr := redirect_at (by omega) hi
      simp only [hv, R.bind, hty, fa, ha, getUint64_see sa ea, R.pure_eq]
      simp only [ne_eq, not_true_eq_false, if_false, Option.isSome_some, Bool.not_true, Bool.false_eq_true, opt_of_ok]
      match n with
      | 0 => simp only [if_true, k1, ks, k2]
      | 1 =>
        simp only [if_true, Nat.one_ne_zero, if_false, kr]
        cases Spec.redirect (.map ind p) <;> rfl
      | n + 2 => simp
  · have hty : v.type ≠ .map := by rw [type_at hi]; exact h1
    have : Spec.attach i = .error := by simp [Spec.attach, Spec.uintField, h2]
    simp [hv, R.bind, hty, R.opt, fail, this]

/-! ## Requests of the IAM module -/

theorem see_null {o : Option Item} {w : Value} (h : Sees o w) : w.type = .null ↔ o = some .null := by
  cases o with
  | none => cases h; simp [Value.none]
  | some i => rw [type_at h]; cases i <;> simp [ity] <;> (cases ‹Bool› <;> simp)

theorem decodeString_see {o : Option Item} {w : Value} (h : Sees o w) :
    R.opt (decodeString allMem w) = .ok (Spec.iamString o) := by
  have ht := see_text h
  unfold decodeString
  cases hb : o.bind Spec.text with
  | none =>
    rw [if_neg (by rw [hb] at ht; simpa using ht)]
    by_cases hn : w.type = .null
    · rw [if_pos hn, (see_null h).1 hn]; rfl
    · rw [if_neg hn]
      have := fun h' => hn ((see_null h).2 h')
      cases o with
      | none => rfl
      | some i =>
        cases i with
        | null => exact absurd rfl this
        | text b => simp [Spec.text] at hb
        | chunks b l => cases b <;> first | rfl | (simp [Spec.text] at hb)
        | _ => rfl
  | some s =>
    rw [if_pos (by rw [hb] at ht; simpa using ht)]
    obtain ⟨i, rfl, hi⟩ := Option.bind_eq_some_iff.1 hb
    have h : InFront i w := h
    have hs : Spec.iamString (some i) = ((Spec.text i).filter (·.length < 1024)).map some := by
      cases i <;> first | rfl | (simp [Spec.text] at hi)
    rw [opt_ok (calcLength_at (text_str hi) h), hs, hi]
    by_cases hl : s.length < 1024
    · rw [if_pos hl, if_neg (by simp [allMem]), opt_ok (copyText_at hi h _ _ (by omega) (by omega))]
      simp [R.opt, hl, Option.filter]
    · rw [if_neg hl]
      simp [R.opt, fail, hl, Option.filter]

theorem iamString_after {i : Item} {x} (h : Spec.iamString (some i) = some x) : i.after = [] := by
  cases i <;> first | rfl | (simp [Spec.iamString, Spec.text] at h)

/-- `some none` is undefined behaviour. -/
def setResult (set : List Bytes) : Option (Option (List Bytes)) → R (Option (List Bytes))
  | none => .ok none
  | some none => .ub
  | some (some l) => .ok (some (set ++ l))

theorem decodeSet_at {ind tl} (l : List Item) (n : Nat) (v : Value) (set : List Bytes) (hn : v.rest.length < n)
    (hf : Item.Fitss l) (hd : Item.depths l ≤ 1024) (hv : AtL ind false tl l v) :
    R.opt (decodeSetLoop allMem n v set) = setResult set (Spec.iamItems l) := by
  induction l generalizing n v set with
  | nil =>
    cases n with
    | zero => omega
    | succ n =>
      unfold decodeSetLoop
      rw [if_pos hv.2.2.1]; simp [Spec.iamItems, setResult, R.opt]
  | cons i l ih =>
    cases n with
    | zero => omega
    | succ n =>
      simp only [Item.depths] at hd
      simp only [Item.Fitss] at hf
      have he := decodeString_see (o := some i) (w := v) ⟨_, _, _, l, hf.2, hf.1, hv⟩
      unfold decodeSetLoop
      rw [if_neg hv.pos]
      simp only [Spec.iamItems]
      cases ho : Spec.iamString (some i) with
      | none => rw [ho] at he; rw [opt_none he]; rfl
      | some o =>
        rw [ho] at he
        rw [opt_some he]
        cases o with
        | none => rfl
        | some s =>
          obtain ⟨w, hw, ha, hlt⟩ := advance_see hf.1 hf.2 (by omega) (iamString_after ho) hv
          simp only
          rw [if_neg (by simp [allMem]), opt_ok hw, ih n w (set ++ [s]) (by omega) hf.2 (by omega) ha]
          cases Spec.iamItems l with
          | none => rfl
          | some r => cases r <;> simp [setResult]

theorem decodeStringSet_at {i : Item} {v : Value} (hd : i.depth ≤ 1025) (hv : InFront i v) :
    R.opt (decodeStringSet allMem v) = match i with
      | .arr _ l => setResult [] (Spec.iamItems l)
      | _ => .ok none := by
  have ht := type_at hv
  obtain ⟨ind, m, tl', l, hl, hi, ha⟩ := hv
  unfold decodeStringSet
  cases i with
  | arr cind cl =>
    rw [if_neg (by simp [ht, ity])]
    obtain ⟨w, hw, hwa⟩ := enter_at (i := .arr cind cl) rfl hi ha
    simp only [Item.depth] at hd
    rw [opt_ok hw, decodeSet_at cl _ w [] (Nat.lt_succ_self _) hi.2 (by omega) hwa]
  | chunks b l => cases b <;> (rw [if_pos (by simp [ht, ity])]; rfl)
  | _ => rw [if_pos (by simp [ht, ity])]; rfl

theorem decodeBool_at {i : Item} {v : Value} (hv : InFront i v) :
    R.opt (decodeBool v) = .ok (Spec.boolean i) := by
  have ht := type_at hv
  unfold decodeBool
  cases i with
  | bool b =>
    have hx : v.extra = if b then 21 else 0 := by rw [hv.flags]; rfl
    have ht : v.type = .bool := ht
    rw [if_pos ht]
    unfold getBool
    rw [if_neg (by simp [ht]), hx]
    cases b <;> rfl
  | chunks b l => cases b <;> (rw [if_neg (by simp [ht, ity])]; rfl)
  | _ => rw [if_neg (by simp [ht, ity])]; rfl

theorem decodeKv_at {i : Item} {v : Value} (hd : i.depth ≤ 1025) (hv : InFront i v) {s : String} (hs : 0 ∉ key s) :
    R.opt (decodeKvString allMem v (key s)) = .ok (Spec.iamString (Spec.field s i)) := by
  unfold decodeKvString
  rcases map_or i with ⟨ind, p, rfl⟩ | ⟨h1, h2⟩
  · simp only [Item.depth] at hd
    rw [if_neg (by simp [type_at hv, ity])]
    obtain ⟨w, fw, sw⟩ := find_see hs (by omega) hv
    rw [opt_ok fw, decodeString_see sw]
    rfl
  · rw [if_pos (by rw [type_at hv]; exact h1), h2]; rfl

theorem decodeFcm_at {i : Item} {v : Value} (hd : i.depth ≤ 1025) (hv : InFront i v) :
    R.opt (decodeFcm allMem v) = .ok (match Spec.iamString (Spec.field "Token" i), Spec.iamString (Spec.field "ProjectId" i) with
      | some t, some p => some (t, p)
      | _, _ => none) := by
  unfold decodeFcm
  rcases map_or i with ⟨ind, p, rfl⟩ | ⟨h1, h2⟩
  · simp only [Item.depth] at hd
    rw [if_neg (by simp [type_at hv, ity])]
    obtain ⟨a, fa, sa⟩ := find_see (s := key "Token") (by decide) (by omega) hv
    obtain ⟨b, fb, sb⟩ := find_see (s := key "ProjectId") (by decide) (by omega) hv
    have ga : findIgnore v (key "Token") = .ok a := by unfold findIgnore; rw [fa]
    have gb : findIgnore v (key "ProjectId") = .ok b := by unfold findIgnore; rw [fb]
    rw [opt_ok ga, opt_ok gb]
    have ha := decodeString_see sa
    have hb := decodeString_see sb
    simp only [Spec.field]
    cases ea : Spec.iamString (lookup (key "Token") p) with
    | none => rw [ea] at ha; rw [opt_none ha]
    | some x =>
      rw [ea] at ha; rw [opt_some ha]
      cases eb : Spec.iamString (lookup (key "ProjectId") p) with
      | none => rw [eb] at hb; rw [opt_none hb]
      | some y => rw [eb] at hb; rw [opt_some hb]; rfl
  · rw [if_pos (by rw [type_at hv]; exact h1), h2, h2]; rfl

/-! ## ICE servers -/

theorem urls_at {ind tl} (l : List Item) (n : Nat) (v : Value) (acc : List Bytes) (hn : v.rest.length < n)
    (hf : Item.Fitss l) (hd : Item.depths l ≤ 1024) (hv : AtL ind false tl l v) :
    match Spec.urls l with
    | none => R.opt (iceUrls allMem n v acc) = .ok none
    | some r => ∃ w, iceUrls allMem n v acc = .ok (acc ++ r, w) ∧ AtL ind false tl [] w := by
  induction l generalizing n v acc with
  | nil =>
    cases n with
    | zero => omega
    | succ n =>
      refine ⟨v, ?_, hv⟩
      unfold iceUrls
      rw [if_pos hv.2.2.1]; simp
  | cons i l ih =>
    cases n with
    | zero => omega
    | succ n =>
      simp only [Item.depths] at hd
      simp only [Item.Fitss] at hf
      have he := copyTextString_see (o := some i) (w := v) ⟨_, _, _, l, hf.2, hf.1, hv⟩ 4096
      simp only [Option.bind_some] at he
      unfold iceUrls
      rw [if_neg hv.pos]
      simp only [Spec.urls]
      cases ho : (Spec.text i).filter (·.length ≤ 4096) with
      | none => rw [ho] at he; simp only; rw [opt_none he]
      | some s =>
        rw [ho] at he
        have ht : i.after = [] := by cases i <;> first | rfl | (simp [Spec.text] at ho)
        obtain ⟨w, hw, ha, hlt⟩ := advance_see hf.1 hf.2 (by omega) ht hv
        have := ih n w (acc ++ [s]) (by omega) hf.2 (by omega) ha
        cases hu : Spec.urls l with
        | none =>
          rw [hu] at this
          simp only at this ⊢
          rw [opt_some he, if_neg (by simp [allMem]), opt_ok hw, this]
        | some r =>
          rw [hu] at this
          obtain ⟨u, h1, h2⟩ := this
          refine ⟨u, ?_, h2⟩
          rw [of_opt_some he]
          simp only [R.bind_eq, R.bind]
          rw [if_neg (by simp [allMem]), hw]
          simp only [h1]
          simp

/-- An ICE server in front of `i`, followed by `l`. -/
theorem iceServer_at {ind cind tl} {p : List (Item × Item)} {l : List Item} {v : Value} (hf : (Item.map cind p).Fits)
    (hl : Item.Fitss l) (hd : (Item.map cind p).depth ≤ 1024) (hv : AtL ind false tl (.map cind p :: l) v) :
    match Spec.iceServer (.map cind p) with
    | none => R.opt (iceServer allMem v) = .ok none
    | some s => ∃ w, iceServer allMem v = .ok (s, w) ∧ AtL ind false tl l w ∧ w.rest.length < v.rest.length := by
  have hi : InFront (.map cind p) v := ⟨_, _, _, l, hl, hf, hv⟩
  have hd' := hd
  simp only [Item.depth] at hd'
  obtain ⟨a, fa, sa⟩ := find_see (s := key "Username") (by decide) (by omega) hi
  obtain ⟨b, fb, sb⟩ := find_see (s := key "Credential") (by decide) (by omega) hi
  obtain ⟨c, fc, sc⟩ := find_see (s := key "Urls") (by decide) (by omega) hi
  have gb : findIgnore v (key "Credential") = .ok b := by unfold findIgnore; rw [fb]
  have hfind : iceFind v = .ok (a, some b) := by
    unfold iceFind; rw [fa]; simp [R.opt, gb]
  have ha := copyTextString_see sa 4096
  have hb := copyTextString_see sb 4096
  have hcopy : iceCopy allMem a (some b) = .ok (Spec.textField "Username" 4096 (.map cind p),
      (Spec.textField "Username" 4096 (.map cind p)).bind fun _ => Spec.textField "Credential" 4096 (.map cind p)) := by
    unfold iceCopy
    rw [ha]
    simp only [R.bind_eq, R.bind]
    show (match Spec.textField "Username" 4096 (.map cind p) with | none => _ | some u => _) = _
    cases Spec.textField "Username" 4096 (.map cind p) with
    | none => rfl
    | some u => simp only [hb]; rfl
  unfold iceServer
  simp only [hfind, R.bind_eq, R.bind, fc, hcopy]
  unfold Spec.iceServer
  simp only [Spec.field]
  cases hu : lookup (key "Urls") p with
  | none =>
    rw [hu] at sc
    have sc : c = Value.none := sc
    simp only
    rw [if_pos (by rw [sc]; simp [Value.none])]; rfl
  | some i =>
    rw [hu] at sc
    have hs : InFront i c := sc
    have ht := type_at hs
    cases i with
    | arr uind ul =>
      rw [if_neg (by simp [ht, ity])]
      obtain ⟨ind', m', tl', l', hl', hi', ha'⟩ := hs
      obtain ⟨w, hw, hwa⟩ := enter_at (i := .arr uind ul) rfl hi' ha'
      have hud := lookup_depth hu
      simp only [Item.depth] at hud
      have hurls := urls_at ul _ w [] (Nat.lt_succ_self _) hi'.2 (by omega) hwa
      simp only [hw]
      cases hx : Spec.urls ul with
      | none =>
        rw [hx] at hurls
        simp only at hurls
        obtain ⟨e, he⟩ := of_opt_none hurls
        simp [he, R.opt]
      | some r =>
        rw [hx] at hurls
        obtain ⟨q, hq, hqa⟩ := hurls
        obtain ⟨x, hx', -⟩ := leave_at (i := .arr uind ul) rfl hl' ha' hqa
        obtain ⟨y, hy, hya, hylt⟩ := advance_see hf hl hd rfl hv
        refine ⟨y, ?_, hya, hylt⟩
        simp only [hq, hx', hy]
        rw [if_neg (by simp [allMem])]
        rfl
    | chunks b l => cases b <;> (simp only; rw [if_pos (by simp [ht, ity])]; rfl)
    | _ => simp only; rw [if_pos (by simp [ht, ity])]; rfl

theorem iceServers_at {ind tl} (l : List Item) (n : Nat) (v : Value) (acc : List IceServer) (hn : v.rest.length < n)
    (hf : Item.Fitss l) (hd : Item.depths l ≤ 1024) (hm : ∀ i ∈ l, ∃ ind p, i = .map ind p) (hv : AtL ind false tl l v) :
    match Spec.iceServers l with
    | none => R.opt (iceLoop allMem n v acc) = .ok none
    | some r => ∃ w, iceLoop allMem n v acc = .ok (acc ++ r, w) ∧ AtL ind false tl [] w := by
  induction l generalizing n v acc with
  | nil =>
    cases n with
    | zero => omega
    | succ n =>
      refine ⟨v, ?_, hv⟩
      unfold iceLoop
      rw [if_pos hv.2.2.1]; simp
  | cons i l ih =>
    cases n with
    | zero => omega
    | succ n =>
      simp only [Item.depths] at hd
      simp only [Item.Fitss] at hf
      obtain ⟨cind, p, rfl⟩ := hm i (by simp)
      have he := iceServer_at hf.1 hf.2 (by omega) hv
      unfold iceLoop
      rw [if_neg hv.pos]
      simp only [Spec.iceServers]
      cases hs : Spec.iceServer (.map cind p) with
      | none =>
        rw [hs] at he
        simp only at he ⊢
        rw [opt_none he]
      | some s =>
        rw [hs] at he
        obtain ⟨w, hw, hwa, hlt⟩ := he
        have := ih n w (acc ++ [s]) (by omega) hf.2 (by omega) (fun i hi => hm i (by simp [hi])) hwa
        cases hu : Spec.iceServers l with
        | none =>
          rw [hu] at this
          simp only at this ⊢
          rw [opt_ok hw, this]
        | some r =>
          rw [hu] at this
          obtain ⟨u, h1, h2⟩ := this
          refine ⟨u, ?_, h2⟩
          rw [hw]
          simp only [R.bind_eq, R.bind, h1]
          simp

theorem ice_at {cind : Bool} {cl : List Item} (hf : (Item.arr cind cl).Fits) (hd : (Item.arr cind cl).depth ≤ 1025)
    (hm : ∀ i ∈ cl, ∃ ind p, i = .map ind p) (tl : Bytes) :
    R.opt (iceResponse allMem ((Item.arr cind cl).enc ++ tl)) = .ok (Spec.iceServers cl) := by
  obtain ⟨v, hv, ind, m, tl', l, hl, hi, ha⟩ := parserInit_at hf tl
  have ht : v.type = .arr := type_at ⟨ind, m, tl', l, hl, hi, ha⟩
  unfold iceResponse
  rw [opt_ok hv, if_neg (by simp [ht])]
  obtain ⟨w, hw, hwa⟩ := enter_at (i := .arr cind cl) rfl hf ha
  simp only [Item.depth] at hd
  rw [opt_ok hw]
  have := iceServers_at cl _ w [] (Nat.lt_succ_self _) hi.2 (by omega) hm hwa
  cases hx : Spec.iceServers cl with
  | none =>
    rw [hx] at this
    simp only at this
    rw [opt_none this]
  | some r =>
    rw [hx] at this
    obtain ⟨u, h1, h2⟩ := this
    obtain ⟨x, hx', -⟩ := leave_at (i := .arr cind cl) rfl hl ha h2
    rw [opt_ok h1]
    simp only
    rw [opt_ok hx']
    rfl

/-! ## Push notifications and service invocations -/

theorem fcm_at {i : Item} (hf : i.Fits) (hd : i.depth ≤ 1025) (hs : Spec.Small "StatusCode" i) (tl : Bytes) :
    R.opt (fcmResponse allMem (i.enc ++ tl)) = .ok (Spec.fcm i) := by
  obtain ⟨v, hv, hi⟩ := parserInit_at hf tl
  unfold fcmResponse
  rw [opt_ok hv]
  rcases map_or i with ⟨ind, p, rfl⟩ | ⟨h1, h2⟩
  · simp only [Item.depth] at hd
    obtain ⟨a, fa, sa⟩ := find_see (s := key "StatusCode") (by decide) (by omega) hi
    obtain ⟨b, fb, sb⟩ := find_see (s := key "Body") (by decide) (by omega) hi
    have ha := see_int sa
    have hb := copyTextString_see sb 4096
    have hty : v.type = .map := by simp [type_at hi, ity]
    rw [if_neg (by simp [hty]), opt_ok fa, opt_ok fb]
    simp only [Spec.fcm, Spec.statusField, Spec.textField, Spec.field, Spec.Small] at hs ⊢
    generalize (Option.bind (lookup (key "Body") p) Spec.text).filter (·.length ≤ 4096) = c at hb
    cases c with
    | none =>
      rw [opt_none hb]
      cases ((lookup (key "StatusCode") p).bind Spec.int).filter _ <;> rfl
    | some c =>
      rw [opt_some hb]
      cases ez : (lookup (key "StatusCode") p).bind Spec.int with
      | none =>
        rw [ez] at ha
        rw [if_pos (by simpa using ha)]
        simp [fail, R.opt]
      | some z =>
        rw [ez] at ha
        rw [if_neg (by simpa using ha), opt_ok (getInt_see sa ez (hs z ez))]
        by_cases hz : 0 ≤ z ∧ z ≤ 65535
        · rw [if_neg (by omega)]
          simp [R.opt, Option.filter, hz]
        · rw [if_pos (by omega)]
          have hfl : ((some z).filter fun z => decide (0 ≤ z ∧ z ≤ 65535)) = none := by simp [Option.filter, hz]
          rw [hfl]
          rfl
  · have hty : v.type ≠ .map := by rw [type_at hi]; exact h1
    rw [if_pos hty]
    simp [Spec.fcm, Spec.statusField, h2, fail, R.opt]

theorem serviceInvoke_at {i : Item} (hf : i.Fits) (hd : i.depth ≤ 1025) (hs : Spec.Small "StatusCode" i)
    (hm : Spec.Small "MessageFormat" i) (tl : Bytes) :
    R.opt (serviceInvokeResponse allMem (i.enc ++ tl)) = .ok (Spec.serviceInvoke i) := by
  obtain ⟨v, hv, hi⟩ := parserInit_at hf tl
  unfold serviceInvokeResponse
  rw [opt_ok hv]
  rcases map_or i with ⟨ind, p, rfl⟩ | ⟨h1, h2⟩
  · simp only [Item.depth] at hd
    obtain ⟨a, fa, sa⟩ := find_see (s := key "StatusCode") (by decide) (by omega) hi
    obtain ⟨b, fb, sb⟩ := find_see (s := key "Message") (by decide) (by omega) hi
    obtain ⟨c, fc, sc⟩ := find_see (s := key "MessageFormat") (by decide) (by omega) hi
    have ha := see_int sa
    have hc := see_int sc
    have hb := copyByteString_see sb 65536
    have hty : v.type = .map := by simp [type_at hi, ity]
    rw [if_neg (by simp [hty]), opt_ok fa, opt_ok fb, opt_ok fc]
    simp only [Spec.serviceInvoke, Spec.statusField, Spec.bytesField, Spec.field, Spec.Small] at hs hm ⊢
    generalize (Option.bind (lookup (key "Message") p) Spec.bytes).filter (·.length ≤ 65536) = d at hb
    cases ez : (lookup (key "StatusCode") p).bind Spec.int with
    | none =>
      rw [ez] at ha
      rw [if_pos (by simpa using ha)]
      simp [fail, R.opt]
    | some z =>
      rw [ez] at ha
      rw [if_neg (by simpa using ha), opt_ok (getInt_see sa ez (hs z ez))]
      by_cases hz : 0 ≤ z ∧ z ≤ 65535
      · rw [if_neg (by omega)]
        have hfl : ((some z).filter fun z => decide (0 ≤ z ∧ z ≤ 65535)) = some z := by simp [Option.filter, hz]
        rw [hfl]
        cases ef : (lookup (key "MessageFormat") p).bind Spec.int with
        | none =>
          rw [ef] at hc
          rw [if_neg (by simpa using hc)]
          cases d with
          | none => rw [opt_none hb]; rfl
          | some d => rw [opt_some hb]; rfl
        | some f =>
          rw [ef] at hc
          rw [if_pos (by simpa using hc), opt_ok (getInt_see sc ef (hm f ef))]
          by_cases h0 : f = 0
          · subst h0
            rw [if_pos (by simp)]
            cases d with
            | none => rw [opt_none hb]; rfl
            | some d => rw [opt_some hb]; rfl
          · by_cases h2 : f = 2
            · subst h2
              rw [if_pos (by simp)]
              cases d with
              | none => rw [opt_none hb]; rfl
              | some d => rw [opt_some hb]; rfl
            · rw [if_neg (by omega)]
              by_cases h1 : f = 1
              · subst h1
                rw [if_pos rfl]; rfl
              · rw [if_neg h1]
                simp [h1, h0, h2, fail, R.opt]
      · rw [if_pos (by omega)]
        have hfl : ((some z).filter fun z => decide (0 ≤ z ∧ z ≤ 65535)) = none := by simp [Option.filter, hz]
        rw [hfl]
        rfl
  · have hty : v.type ≠ .map := by rw [type_at hi]; exact h1
    rw [if_pos hty]
    simp [Spec.serviceInvoke, Spec.statusField, h2, fail, R.opt]

end Verif.Core.CborUse
