import Verif.Core.CborUse
import Verif.Cbor.Read

/-!
# Decoding of CBOR payloads: lemmas
-/

namespace Verif.Core.CborUse
open Verif.Cbor

theorem sat_opt {α : Type} {P : α → Prop} {x : R α} (h : x.Sat P) : (R.opt x).Sat (fun o => ∀ a, o = some a → P a) := by
  cases x with
  | ok a => intro b hb; cases hb; exact h
  | err e => intro b hb; cases hb
  | ub => exact h.elim

theorem sat_fail {α : Type} {P : α → Prop} : (fail : R α).Sat P := trivial

theorem known {v : Value} (hg : Good v) (ht : v.type = .int) : v.unknown = false := by
  obtain ⟨b, r, -, -, h, -⟩ := hg.hd (by rw [ht]; simp)
  cases hu : v.unknown with
  | false => rfl
  | true => have := h hu; rw [ht] at this; simp [isFixed] at this

theorem calcLength_sat {v : Value} (hg : Good v) (ht : v.type = .bytes ∨ v.type = .text) :
    (calcLength v).Sat (fun _ => True) := (skipString_sat hg ht).bind fun _ _ => trivial

theorem copyText_sat {size buflen : Nat} (hs : buflen ≤ size) {v : Value} (hg : Good v) (ht : v.type = .text) :
    (copyText size buflen v).Sat (fun _ => True) := by
  unfold copyText
  rw [if_neg (by simp [ht])]
  exact (copyString_sat hs hg (.inr ht)).bind fun _ _ => trivial

theorem copyBytes_sat {size buflen : Nat} (hs : buflen ≤ size) {v : Value} (hg : Good v) (ht : v.type = .bytes) :
    (copyBytes size buflen v).Sat (fun _ => True) := by
  unfold copyBytes
  rw [if_neg (by simp [ht])]
  exact (copyString_sat hs hg (.inl ht)).bind fun _ _ => trivial

theorem stringLength_sat {v : Value} (hg : Good v) (ht : v.type = .bytes ∨ v.type = .text) :
    (stringLength v).Sat (fun _ => True) := by
  unfold stringLength
  rw [if_neg (by rcases ht with h | h <;> simp [h])]
  split
  · trivial
  · rename_i hu
    exact num_sat hg (by rcases ht with h | h <;> simp [h]) (by simpa using hu)

theorem getUint64_sat {v : Value} (hg : Good v) (ht : isUint v = true) : (getUint64 v).Sat (fun _ => True) := by
  have hi : v.type = .int := by simp [isUint] at ht; exact ht.1
  unfold getUint64
  rw [if_neg (by simp [ht])]
  exact num_sat hg (by simp [hi]) (known hg hi)

/-- The integer has the value `-1 - n` with `n ≡ 2^31` modulo `2^32`. -/
def Overflow (v : Value) : Prop := v.bit4 = true ∧ ∃ n, v.num = .ok n ∧ n % 2 ^ 32 = 2 ^ 31

theorem getInt_sat {v : Value} (hg : Good v) (ht : v.type = .int) (h : ¬ Overflow v) : (getInt v).Sat (fun _ => True) := by
  unfold getInt
  rw [if_neg (by simp [ht])]
  have hn := num_sat hg (by simp [ht]) (known hg ht)
  cases hv : v.num with
  | err e => trivial
  | ub => rw [hv] at hn; exact hn.elim
  | ok n =>
    simp only [R.bind_eq, R.bind]
    split
    · rename_i hb
      split
      · rename_i hm
        refine absurd ⟨hb, n, hv, ?_⟩ h
        unfold toInt at hm
        split at hm <;> omega
      · trivial
    · trivial

theorem getInt_ub {v : Value} (ht : v.type = .int) (h : Overflow v) : getInt v = .ub := by
  obtain ⟨hb, n, hv, hm⟩ := h
  unfold getInt
  rw [if_neg (by simp [ht])]
  simp only [R.bind_eq, R.bind, hv, hb, if_true]
  rw [if_pos]
  unfold toInt
  rw [hm]; decide

theorem copyTextString_sat (mem : Mem) (n : Nat) {v : Value} (hg : Good v) :
    (copyTextString mem n v).Sat (fun _ => True) := by
  unfold copyTextString
  split
  · trivial
  · rename_i ht
    have ht : v.type = .text := by simpa using ht
    refine (calcLength_sat hg (.inr ht)).bind fun l _ => ?_
    split
    · trivial
    · split
      · trivial
      · exact copyText_sat (by omega) hg ht

theorem copyByteString_sat (mem : Mem) (n : Nat) {v : Value} (hg : Good v) :
    (copyByteString mem n v).Sat (fun _ => True) := by
  unfold copyByteString
  split
  · trivial
  · rename_i ht
    have ht : v.type = .bytes := by simpa using ht
    refine (calcLength_sat hg (.inl ht)).bind fun l _ => ?_
    split
    · trivial
    · split
      · trivial
      · exact copyBytes_sat (by omega) hg ht

theorem decodeString_sat (mem : Mem) {v : Value} (hg : Good v) :
    (decodeString mem v).Sat (fun o => o = none → v.type = .null) := by
  unfold decodeString
  split
  · rename_i ht
    refine (calcLength_sat hg (.inr ht)).bind fun l _ => ?_
    split
    · split
      · trivial
      · refine (copyText_sat (by omega) hg ht).bind fun _ _ => ?_
        intro h; cases h
    · trivial
  · split
    · rename_i h; exact fun _ => h
    · trivial

/-- The elements of a container: from an iterator, any number of calls of `cbor_value_advance`. -/
inductive Steps (v : Value) : Value → Prop
  | here : Steps v v
  | next {w u : Value} : Steps v w → w.remaining ≠ 0 → advance w = .ok u → Steps v u

theorem Steps.head {v w u : Value} (h0 : v.remaining ≠ 0) (h1 : advance v = .ok w) (h2 : Steps w u) : Steps v u := by
  induction h2 with
  | here => exact .next .here h0 h1
  | next _ h0 h1 ih => exact .next ih h0 h1

theorem good_ne {v : Value} (hg : Good v) (h : v.remaining ≠ 0) : v.type ≠ .invalid := fun h' => h (hg.fin h').1

theorem good_fin {v : Value} (hg : Good v) (h : v.remaining = 0) : v.type = .invalid := by
  cases hv : v.type <;> first | rfl | (have := hg.pos (by rw [hv]; simp); omega)

theorem decodeSetLoop_sat (mem : Mem) (n : Nat) {v : Value} (set : List Bytes) (hg : Good v) (hn : v.rest.length < n)
    (hnull : ∀ w, Steps v w → w.type ≠ .null) : (decodeSetLoop mem n v set).Sat (fun _ => True) := by
  induction n generalizing v set with
  | zero => omega
  | succ n ih =>
    unfold decodeSetLoop
    split
    · trivial
    · rename_i h0
      refine (decodeString_sat mem hg).bind fun o ho => ?_
      cases o with
      | none => exact absurd (ho rfl) (hnull v .here)
      | some s =>
        simp only
        split
        · trivial
        · have ha := advance_sat hg (good_ne hg h0)
          cases hw : advance v with
          | err e => trivial
          | ub => rw [hw] at ha; exact ha.elim
          | ok w =>
            rw [hw] at ha
            exact ih _ (Post.good ha) (by have := ha.lt; omega) fun u hu => hnull u (hu.head h0 hw)

theorem find_type {map : Value} {s : Bytes} (h : map.type ≠ .map) : find map s = .ub := by
  unfold find; rw [if_pos h]

theorem rendezvousEp_sat {v : Value} (hg : Good v) : (rendezvousEp v).Sat (fun _ => True) := by
  unfold rendezvousEp
  split
  · trivial
  · rename_i ht
    have ht : v.type = .map := by simpa using ht
    refine (find_sat hg ht _).bind fun ip hip => (find_sat hg ht _).bind fun port hport => ?_
    split
    · trivial
    · rename_i h1
      have h1 : ip.type = .bytes := by simpa using h1
      split
      · trivial
      · rename_i h2
        have h2 : isUint port = true := by simpa using h2
        refine (getUint64_sat hport h2).bind fun p _ => (stringLength_sat hip (.inl h1)).bind fun l _ => ?_
        split
        · exact (copyBytes_sat (by omega) hip h1).bind fun _ _ => trivial
        · split
          · exact (copyBytes_sat (by omega) hip h1).bind fun _ _ => trivial
          · trivial

theorem rendezvousLoop_sat (n : Nat) {v : Value} (sent : List (Bytes × Nat)) (hg : Good v) (hn : v.rest.length < n) :
    (rendezvousLoop n v sent).Sat (fun p => ∀ w, p.2 = some w →
      Good w ∧ w.type = .invalid ∧ w.rest.length ≤ v.rest.length) := by
  induction n generalizing v sent with
  | zero => omega
  | succ n ih =>
    unfold rendezvousLoop
    split
    · rename_i h0
      intro w hw; cases hw
      exact ⟨hg, good_fin hg h0, Nat.le_refl _⟩
    · rename_i h0
      refine (sat_opt (rendezvousEp_sat hg)).bind fun o _ => ?_
      cases o with
      | none => intro w hw; cases hw
      | some o =>
        refine (sat_opt (advance_sat hg (good_ne hg h0))).bind fun q hq => ?_
        cases q with
        | none => intro w hw; cases hw
        | some q =>
          have := hq q rfl
          exact (ih (sent ++ o.toList) this.good (by have := this.lt; omega)).imp fun p hp w hw =>
            ⟨(hp w hw).1, (hp w hw).2.1, by have := (hp w hw).2.2; have := (hq q rfl).lt; omega⟩

theorem rendezvousPayload_sat (payload : Bytes) : (rendezvousPayload payload).Sat (fun _ => True) := by
  unfold rendezvousPayload
  refine (sat_opt (parserInit_sat payload)).bind fun o ho => ?_
  cases o with
  | none => trivial
  | some array =>
    obtain ⟨hg, -⟩ := ho _ rfl
    simp only
    split
    · trivial
    · rename_i ht
      have ht : array.type = .arr := by simpa using ht
      have hc : isContainer array.type = true := by rw [ht]; rfl
      refine (sat_opt (enter_sat hg hc)).bind fun o ho => ?_
      cases o with
      | none => trivial
      | some ep =>
        have hi := ho _ rfl
        refine (rendezvousLoop_sat _ [] hi.good (Nat.lt_succ_self _)).bind fun p hp => ?_
        obtain ⟨sent, e⟩ := p
        cases e with
        | none => trivial
        | some w =>
          obtain ⟨h1, h2, h3⟩ := hp w rfl
          refine (sat_opt (leave_sat hg hc h1 h2 (by have := hi.lt; omega))).bind fun o _ => ?_
          cases o <;> trivial

theorem attachedKeepAlive_sat {root : Value} (hg : Good root) (ht : root.type = .map) :
    (attachedKeepAlive root).Sat (fun _ => True) := by
  unfold attachedKeepAlive
  refine (find_sat hg ht _).bind fun k hk => ?_
  split
  · trivial
  · rename_i hm
    have hm : k.type = .map := by simpa using hm
    refine (find_sat hk hm _).bind fun a ha => (find_sat hk hm _).bind fun b hb => (find_sat hk hm _).bind fun c hc => ?_
    split
    · trivial
    · rename_i h1
      split
      · trivial
      · rename_i h2
        split
        · trivial
        · rename_i h3
          refine (getUint64_sat ha (by simpa using h1)).bind fun _ _ => (getUint64_sat hb (by simpa using h2)).bind
            fun _ _ => (getUint64_sat hc (by simpa using h3)).bind fun _ _ => trivial

theorem attachedStun_sat (mem : Mem) {root : Value} (hg : Good root) (ht : root.type = .map) :
    (attachedStun mem root).Sat (fun _ => True) := by
  unfold attachedStun
  refine (find_sat hg ht _).bind fun k hk => ?_
  split
  · trivial
  · rename_i hm
    have hm : k.type = .map := by simpa using hm
    refine (find_sat hk hm _).bind fun a ha => (find_sat hk hm _).bind fun b hb => ?_
    split
    · trivial
    · rename_i h1
      have h1 : a.type = .text := by simpa using h1
      split
      · trivial
      · rename_i h2
        refine (calcLength_sat ha (.inr h1)).bind fun l _ => ?_
        split
        · trivial
        · split
          · trivial
          · exact (copyText_sat (by omega) ha h1).bind fun _ _ => (getUint64_sat hb (by simpa using h2)).bind
              fun _ _ => trivial

theorem handleRedirect_sat (mem : Mem) {root : Value} (hg : Good root) (ht : root.type = .map) :
    (handleRedirect mem root).Sat (fun _ => True) := by
  unfold handleRedirect
  refine (find_sat hg ht _).bind fun a ha => (find_sat hg ht _).bind fun b hb => (find_sat hg ht _).bind fun c _ => ?_
  split
  · trivial
  · rename_i h1
    have h1 : a.type = .text := by simpa using h1
    split
    · trivial
    · rename_i h2
      split
      · trivial
      · refine (stringLength_sat ha (.inr h1)).bind fun l _ => (getUint64_sat hb (by simpa using h2)).bind fun p _ => ?_
        split
        · trivial
        · split
          · trivial
          · exact (copyText_sat (by omega) ha h1).bind fun _ _ => trivial

theorem attachResponse_sat (mem : Mem) (payload : Bytes) : (attachResponse mem payload).Sat (fun _ => True) := by
  unfold attachResponse
  refine R.Sat.bind (P := fun o => ∀ a : Value × Nat, o = some a → Good a.1 ∧ a.1.type = .map) (sat_opt ?_) fun o ho => ?_
  · refine (parserInit_sat payload).bind fun root ⟨hg, _⟩ => ?_
    split
    · trivial
    · rename_i ht
      have ht : root.type = .map := by simpa using ht
      refine (find_sat hg ht _).bind fun s hs => ?_
      split
      · trivial
      · rename_i hu
        exact (getUint64_sat hs (by simpa using hu)).bind fun _ _ => ⟨hg, ht⟩
  · cases o with
    | none => trivial
    | some p =>
      obtain ⟨hg, ht⟩ := ho p rfl
      obtain ⟨root, s⟩ := p
      simp only
      split
      · exact (sat_opt (attachedKeepAlive_sat hg ht)).bind fun _ _ => (sat_opt (attachedStun_sat mem hg ht)).bind
          fun _ _ => trivial
      · split
        · refine (sat_opt (handleRedirect_sat mem hg ht)).bind fun o _ => ?_
          cases o <;> trivial
        · trivial

theorem findIgnore_sat' {map : Value} (hg : Good map) (ht : map.type = .map) (s : Bytes) :
    (findIgnore map s).Sat Good := by
  obtain ⟨v, h1, h2⟩ := findIgnore_sat hg ht s
  rw [h1]; exact h2

theorem iceUrls_sat (mem : Mem) (n : Nat) {v : Value} (urls : List Bytes) (hg : Good v) (hn : v.rest.length < n) :
    (iceUrls mem n v urls).Sat (fun p => Good p.2 ∧ p.2.type = .invalid ∧ p.2.rest.length ≤ v.rest.length) := by
  induction n generalizing v urls with
  | zero => omega
  | succ n ih =>
    unfold iceUrls
    split
    · rename_i h0
      exact ⟨hg, good_fin hg h0, Nat.le_refl _⟩
    · rename_i h0
      refine (copyTextString_sat mem 4096 hg).bind fun s _ => ?_
      split
      · trivial
      · refine (advance_sat hg (good_ne hg h0)).bind fun q hq => ?_
        have := hq.lt
        exact (ih (urls ++ [s]) hq.good (by omega)).imp fun p hp => ⟨hp.1, hp.2.1, by have := hp.2.2; omega⟩

theorem iceFind_sat {v : Value} (hg : Good v) (ht : v.type = .map) :
    (iceFind v).Sat (fun p => Good p.1 ∧ (p.2 = none → p.1.type = .invalid) ∧ ∀ c, p.2 = some c → Good c) := by
  unfold iceFind
  refine (sat_opt (find_sat hg ht _)).bind fun o ho => ?_
  cases o with
  | none => exact ⟨none_good, fun _ => rfl, fun c hc => by cases hc⟩
  | some u =>
    refine (findIgnore_sat' hg ht _).bind fun c hc => ?_
    exact ⟨ho u rfl, fun h => (by cases h), fun d hd => (by cases hd; exact hc)⟩

theorem iceCopy_sat (mem : Mem) {u : Value} {c : Option Value} (hu : Good u) (h1 : c = none → u.type = .invalid)
    (h2 : ∀ d, c = some d → Good d) : (iceCopy mem u c).Sat (fun _ => True) := by
  unfold iceCopy
  cases c with
  | none =>
    have : copyTextString mem 4096 u = fail := by unfold copyTextString; rw [if_pos (by rw [h1 rfl]; simp)]
    rw [this]; trivial
  | some d =>
    refine (sat_opt (copyTextString_sat mem 4096 hu)).bind fun o _ => ?_
    cases o with
    | none => trivial
    | some x => exact (sat_opt (copyTextString_sat mem 4096 (h2 d rfl))).bind fun _ _ => trivial

theorem iceServer_sat (mem : Mem) {v : Value} (hg : Good v) (ht : v.type = .map) :
    (iceServer mem v).Sat (fun p => Post v p.2 ∧ advance v = .ok p.2) := by
  unfold iceServer
  refine (iceFind_sat hg ht).bind fun p ⟨p1, p2, p3⟩ => ?_
  obtain ⟨u, c⟩ := p
  refine (find_sat hg ht _).bind fun urls hu => (iceCopy_sat mem p1 p2 p3).bind fun q _ => ?_
  obtain ⟨a, b⟩ := q
  simp only
  split
  · trivial
  · rename_i h1
    have h1 : urls.type = .arr := by simpa using h1
    have hc : isContainer urls.type = true := by rw [h1]; rfl
    refine (enter_sat hu hc).bind fun w hw => (iceUrls_sat mem _ [] hw.good (Nat.lt_succ_self _)).bind fun q ⟨q1, q2, q3⟩ => ?_
    obtain ⟨l, q⟩ := q
    refine (leave_sat hu hc q1 q2 (by have := hw.lt; omega)).bind fun _ _ => ?_
    have ha := advance_sat hg (by rw [ht]; simp)
    cases hv : advance v with
    | err e => trivial
    | ub => rw [hv] at ha; exact ha.elim
    | ok w =>
      rw [hv] at ha
      simp only [R.bind_eq, R.bind]
      split
      · trivial
      · exact ⟨ha, rfl⟩

theorem iceLoop_sat (mem : Mem) (n : Nat) {v : Value} (l : List IceServer) (hg : Good v) (hn : v.rest.length < n)
    (hm : ∀ w, Steps v w → w.remaining ≠ 0 → w.type = .map) :
    (iceLoop mem n v l).Sat (fun p => Good p.2 ∧ p.2.type = .invalid ∧ p.2.rest.length ≤ v.rest.length) := by
  induction n generalizing v l with
  | zero => omega
  | succ n ih =>
    unfold iceLoop
    split
    · rename_i h0
      exact ⟨hg, good_fin hg h0, Nat.le_refl _⟩
    · rename_i h0
      refine (iceServer_sat mem hg (hm v .here h0)).bind fun q ⟨hq, ha⟩ => ?_
      obtain ⟨s, q⟩ := q
      have := hq.lt
      exact (ih (l ++ [s]) hq.good (by simp only at *; omega) fun u hu => hm u (hu.head h0 ha)).imp
        fun p hp => ⟨hp.1, hp.2.1, by have := hp.2.2; simp only at *; omega⟩

end Verif.Core.CborUse
