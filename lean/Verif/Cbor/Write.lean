import Verif.Cbor.Encoder
import Verif.Cbor.Head

/-!
# tinycbor encoder, lemmas
-/

namespace Verif.Cbor

/-- The buffer after some bytes have been encoded into a buffer of a given size, or into the `NULL` buffer. -/
def Buf.Is (cap : Option Nat) (bs : Bytes) (b : Buf) : Prop :=
  match cap with
  | none => b = .over [] bs.length
  | some k => if bs.length ≤ k then b = .room bs (k - bs.length) else ∃ out, b = .over out (bs.length - k)

/-- What a call reports when all of the bytes fit, and when they do not. -/
def fitErr (cap : Option Nat) (bs : Bytes) : EErr :=
  match cap with
  | none => .oom
  | some k => if bs.length ≤ k then .ok else .oom

theorem Buf.Is.append {cap bs b d} (h : Buf.Is cap bs b) (hd : d ≠ [] ∨ bs ≠ []) :
    Buf.Is cap (bs ++ d) (b.append d).1 ∧ (b.append d).2 = fitErr cap (bs ++ d) := by
  have hpos : 0 < bs.length + d.length := by
    rcases hd with h | h <;> have := List.length_pos_iff.2 h <;> omega
  cases cap with
  | none =>
    simp only [Buf.Is] at h
    subst h
    simp only [Buf.append]
    rw [if_neg (by omega)]
    simp [Buf.Is, fitErr]
  | some k =>
    simp only [Buf.Is] at h
    split at h
    · rename_i hk
      subst h
      simp only [Buf.append]
      split
      · rename_i h2
        have h3 : (bs ++ d).length ≤ k := by simp; omega
        refine ⟨?_, by simp only [fitErr]; rw [if_pos h3]⟩
        simp only [Buf.Is]
        rw [if_pos h3]
        simp; omega
      · rename_i h2
        have h3 : ¬ (bs ++ d).length ≤ k := by simp; omega
        refine ⟨?_, by simp only [fitErr]; rw [if_neg h3]⟩
        simp only [Buf.Is]
        rw [if_neg h3]
        exact ⟨bs, by simp; omega⟩
    · rename_i hk
      obtain ⟨out, rfl⟩ := h
      simp only [Buf.append]
      rw [if_neg (by omega)]
      have h3 : ¬ (bs ++ d).length ≤ k := by simp; omega
      refine ⟨?_, by simp only [fitErr]; rw [if_neg h3]⟩
      simp only [Buf.Is]
      rw [if_neg h3]
      exact ⟨out, by simp; omega⟩

theorem drop_be (n : Nat) : (be 8 n).drop 7 = be 1 n ∧ (be 8 n).drop 6 = be 2 n ∧ (be 8 n).drop 4 = be 4 n := by
  simp [be]

theorem numberBytes_eq (n m : Nat) : numberBytes n (m * 32) = head m n := by
  obtain ⟨h1, h2, h3⟩ := drop_be n
  unfold numberBytes head
  by_cases h24 : n < 24
  · rw [if_pos h24, if_pos h24, Nat.add_comm]
  · rw [if_neg h24, if_neg h24]
    by_cases h8 : n < 2 ^ 8
    · rw [if_pos h8]
      simp only [show ¬ n > 0xff by omega, show ¬ n > 0xffff by omega, show ¬ n > 0xffffffff by omega, if_false]
      exact congrArg _ h1
    · by_cases h16 : n < 2 ^ 16
      · rw [if_neg h8, if_pos h16]
        simp only [show n > 0xff by omega, show ¬ n > 0xffff by omega, show ¬ n > 0xffffffff by omega, if_false, if_true]
        exact congrArg _ h2
      · by_cases h32 : n < 2 ^ 32
        · rw [if_neg h8, if_neg h16, if_pos h32]
          simp only [show n > 0xff by omega, show n > 0xffff by omega, show ¬ n > 0xffffffff by omega, if_false, if_true]
          exact congrArg _ h3
        · rw [if_neg h8, if_neg h16, if_neg h32]
          simp only [show n > 0xff by omega, show n > 0xffff by omega, show n > 0xffffffff by omega, if_true]
          rfl

theorem head_ne (m n : Nat) : head m n ≠ [] := by rw [head_eq]; simp

/-- A call has encoded some bytes. -/
structure Wrote (cap : Option Nat) (bs : Bytes) (e : Enc) (r : Enc × EErr) : Prop where
  buf : Buf.Is cap bs r.1.buf
  err : r.2 = fitErr cap bs
  remaining : r.1.remaining = e.remaining - 1
  unknown : r.1.unknown = e.unknown

theorem number_wrote {cap bs} {e : Enc} {n : Nat} (h : Buf.Is cap bs e.buf) (m : Nat) :
    Wrote cap (bs ++ head m n) e (e.number n (m * 32)) := by
  obtain ⟨h1, h2⟩ := h.append (d := head m n) (.inl (head_ne m n))
  unfold Enc.number Enc.numberNoUpdate
  rw [numberBytes_eq]
  exact ⟨h1, h2, rfl, rfl⟩

theorem string_wrote {cap bs} {e : Enc} {s : Bytes} (h : Buf.Is cap bs e.buf) (m : Nat) :
    Wrote cap (bs ++ (head m s.length ++ s)) e (e.string (m * 32) s) := by
  obtain ⟨h1, h2, h3, h4⟩ := number_wrote h m
  have hne : bs ++ head m s.length ≠ [] := by simp [head_ne]
  obtain ⟨g1, g2⟩ := h1.append (d := s) (.inr hne)
  rw [List.append_assoc] at g1 g2
  have herr : ¬ ((e.number s.length (m * 32)).2 ≠ .ok ∧ (e.number s.length (m * 32)).2 ≠ .oom) := by
    rw [h2]
    unfold fitErr
    rintro ⟨a, b⟩
    split at a <;> (try split at a) <;> simp_all
  unfold Enc.string
  simp only
  rw [if_neg herr]
  exact ⟨g1, g2, h3, h4⟩

mutual
/-- The calls which encode an item. `cbor_encode_tag` and the functions for floating point numbers, for undefined and for
chunks are not used by the SDK: nothing is encoded for them. The results of the calls are returned as well. -/
def encItem : Item → Enc → Enc × List EErr
  | .uint n, e => let r := e.uint n; (r.1, [r.2])
  | .nint n, e => let r := e.int (-1 - n); (r.1, [r.2])
  | .bytes b, e => let r := e.bytes b; (r.1, [r.2])
  | .text b, e => let r := e.text b; (r.1, [r.2])
  | .bool b, e => let r := e.bool b; (r.1, [r.2])
  | .null, e => let r := e.null; (r.1, [r.2])
  | .arr ind l, e =>
    let r := e.createArray (if ind then none else some l.length)
    let q := encItems l r.2.1
    let c := r.1.close q.1
    (c.1, r.2.2 :: q.2 ++ [c.2])
  | .map ind l, e =>
    let r := e.createMap (if ind then none else some l.length)
    let q := encPairs l r.2.1
    let c := r.1.close q.1
    (c.1, r.2.2 :: q.2 ++ [c.2])
  | _, e => (e, [])
/-- The elements of an array. -/
def encItems : List Item → Enc → Enc × List EErr
  | [], e => (e, [])
  | i :: l, e =>
    let r := encItem i e
    let q := encItems l r.1
    (q.1, r.2 ++ q.2)
/-- The entries of a map. -/
def encPairs : List (Item × Item) → Enc → Enc × List EErr
  | [], e => (e, [])
  | (k, v) :: l, e =>
    let r := encItem k e
    let q := encItem v r.1
    let s := encPairs l q.1
    (s.1, r.2 ++ q.2 ++ s.2)
end

mutual
/-- The item can be encoded with the calls which the SDK uses. -/
def Item.Plain : Item → Prop
  | .uint n => n < 2 ^ 64
  | .nint n => n < 2 ^ 63
  | .bytes b => b.length < 2 ^ 64
  | .text b => b.length < 2 ^ 64
  | .bool _ => True
  | .null => True
  | .arr _ l => l.length < 2 ^ 31 ∧ Item.Plains l
  | .map _ l => l.length < 2 ^ 31 ∧ Item.Plainm l
  | _ => False
def Item.Plains : List Item → Prop
  | [] => True
  | i :: l => i.Plain ∧ Item.Plains l
def Item.Plainm : List (Item × Item) → Prop
  | [] => True
  | (k, v) :: l => k.Plain ∧ v.Plain ∧ Item.Plainm l
end

/-- The calls which encode items have encoded some bytes. -/
structure Done (cap : Option Nat) (bs : Bytes) (k : Nat) (e : Enc) (r : Enc × List EErr) : Prop where
  buf : Buf.Is cap bs r.1.buf
  err : ∀ x ∈ r.2, x = .ok ∨ x = .oom
  ok : fitErr cap bs = .ok → ∀ x ∈ r.2, x = .ok
  remaining : r.1.remaining = e.remaining - k
  unknown : r.1.unknown = e.unknown

theorem fitErr_cases (cap bs) : fitErr cap bs = .ok ∨ fitErr cap bs = .oom := by
  unfold fitErr; split
  · exact .inr rfl
  · split
    · exact .inl rfl
    · exact .inr rfl

theorem fitErr_mono {cap bs d} (h : fitErr cap (bs ++ d) = .ok) : fitErr cap bs = .ok := by
  unfold fitErr at *
  cases cap with
  | none => cases h
  | some k => simp at *; grind

theorem Wrote.done {cap bs e r} (h : Wrote cap bs e r) : Done cap bs 1 e (r.1, [r.2]) :=
  ⟨h.buf, fun x hx => by simp at hx; rw [hx, h.err]; exact fitErr_cases cap bs,
    fun hf x hx => by simp at hx; rw [hx, h.err]; exact hf, h.remaining, h.unknown⟩

theorem close_indef {cap bs} {e c : Enc} (h : Buf.Is cap bs c.buf) (hu : c.unknown = true) :
    Buf.Is cap (bs ++ [brk]) (e.close c).1.buf ∧ (e.close c).2 = fitErr cap (bs ++ [brk]) ∧
      (e.close c).1.remaining = e.remaining ∧ (e.close c).1.unknown = e.unknown := by
  obtain ⟨h1, h2⟩ := h.append (d := [brk]) (.inl (by simp))
  unfold Enc.close
  rw [if_pos hu]
  exact ⟨h1, h2, rfl, rfl⟩

theorem close_known {cap bs} {e c : Enc} (h : Buf.Is cap bs c.buf) (hu : c.unknown = false) (hr : c.remaining = 1) :
    Buf.Is cap bs (e.close c).1.buf ∧ (e.close c).2 = fitErr cap bs ∧
      (e.close c).1.remaining = e.remaining ∧ (e.close c).1.unknown = e.unknown := by
  unfold Enc.close
  rw [if_neg (by simp [hu])]
  simp only
  rw [if_neg (by simp [hr])]
  have : ((∃ o n, c.buf = .over o n) ∧ fitErr cap bs = .oom) ∨ ((∃ o n, c.buf = .room o n) ∧ fitErr cap bs = .ok) := by
    cases cap with
    | none => simp only [Buf.Is] at h; exact .inl ⟨⟨_, _, h⟩, rfl⟩
    | some k =>
      simp only [Buf.Is] at h
      split at h
      · rename_i hk; exact .inr ⟨⟨_, _, h⟩, by simp [fitErr, hk]⟩
      · rename_i hk
        obtain ⟨out, h⟩ := h
        exact .inl ⟨⟨_, _, h⟩, by simp [fitErr]; omega⟩
  rcases this with ⟨⟨o, n, hb⟩, hf⟩ | ⟨⟨o, n, hb⟩, hf⟩
  · rw [hf]; rw [hb] at h ⊢; exact ⟨h, rfl, rfl, rfl⟩
  · rw [hf]; rw [hb] at h ⊢; exact ⟨h, rfl, rfl, rfl⟩

/-- A container whose elements have been encoded. -/
theorem container_done {cap bs} {e : Enc} {mt : Nat} {body : Bytes} {ind : Bool} {n k : Nat} (h : Buf.Is cap bs e.buf)
    (hk : k = if mt = 5 then 2 * n else n) (run : Enc → Enc × List EErr)
    (hrun : ∀ e' bs', Buf.Is cap bs' e'.buf → Done cap (bs' ++ body) k e' (run e')) :
    Done cap (bs ++ (if ind then headIndef mt :: (body ++ [brk]) else head mt n ++ body)) 1 e
      (((e.create (if ind then none else some n) mt).1.close (run (e.create (if ind then none else some n) mt).2.1).1).1,
        (e.create (if ind then none else some n) mt).2.2 :: (run (e.create (if ind then none else some n) mt).2.1).2 ++
        [((e.create (if ind then none else some n) mt).1.close (run (e.create (if ind then none else some n) mt).2.1).1).2]) := by
  cases ind with
  | true =>
    obtain ⟨h1, h2⟩ := h.append (d := [headIndef mt]) (.inl (by simp))
    have hc : e.create none mt = (e.decrement, { buf := (e.buf.append [headIndef mt]).1, remaining := 0, unknown := true },
      (e.buf.append [headIndef mt]).2) := rfl
    simp only [if_true, hc]
    have hr := hrun { buf := (e.buf.append [headIndef mt]).1, remaining := 0, unknown := true } _ h1
    obtain ⟨c1, c2, c3, c4⟩ := close_indef (e := e.decrement) hr.buf hr.unknown
    have hb : bs ++ [headIndef mt] ++ body ++ [brk] = bs ++ headIndef mt :: (body ++ [brk]) := by simp
    rw [hb] at c1 c2
    refine ⟨c1, fun x hx => ?_, fun hf x hx => ?_, c3, c4⟩
    · simp only [List.cons_append, List.mem_cons, List.mem_append, List.not_mem_nil, or_false] at hx
      rcases hx with rfl | hx | rfl
      · rw [h2]; exact fitErr_cases _ _
      · exact hr.err x hx
      · rw [c2]; exact fitErr_cases _ _
    · rw [← hb] at hf
      simp only [List.cons_append, List.mem_cons, List.mem_append, List.not_mem_nil, or_false] at hx
      rcases hx with rfl | hx | rfl
      · rw [h2]; exact fitErr_mono (fitErr_mono hf)
      · exact hr.ok (fitErr_mono hf) x hx
      · rw [c2, ← hb]; exact hf
  | false =>
    obtain ⟨h1, h2⟩ := h.append (d := head mt n) (.inl (head_ne mt n))
    have hc : e.create (some n) mt = (e.decrement, Enc.mk (e.buf.append (head mt n)).1
        (if mt = 5 then n + 1 + n else n + 1) false, (e.buf.append (head mt n)).2) := by
      simp only [Enc.create, Enc.numberNoUpdate]
      rw [numberBytes_eq]
    simp only [Bool.false_eq_true, if_false, hc]
    have hr := hrun (Enc.mk (e.buf.append (head mt n)).1 (if mt = 5 then n + 1 + n else n + 1) false) _ h1
    have hrem := hr.remaining
    obtain ⟨c1, c2, c3, c4⟩ := close_known (e := e.decrement) hr.buf hr.unknown (by
      rw [hrem, hk]; simp only; split <;> omega)
    have hb : bs ++ head mt n ++ body = bs ++ (head mt n ++ body) := by simp
    rw [hb] at c1 c2
    refine ⟨c1, fun x hx => ?_, fun hf x hx => ?_, c3, c4⟩
    · simp only [List.cons_append, List.mem_cons, List.mem_append, List.not_mem_nil, or_false] at hx
      rcases hx with rfl | hx | rfl
      · rw [h2]; exact fitErr_cases _ _
      · exact hr.err x hx
      · rw [c2]; exact fitErr_cases _ _
    · rw [← hb] at hf
      simp only [List.cons_append, List.mem_cons, List.mem_append, List.not_mem_nil, or_false] at hx
      rcases hx with rfl | hx | rfl
      · rw [h2]; exact fitErr_mono hf
      · exact hr.ok hf x hx
      · rw [c2, ← hb]; exact hf

theorem Done.comp {cap bs bs' k k' e r q} (h : Done cap bs k e r) (h' : Done cap (bs ++ bs') k' r.1 q) :
    Done cap (bs ++ bs') (k + k') e (q.1, r.2 ++ q.2) := by
  refine ⟨h'.buf, fun x hx => ?_, fun hf x hx => ?_, ?_, h'.unknown.trans h.unknown⟩
  · rcases List.mem_append.1 hx with hx | hx
    · exact h.err x hx
    · exact h'.err x hx
  · rcases List.mem_append.1 hx with hx | hx
    · exact h.ok (fitErr_mono hf) x hx
    · exact h'.ok hf x hx
  · have := h'.remaining; have := h.remaining; simp only; omega

mutual
theorem encItem_done {cap} : (i : Item) → (bs : Bytes) → (e : Enc) → i.Plain → Buf.Is cap bs e.buf →
    Done cap (bs ++ i.enc) 1 e (encItem i e)
  | .uint n, bs, e, hp, h => by
    simp only [Item.enc, encItem]; exact (number_wrote h 0).done
  | .nint n, bs, e, hp, h => by
    simp only [Item.enc, encItem]
    have hp : n < 2 ^ 63 := hp
    have : e.int (-1 - n) = e.number n (1 * 32) := by
      unfold Enc.int
      rw [if_pos (by omega)]
      congr 1
      omega
    rw [this]
    exact (number_wrote h 1).done
  | .bytes b, bs, e, hp, h => by
    simp only [Item.enc, encItem]; exact (string_wrote h 2).done
  | .text b, bs, e, hp, h => by
    simp only [Item.enc, encItem]; exact (string_wrote h 3).done
  | .bool b, bs, e, hp, h => by
    cases b
    · exact (number_wrote (n := 20) h 7).done
    · exact (number_wrote (n := 21) h 7).done
  | .null, bs, e, hp, h => (number_wrote (n := 22) h 7).done
  | .arr ind l, bs, e, hp, h => by
    simp only [Item.Plain] at hp
    have := container_done (ind := ind) (mt := 4) (n := l.length) h (k := l.length) rfl (encItems l)
      (fun e' bs' h' => encItems_done l bs' e' hp.2 h')
    cases ind <;> simpa [Item.enc, encItem, Enc.createArray] using this
  | .map ind l, bs, e, hp, h => by
    simp only [Item.Plain] at hp
    have := container_done (ind := ind) (mt := 5) (n := l.length) h (k := 2 * l.length) rfl (encPairs l)
      (fun e' bs' h' => encPairs_done l bs' e' hp.2 h')
    cases ind <;> simpa [Item.enc, encItem, Enc.createMap] using this
  | .chunks _ _, _, _, hp, _ => by simp [Item.Plain] at hp
  | .tag _ _, _, _, hp, _ => by simp [Item.Plain] at hp
  | .undef, _, _, hp, _ => by simp [Item.Plain] at hp
  | .half _, _, _, hp, _ => by simp [Item.Plain] at hp
  | .float _, _, _, hp, _ => by simp [Item.Plain] at hp
  | .double _, _, _, hp, _ => by simp [Item.Plain] at hp
theorem encItems_done {cap} : (l : List Item) → (bs : Bytes) → (e : Enc) → Item.Plains l → Buf.Is cap bs e.buf →
    Done cap (bs ++ Item.encs l) l.length e (encItems l e)
  | [], bs, e, _, h => by
    simp only [Item.encs, encItems, List.append_nil]
    exact ⟨h, fun x hx => by simp at hx, fun _ x hx => by simp at hx, rfl, rfl⟩
  | i :: l, bs, e, hp, h => by
    simp only [Item.Plains] at hp
    have h1 := encItem_done i bs e hp.1 h
    have h2 := encItems_done l _ _ hp.2 h1.buf
    have := h1.comp h2
    simp only [Item.encs, encItems, List.length_cons]
    rw [List.append_assoc, Nat.add_comm] at this
    exact this
theorem encPairs_done {cap} : (l : List (Item × Item)) → (bs : Bytes) → (e : Enc) → Item.Plainm l → Buf.Is cap bs e.buf →
    Done cap (bs ++ Item.encm l) (2 * l.length) e (encPairs l e)
  | [], bs, e, _, h => by
    simp only [Item.encm, encPairs, List.append_nil]
    exact ⟨h, fun x hx => by simp at hx, fun _ x hx => by simp at hx, rfl, rfl⟩
  | (k, v) :: l, bs, e, hp, h => by
    simp only [Item.Plainm] at hp
    have h1 := encItem_done k bs e hp.1 h
    have h2 := encItem_done v _ _ hp.2.1 h1.buf
    have h3 := encPairs_done l _ _ hp.2.2 h2.buf
    have := (h1.comp h2).comp h3
    simp only [Item.encm, encPairs, List.length_cons]
    rw [List.append_assoc, List.append_assoc] at this
    have e1 : 1 + 1 + 2 * l.length = 2 * (l.length + 1) := by omega
    rw [e1] at this
    exact this
end

mutual
theorem plain_fits : (i : Item) → i.Plain → i.Fits
  | .uint _, h => h
  | .nint n, h => by simp only [Item.Plain] at h; simp only [Item.Fits]; omega
  | .bytes _, h => h
  | .text _, h => h
  | .bool _, _ => by simp [Item.Fits]
  | .null, _ => by simp [Item.Fits]
  | .arr _ l, h => by simp only [Item.Plain] at h; exact ⟨h.1, plains_fits l h.2⟩
  | .map _ l, h => by simp only [Item.Plain] at h; exact ⟨h.1, plainm_fits l h.2⟩
  | .chunks _ _, hp => by simp [Item.Plain] at hp
  | .tag _ _, hp => by simp [Item.Plain] at hp
  | .undef, hp => by simp [Item.Plain] at hp
  | .half _, hp => by simp [Item.Plain] at hp
  | .float _, hp => by simp [Item.Plain] at hp
  | .double _, hp => by simp [Item.Plain] at hp
theorem plains_fits : (l : List Item) → Item.Plains l → Item.Fitss l
  | [], _ => trivial
  | i :: l, h => by simp only [Item.Plains] at h; exact ⟨plain_fits i h.1, plains_fits l h.2⟩
theorem plainm_fits : (l : List (Item × Item)) → Item.Plainm l → Item.Fitsm l
  | [], _ => trivial
  | (k, v) :: l, h => by
    simp only [Item.Plainm] at h; exact ⟨plain_fits k h.1, plain_fits v h.2.1, plainm_fits l h.2.2⟩
end

end Verif.Cbor
