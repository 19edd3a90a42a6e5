import Verif.Cbor.Read

/-!
# tinycbor: properties

C53: what the encoder writes is read back, and the measuring pass gives the size of the writing pass.
-/

namespace Verif.Cbor.Props
open Verif.Cbor

/-- C53. Encoding without a buffer measures the size of the encoding. -/
theorem measure_exact (i : Item) (h : i.Plain) :
    (encItem i (Enc.init none)).1.extra = i.enc.length ∧
    ∀ e ∈ (encItem i (Enc.init none)).2, e = .ok ∨ e = .oom := by
  have hd := encItem_done (cap := none) i [] (Enc.init none) h rfl
  have hb := hd.buf
  simp only [Buf.Is, List.nil_append] at hb
  exact ⟨by unfold Enc.extra; rw [hb], hd.err⟩

/-- C53. Encoding into a buffer of any size: if the encoding fits, it is written and all calls succeed; otherwise the number
of missing bytes is reported. -/
theorem write_exact (i : Item) (h : i.Plain) (k : Nat) :
    (i.enc.length ≤ k → (encItem i (Enc.init (some k))).1.buf = .room i.enc (k - i.enc.length) ∧
      ∀ e ∈ (encItem i (Enc.init (some k))).2, e = .ok) ∧
    (k < i.enc.length → (encItem i (Enc.init (some k))).1.extra = i.enc.length - k ∧
      ∀ e ∈ (encItem i (Enc.init (some k))).2, e = .ok ∨ e = .oom) := by
  have hd := encItem_done (cap := some k) i [] (Enc.init (some k)) h (by simp [Buf.Is, Enc.init])
  have hb := hd.buf
  simp only [Buf.Is, List.nil_append] at hb
  constructor
  · intro hk
    rw [if_pos hk] at hb
    exact ⟨hb, hd.ok (by simp [fitErr, hk])⟩
  · intro hk
    rw [if_neg (by omega)] at hb
    obtain ⟨out, hb⟩ := hb
    exact ⟨by unfold Enc.extra; rw [hb], hd.err⟩

/-- C53. The size of the measuring pass is exactly the size which is needed by the writing pass. -/
theorem measure_then_write (i : Item) (h : i.Plain) :
    (encItem i (Enc.init (some (encItem i (Enc.init none)).1.extra))).1.buf = .room i.enc 0 := by
  rw [(measure_exact i h).1, ((write_exact i h i.enc.length).1 (Nat.le_refl _)).1, Nat.sub_self]

example : (encItem (.map true [(.text [65], .arr true [.uint 1000, .nint 5]), (.text [66], .bool true)]) (Enc.init none)).1.extra
    = 13 := by decide

/-- C53. A document which has been encoded is read back, whatever follows it in the buffer. -/
theorem decode_encode (i : Item) (h : i.Plain) (hd : i.depth ≤ 1024) (tl : Bytes) :
    ∃ v, parserInit (i.enc ++ tl) = .ok v ∧ readItem 1024 v = .ok i := by
  obtain ⟨v, hv, hf⟩ := parserInit_at (plain_fits i h) tl
  exact ⟨v, hv, readItem_at 1024 (Nat.le_refl _) i v h hd hf⟩

example : ∃ v, parserInit (Item.enc (.map true [(.text [65], .arr false [.uint 1000])]) ++ [1, 2]) = .ok v ∧
    readItem 1024 v = .ok (.map true [(.text [65], .arr false [.uint 1000])]) :=
  decode_encode _ (by simp [Item.Plain, Item.Plains, Item.Plainm]) (by simp [Item.depth, Item.depths, Item.depthm]) _

/-- C53. No two documents have the same encoding, and none is a prefix of another one. -/
theorem encode_prefix_free (i j : Item) (hi : i.Plain) (hj : j.Plain) (di : i.depth ≤ 1024) (dj : j.depth ≤ 1024)
    (t u : Bytes) (h : i.enc ++ t = j.enc ++ u) : i = j ∧ t = u := by
  obtain ⟨v, h1, h2⟩ := decode_encode i hi di t
  obtain ⟨w, h3, h4⟩ := decode_encode j hj dj u
  rw [h, h3] at h1
  cases h1
  rw [h2] at h4
  cases h4
  exact ⟨rfl, List.append_cancel_left h⟩

/-- C53. An unsigned number of 64 bits. -/
theorem uint_round_trip (n : Nat) (h : n < 2 ^ 64) (tl : Bytes) :
    ∃ v, parserInit (Item.enc (.uint n) ++ tl) = .ok v ∧ isUint v = true ∧ getUint64 v = .ok n := by
  obtain ⟨v, hv, hf⟩ := parserInit_at (i := .uint n) h tl
  have hfl := hf.flags
  have ht : v.type = .int := by rw [hfl]; rfl
  have hb : v.bit4 = false := by rw [hfl]; rfl
  have hu : isUint v = true := by simp [isUint, ht, hb]
  refine ⟨v, hv, hu, ?_⟩
  unfold getUint64
  rw [hu]
  exact num_at (.inl rfl) hf

/-- C53. A number in the range of `int`, encoded with `cbor_encode_int` and read with `cbor_value_get_int`. -/
theorem int_round_trip (x : Int) (h1 : -2 ^ 31 ≤ x) (h2 : x < 2 ^ 31) (tl : Bytes) :
    ∃ (out : Bytes) (v : Value), ((Enc.init (some 9)).int x).1.buf = .room out (9 - out.length) ∧
      parserInit (out ++ tl) = .ok v ∧ getInt v = .ok x := by
  by_cases hx : x < 0
  · obtain ⟨n, rfl⟩ : ∃ n : Nat, x = -1 - n := ⟨(-1 - x).toNat, by omega⟩
    have hn : n < 2 ^ 31 := by omega
    have hw := (write_exact (.nint n) (by simp only [Item.Plain]; omega) 9).1 (by
      simp only [Item.enc]; rw [head_eq, List.length_cons, argBytes_length]; unfold numBytes addl; grind)
    obtain ⟨v, hv, hf⟩ := parserInit_at (i := .nint n) (by simp only [Item.Fits]; omega) tl
    refine ⟨Item.enc (.nint n), v, hw.1, hv, ?_⟩
    have hfl := hf.flags
    have ht : v.type = .int := by rw [hfl]; rfl
    have hb : v.bit4 = true := by rw [hfl]; rfl
    unfold getInt
    rw [if_neg (by simp [ht])]
    simp only [R.bind_eq, num_at (.inr rfl) hf, R.bind, hb, if_true]
    have ht : toInt n = n := by unfold toInt; rw [Nat.mod_eq_of_lt (by omega), if_pos hn]
    rw [ht, if_neg (by omega)]
    simp; omega
  · obtain ⟨n, rfl⟩ : ∃ n : Nat, x = n := ⟨x.toNat, by omega⟩
    have hn : n < 2 ^ 31 := by omega
    have hw := (write_exact (.uint n) (by simp only [Item.Plain]; omega) 9).1 (by
      simp only [Item.enc]; rw [head_eq, List.length_cons, argBytes_length]; unfold numBytes addl; grind)
    obtain ⟨v, hv, hf⟩ := parserInit_at (i := .uint n) (by simp only [Item.Fits]; omega) tl
    have hi : (Enc.init (some 9)).int (n : Int) = (Enc.init (some 9)).uint n := by
      unfold Enc.int Enc.uint; rw [if_neg (by omega)]; rfl
    refine ⟨Item.enc (.uint n), v, by rw [hi]; exact hw.1, hv, ?_⟩
    have hfl := hf.flags
    have ht : v.type = .int := by rw [hfl]; rfl
    have hb : v.bit4 = false := by rw [hfl]; rfl
    unfold getInt
    rw [if_neg (by simp [ht])]
    simp only [R.bind_eq, num_at (.inl rfl) hf, R.bind, hb]
    have ht : toInt n = n := by unfold toInt; rw [Nat.mod_eq_of_lt (by omega), if_pos hn]
    rw [ht]; rfl

/-- The smallest `int` minus one cannot be represented: `cbor_value_get_int` negates `INT_MIN`. -/
theorem get_int_overflow_violated : ∃ v, parserInit [0x3a, 0x80, 0x00, 0x00, 0x00] = .ok v ∧ getInt v = .ub := by
  refine ⟨_, rfl, by decide⟩

/-- C53. A text string: its length, and its content if the buffer is large enough. Strings of indefinite length
are read in the same way. -/
theorem text_round_trip (i : Item) (s : Bytes) (hs : i.key = some s) (hu : i.untag = i) (hf : i.Fits) (tl : Bytes)
    (size buflen : Nat) (hb : buflen ≤ size) :
    ∃ v, parserInit (i.enc ++ tl) = .ok v ∧ calcLength v = .ok s.length ∧
      (s.length ≤ buflen → copyText size buflen v = .ok s) ∧ (buflen < s.length → copyText size buflen v = .err .oom) := by
  obtain ⟨v, hv, hif⟩ := parserInit_at hf tl
  have hstr : i.str = some s := by have := key_str hs; rwa [hu] at this
  have ht : v.type = .text := by
    rw [hif.flags]
    have := (key_type i v).2 (by simp [hs])
    rwa [hu] at this
  obtain ⟨h1, h2⟩ := copyString_at hb hstr hif
  refine ⟨v, hv, calcLength_at hstr hif, fun h => ?_, fun h => ?_⟩
  · obtain ⟨w, hw⟩ := h1 h
    unfold copyText
    rw [if_neg (by simp [ht]), R.bind_eq, hw]; rfl
  · unfold copyText
    rw [if_neg (by simp [ht]), R.bind_eq, h2 h]; rfl

example : ∃ v, parserInit (Item.enc (.chunks true [[72, 105], [33]]) ++ []) = .ok v ∧ copyText 3 3 v = .ok [72, 105, 33] := by
  obtain ⟨v, h1, -, h2, -⟩ := text_round_trip (.chunks true [[72, 105], [33]]) [72, 105, 33] rfl rfl
    (by simp [Item.Fits]) [] 3 3 (Nat.le_refl _)
  exact ⟨v, h1, h2 (by simp)⟩

/-- C53. A key of a map is found exactly if it is there, and the value is the one of the first entry with the key. The values
may be any well formed items, also tags and floating point numbers. -/
theorem find_encoded (ind : Bool) (p : List (Item × Item)) (hf : (Item.map ind p).Fits) (hd : Item.depthm p ≤ 1024)
    (s : Bytes) (hs : 0 ∉ s) (tl : Bytes) :
    ∃ v w, parserInit (Item.enc (.map ind p) ++ tl) = .ok v ∧ find v s = .ok w ∧
      (lookup s p = none → w.type = .invalid) ∧
      (∀ i, lookup s p = some i → (∃ t, w.rest = i.enc ++ t) ∧
        (i.Plain → i.depth ≤ 1024 → readItem 1024 w = .ok i)) := by
  obtain ⟨v, hv, hif⟩ := parserInit_at hf tl
  obtain ⟨w, hw, h1, h2⟩ := find_at hs hd hif
  refine ⟨v, w, hv, hw, fun h => by rw [h1 h]; rfl, fun i h => ?_⟩
  have hi := h2 i h
  refine ⟨?_, fun hp hdi => readItem_at 1024 (Nat.le_refl _) i w hp hdi hi⟩
  obtain ⟨a, b, c, l, -, -, hat⟩ := hi
  exact ⟨Item.encs l ++ term a c, by rw [hat.1]; simp [Item.encs]⟩

end Verif.Cbor.Props
