import Verif.Coap.PrinterLemmas

/-!
# C126: printing a CoAP packet for the log

All theorems hold for every `varInt`, that is whatever the library makes of the bytes of a number.
-/

namespace Verif.Coap.Printer

open Spec

/-- **C126, memory**: whatever packet arrives, with any number of options of any length, nothing is written outside of the arrays,
if the library hands out tokens of at most eight bytes, as RFC 7252 demands. -/
theorem C126_safe (varInt : List UInt8 → Option UInt32) (memory : Bool) (header : Text) (p : Option Message)
    (htok : ∀ m, p = some m → m.token.length ≤ 8) : print varInt memory header p ≠ .undefined := by
  obtain ⟨o, hw, ho, -⟩ := Held.start.write header
  obtain ⟨o', hw', -, -⟩ := Held.packet varInt header p htok ho
  unfold print
  cases memory with
  | false => exact fun h => nomatch h
  | true =>
    simp only [Bool.not_true, Bool.false_eq_true, if_false, hw, hw']
    split <;> exact Result.noConfusion

/-- **C126, what is logged**: the description of the packet, cut off after 1022 bytes; or, when even the beginning of its last
piece is beyond that, that it cannot be printed. -/
theorem C126_logged (varInt : List UInt8 → Option UInt32) (header : Text) (p : Option Message)
    (htok : ∀ m, p = some m → m.token.length ≤ 8) (hh : (0 : UInt8) ∉ header) :
    ∃ w, print varInt true header p = .logged (logged varInt header p) w := by
  obtain ⟨o, hw, ho, -⟩ := Held.start.write header
  obtain ⟨o', hw', ho', hn⟩ := Held.packet varInt header p htok ho
  refine ⟨o'.wild, ?_⟩
  unfold print
  simp only [Bool.not_true, Bool.false_eq_true, if_false, hw, hw']
  unfold logged
  cases hp : o'.ptr with
  | none => have := hn.mp hp; rw [if_neg (by decide), if_neg (Nat.not_le.mpr this)]
  | some q =>
    have hle : (pieces varInt header p).1.flatten.length ≤ 1023 := by
      by_contra hc
      have := hn.mpr (by omega)
      rw [hp] at this
      cases this
    obtain ⟨-, rest, hm⟩ := ho'.here q hp
    have hc := full_clean varInt header p hh
    rw [if_pos Option.isSome_some, if_pos hle, hm, takeWhile_held (fun h => hc (List.mem_of_mem_take h))]

/-- **C126, pointers** (partial: only if the description fits): no pointer leaves its block. -/
theorem C126_pointer_partial (varInt : List UInt8 → Option UInt32) (header : Text) (p : Option Message) (text : Text) (w : Bool)
    (htok : ∀ m, p = some m → m.token.length ≤ 8) (hfit : (full varInt header p).length ≤ 1024)
    (h : print varInt true header p = .logged text w) : w = false := by
  obtain ⟨o, hw, ho, -⟩ := Held.start.write header
  obtain ⟨o', hw', ho', -⟩ := Held.packet varInt header p htok ho
  unfold print at h
  simp only [Bool.not_true, Bool.false_eq_true, if_false, hw, hw'] at h
  have hw : w = o'.wild := by
    split at h <;> cases h <;> rfl
  rw [hw]
  cases hc : o'.wild with
  | false => rfl
  | true => have := ho'.tame hc; omega

/-- **C126 violated**: whenever an option begins within the block and ends beyond it, the pointer to what is written next points
outside of the block, which is undefined behaviour although nothing is written there. A client can send such a packet: a path of
1024 bytes is enough. -/
theorem C126_pointer_violated (varInt : List UInt8 → Option UInt32) (header : Text) (m : Message) (pre post) (x : UInt16 × List UInt8)
    (text : Text) (w : Bool) (htok : m.token.length ≤ 8) (ho : m.options = pre ++ x :: post)
    (hin : (pieces varInt header (some { m with options := pre })).1.flatten.length ≤ 1023)
    (hout : 1024 < (pieces varInt header (some { m with options := pre ++ [x] })).1.flatten.length)
    (h : print varInt true header (some m) = .logged text w) : w = true := by
  obtain ⟨o, hw, ho0, -⟩ := Held.start.write header
  obtain ⟨o1, w1, h1, -⟩ := ho0.write (str "Type: " ++ str (kind m.kind) ++ str ", Code: " ++ code m.code.toNat ++
    str ", MessageId: " ++ dec m.messageId.toNat ++ str ", Token: " ++ token m.token)
  have hh := headText_eq htok
  obtain ⟨o2, w2, h2, -⟩ := h1.write (str ", Options:")
  obtain ⟨o3, w3, h3⟩ := h2.options varInt pre
  obtain ⟨o4, w4, h4, -⟩ := h3.write (Spec.option varInt x.1.toNat x.2)
  obtain ⟨o5, w5, h5⟩ := h4.options varInt post
  obtain ⟨o6, w6, -, -⟩ := h5.write (str ", Payload Length: " ++ dec m.payloadLength)
  have hlen := h3.leaves (t := Spec.option varInt x.1.toNat x.2)
    (by simpa only [pieces, List.flatten_append, List.flatten_cons, List.flatten_nil, List.append_nil, List.append_assoc,
          List.nil_append] using hin)
    (by simpa only [pieces, List.map_append, List.map_cons, List.map_nil, List.flatten_append, List.flatten_cons,
          List.flatten_nil, List.append_nil, List.append_assoc, List.nil_append, List.length_append, Nat.add_assoc] using hout) w4
  have hall : writePacket varInt o (some m) = some o6 := by
    show writeMessage varInt o m = some o6
    unfold writeMessage
    rw [hh]
    dsimp only
    rw [w1]
    dsimp only
    rw [w2]
    dsimp only
    rw [ho, writeOptions_append, w3]
    simp only [Option.bind_some, writeOptions, optionText_eq]
    rw [w4]
    dsimp only
    rw [w5]
    exact w6
  unfold print at h
  simp only [Bool.not_true, Bool.false_eq_true, if_false, hw, hall] at h
  have he : w = o6.wild := by
    split at h <;> cases h <;> rfl
  rw [he]
  exact safeWrite_wild w6 (writeOptions_wild post w5 hlen)

/-- **C126, block option**: a value made of the number, the more flag and the size exponent of a block is shown as these. -/
theorem C126_block (num : Nat) (more : Bool) (szx : Nat) (hn : num < 2 ^ 20) (hs : szx < 8) :
    blockToString (UInt32.ofNat (num * 16 + (if more then 8 else 0) + szx)) =
      some (dec num ++ str "/" ++ str (if more then "1" else "0") ++ str "/" ++ dec (2 ^ (szx + 4))) := by
  rw [blockToString_eq]
  have hv : (UInt32.ofNat (num * 16 + (if more then 8 else 0) + szx)).toNat = num * 16 + (if more then 8 else 0) + szx := by
    rw [UInt32.toNat_ofNat', Nat.mod_eq_of_lt]
    split <;> omega
  rw [hv]
  unfold Spec.block
  have e1 : (num * 16 + (if more then 8 else 0) + szx) / 16 = num := by split <;> omega
  have e2 : (num * 16 + (if more then 8 else 0) + szx) / 8 % 2 = if more then 1 else 0 := by split <;> omega
  have e3 : (num * 16 + (if more then 8 else 0) + szx) % 8 = szx := by split <;> omega
  rw [e1, e2, e3]
  cases more <;> rfl

/-! ## The hypotheses are met -/

/-- A request as a client sends it. -/
def sample : Message :=
  { kind := .con, code := 1, messageId := 7, token := [0xab, 0x01], options := [(11, [105, 97, 109]), (23, [0x1e]), (65535, [])],
    payloadLength := 0 }

/-- Numbers of at most three bytes, the most significant first. -/
def bigEndian (l : List UInt8) : Option UInt32 :=
  if l.length ≤ 3 then some (UInt32.ofNat (l.foldl (fun n b => n * 256 + b.toNat) 0)) else none

set_option maxRecDepth 4000 in
example : print bigEndian true (str "H") (some sample) = .logged (str
    "HType: CON, Code: GET, MessageId: 7, Token: ab01, Options:, Uri-Path: iam, Block2: 1/1/1024, UNKNOWN(65535): OptionDataLength: 0, Payload Length: 0")
    false := by
  obtain ⟨w, hw⟩ := C126_logged bigEndian (str "H") (some sample) (by rintro m h; cases h; decide) (by decide)
  have hp := C126_pointer_partial bigEndian (str "H") (some sample) _ w (by rintro m h; cases h; decide) (by decide) hw
  subst hp
  rw [hw]
  decide

/-- The precondition on tokens is needed: nine bytes are written beyond the array. -/
example (varInt : List UInt8 → Option UInt32) (header : Text) (m : Message) (h : 8 < m.token.length) :
    print varInt true header (some m) = .undefined := by
  obtain ⟨o, hw, -, -⟩ := Held.start.write header
  have ht : tokenToString m.token = none := tokenLoop_none m.token 0 (by decide) (by omega)
  unfold print writePacket writeMessage headText
  simp only [Bool.not_true, Bool.false_eq_true, if_false, hw, ht]
  split <;> first | rfl | simp_all

/-- A packet whose path has 1024 bytes. -/
example : ∃ text, print bigEndian true (str "H") (some { sample with options := [(11, List.replicate 1024 97)] }) =
    .logged text true := by
  obtain ⟨w, hw⟩ := C126_logged bigEndian (str "H") (some { sample with options := [(11, List.replicate 1024 97)] })
    (by rintro m h; cases h; decide) (by decide)
  have hc : ∀ n, (List.replicate n (97 : UInt8)).takeWhile (· ≠ 0) = List.replicate n 97 := by
    intro n
    simp [List.takeWhile_replicate]
  have := C126_pointer_violated bigEndian (str "H") { sample with options := [(11, List.replicate 1024 97)] } [] [] _ _ w
    (by decide) rfl (by decide) (by
      have he : Spec.option bigEndian 11 (List.replicate 1024 97) = str ", Uri-Path: " ++ List.replicate 1024 97 := by
        unfold Spec.option
        rw [if_pos rfl, hc]
      have h11 : (11 : UInt16).toNat = 11 := rfl
      simp only [pieces, List.nil_append, List.map_cons, List.map_nil, h11, he, List.flatten_append, List.flatten_cons,
        List.length_append, List.length_replicate, List.flatten_nil, List.append_nil]
      have : (str "H").length = 1 := by decide
      omega) hw
  subst this
  exact ⟨_, hw⟩

end Verif.Coap.Printer
