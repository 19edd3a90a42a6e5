import Verif.Dtls.RecordsLemmas

/-!
# Records, datagrams and the numbers of received data — properties
-/

namespace Verif.Dtls.Records

open Spec

/-- C122: if every datagram holds at most one record, then the data of every datagram is given to the connection once, in order,
when it arrives, with the channel it came on and its number; with both libraries, whatever forged datagrams come in between, and
however often the library is called in between. -/
theorem C122_delivered_partial (lib : Lib) (drop : Bool) (ops : List Op) (h : ∀ ch g, .packet ch g ∈ ops → Single g) :
    (run lib drop ops).out = ops.filterMap (expected lib) := by
  have key : (run lib drop ops).left = [] ∧ (run lib drop ops).out = ops.filterMap (expected lib) := by
    induction ops using snoc_ind with
    | h0 => exact ⟨rfl, rfl⟩
    | hs ops op ih =>
      obtain ⟨hl, ho⟩ := ih (fun ch g hx => h ch g (List.mem_append_left _ hx))
      have e : run lib drop (ops ++ [op]) = step lib drop (run lib drop ops) op := by
        unfold run; rw [List.foldl_append]; rfl
      rw [e]
      obtain ⟨h1, h2⟩ := step_single lib drop op hl
        (fun ch g hx => h ch g (List.mem_append_right _ (by rw [hx]; exact List.mem_singleton.2 rfl)))
      refine ⟨h1, ?_⟩
      rw [h2, ho, List.filterMap_append]
      cases hx : expected lib op with
      | none => simp [hx]
      | some b => simp [hx]
  exact key.2

/-- C122: the numbers which the wolfSSL module gives are not those of the records, but as long as the epoch fits into a byte they
are in the same order. -/
theorem C122_order {r r' : Rec} (h : Fits r) (h' : Fits r') (he : r.epoch < 256) (he' : r'.epoch < 256)
    (hn : Spec.number .mbed r = Spec.number .mbed r' → r = r') :
    Spec.number .mbed r < Spec.number .mbed r' ↔ Spec.number .wolf r < Spec.number .wolf r' := by
  obtain ⟨-, h2, h3⟩ := h
  obtain ⟨-, h2', h3'⟩ := h'
  unfold Spec.number
  dsimp only
  by_cases hx : r.epoch * 2 ^ 48 + r.seq = r'.epoch * 2 ^ 48 + r'.seq
  · rw [hn hx]; simp
  · rw [Nat.mod_eq_of_lt he, Nat.mod_eq_of_lt he']
    omega

/-- C122: a device with wolfSSL treats its connections exactly as one with mbed TLS, although the numbers differ. -/
theorem C122_same (m : Bool) (ops : List Core.Conn.Op) (len : Nat → Nat) (hl : ∀ n, len n < 2 ^ 16)
    (h : ∀ ref ch n d, .data ref ch n d ∈ ops → 0 < n ∧ n < 2 ^ 56) :
    (Core.Conn.run (Core.Conn.init m) (ops.map (renumber (wolfOf len)))).map (·.2) =
      (Core.Conn.run (Core.Conn.init m) ops).map (·.2) := by
  -- a function which is the same on the numbers which occur and maps 0 to 0
  let f : Nat → Nat := fun n => if n = 0 then 0 else wolfOf len n
  have e : ops.map (renumber (wolfOf len)) = ops.map (renumber f) := by
    refine List.map_congr_left fun op ho => ?_
    cases op with
    | data ref ch n d =>
      show Core.Conn.Op.data ref ch (wolfOf len n) d = .data ref ch (f n) d
      have := (h ref ch n d ho).1
      have : f n = wolfOf len n := if_neg (by omega)
      rw [this]
    | _ => rfl
  have hm : ∀ a b, a < 2 ^ 56 → b < 2 ^ 56 → (a < b ↔ f a < f b) := by
    intro a b ha hb
    have h1 := hl a
    have h2 := hl b
    show a < b ↔ (if a = 0 then 0 else wolfOf len a) < (if b = 0 then 0 else wolfOf len b)
    by_cases hab : a = b
    · subst hab; simp
    · unfold wolfOf
      split <;> split <;> omega
  have := cx_run f (B := 2 ^ 56) (by decide) rfl hm ops (fun ref ch n d hx => (h ref ch n d hx).2)
    (c := Core.Conn.init m) (fun k hk => by cases hk)
  rw [e]
  have ei : cx f (Core.Conn.init m) = Core.Conn.init m := rfl
  rw [ei] at this
  rw [this]
  cases Core.Conn.run (Core.Conn.init m) ops <;> rfl

/-- C122: `wolfOf` gives the numbers of the wolfSSL module. -/
theorem C122_wolfOf {r : Rec} (h : Fits r) (len : Nat → Nat) (hl : len (Spec.number .mbed r) = r.body.length) :
    wolfOf len (Spec.number .mbed r) = Spec.number .wolf r := by
  obtain ⟨-, h2, -⟩ := h
  unfold wolfOf
  rw [hl]
  unfold Spec.number
  dsimp only
  omega

/-- C122 is violated: after a datagram with two records the next datagram is not looked at, with either library: the device goes
on exactly as if it had been empty. What is delivered in its place is the second record of the datagram before, with the channel
of the datagram which is dropped; with wolfSSL also with the number of the first record. -/
theorem C122_lost_violated (lib : Lib) (drop : Bool) (s : St) (hs : s.left = []) (r₁ r₂ : Rec) (d₁ d₂ : Bytes)
    (h₁ : r₁.data = some d₁) (h₂ : r₂.data = some d₂) (hf₁ : Fits r₁) (hf₂ : Fits r₂) (ch₁ ch₂ : UInt8) (g : Dgram) :
    let two : Op := .packet ch₁ ⟨r₁.bytes ++ r₂.bytes, [r₁, r₂]⟩
    step lib drop (step lib drop s two) (.packet ch₂ g) = step lib drop (step lib drop s two) (.packet ch₂ ⟨[], []⟩) ∧
    (step lib drop (step lib drop s two) (.packet ch₂ g)).out =
      s.out ++ [(ch₁, Spec.number lib r₁, d₁), (ch₂, Spec.number lib (if lib = .wolf then r₁ else r₂), d₂)] := by
  intro two
  have hs1 : scan drop [r₁, r₂] = some (r₁, d₁, [r₂]) := by unfold scan; rw [h₁]
  have hs2 : scan drop [r₂] = some (r₂, d₂, []) := by unfold scan; rw [h₂]
  have e1 : step lib drop s two =
      deliver lib (recv { s with chan := ch₁, left := [] } (r₁.bytes ++ r₂.bytes)) r₁ d₁ [r₂] := by
    show read lib drop { s with chan := ch₁ } (some ⟨r₁.bytes ++ r₂.bytes, [r₁, r₂]⟩) = _
    unfold read
    rw [show scan drop ({ s with chan := ch₁ } : St).left = none from by rw [show _ = _ from hs]; rfl]
    dsimp only
    rw [hs1]
  have hr : recv { s with chan := ch₁, left := [] } (r₁.bytes ++ r₂.bytes) =
      { s with chan := ch₁, left := [], last := Spec.number .wolf r₁ } := by
    unfold recv
    rw [if_pos (wolf_bytes hf₁ r₂.bytes).1, (wolf_bytes hf₁ r₂.bytes).2]
  rw [hr] at e1
  have e2 : ∀ g, step lib drop (step lib drop s two) (.packet ch₂ g) =
      deliver lib { step lib drop s two with chan := ch₂ } r₂ d₂ [] := by
    intro g
    show read lib drop { step lib drop s two with chan := ch₂ } (some g) = _
    unfold read
    rw [show ({ step lib drop s two with chan := ch₂ } : St).left = [r₂] from by rw [e1]; rfl, hs2]
  refine ⟨by rw [e2, e2], ?_⟩
  rw [e2, e1]
  unfold deliver
  dsimp only
  rw [List.append_assoc]
  congr 1
  cases lib with
  | mbed =>
    rw [mbed_number hf₁, mbed_number hf₂]; rfl
  | wolf => rfl

/-- C122 is violated, with a library which goes on after a record it discards: whoever puts 13 bytes in front of a genuine record
chooses the number which the wolfSSL module gives with its data, apart from its last byte. -/
theorem C122_forged_violated (s : St) (hs : s.left = []) (r : Rec) (d : Bytes) (hd : r.data = some d) (ch : UInt8) (k : Nat)
    (hk : k < 2 ^ 56) :
    ∃ forged : Rec, Fits forged ∧ forged.bytes.length = 13 ∧ forged.data = none ∧
      (step .wolf false s (.packet ch ⟨forged.bytes ++ r.bytes, [forged, r]⟩)).out = s.out ++ [(ch, k * 256, d)] := by
  have hf : Fits ⟨23, k / 2 ^ 48, k % 2 ^ 48, [], none⟩ := by
    refine ⟨?_, ?_, ?_⟩
    · show k / 2 ^ 48 < 2 ^ 16; omega
    · show k % 2 ^ 48 < 2 ^ 48; omega
    · show 0 < 2 ^ 16; decide
  refine ⟨⟨23, k / 2 ^ 48, k % 2 ^ 48, [], none⟩, hf, ?_, rfl, ?_⟩
  · unfold Rec.bytes; rw [List.append_nil, header_length]
  · have hsc : scan false [⟨23, k / 2 ^ 48, k % 2 ^ 48, [], none⟩, r] = some (r, d, []) := by
      show (match r.data with | some d => some (r, d, []) | none => _) = _
      rw [hd]
    have hb := wolf_bytes hf r.bytes
    have hn : Spec.number .wolf ⟨23, k / 2 ^ 48, k % 2 ^ 48, [], none⟩ = k * 256 := by
      show k / 2 ^ 48 % 256 * 2 ^ 56 + k % 2 ^ 48 * 2 ^ 8 + 0 / 256 = _
      omega
    rw [hn] at hb
    generalize Rec.bytes ⟨23, k / 2 ^ 48, k % 2 ^ 48, [], none⟩ ++ r.bytes = bytes at hb
    show (read .wolf false { s with chan := ch } (some ⟨bytes, _⟩)).out = _
    unfold read
    rw [show scan false ({ s with chan := ch } : St).left = none from by rw [show _ = _ from hs]; rfl]
    dsimp only
    rw [hsc]
    dsimp only
    unfold recv
    rw [if_pos hb.1, hb.2]
    rfl

/-! The hypotheses are met by histories in which something happens. -/

/-- Two records, of the same epoch and of different lengths. -/
def one : Rec := ⟨23, 1, 5, List.replicate 300 0, some [5, 1]⟩
def two : Rec := ⟨23, 1, 6, List.replicate 20 0, some [0x41]⟩

def ordinary : List Op :=
  [.packet 0 ⟨one.bytes, [one]⟩, .poke, .packet 1 ⟨[1, 2, 3], []⟩, .packet 1 ⟨two.bytes ++ [0], [two]⟩]

theorem one_fits : Fits one :=
  ⟨by decide, by decide, by show (List.replicate 300 (0 : UInt8)).length < _; rw [List.length_replicate]; decide⟩
theorem two_fits : Fits two := ⟨by decide, by decide, by decide⟩

example : ∀ ch g, .packet ch g ∈ ordinary → Single g := by
  intro ch g h
  unfold ordinary at h
  simp only [List.mem_cons, List.not_mem_nil, or_false, reduceCtorEq, false_or] at h
  rcases h with h | h | h
  · cases h; exact Or.inr ⟨one, [], rfl, (List.append_nil _).symm, one_fits⟩
  · cases h; exact Or.inl rfl
  · cases h; exact Or.inr ⟨two, [0], rfl, rfl, two_fits⟩

example : ordinary.filterMap (expected .mbed) = [(0, 2 ^ 48 + 5, [5, 1]), (1, 2 ^ 48 + 6, [0x41])] := by decide
set_option maxRecDepth 20000 in
example : ordinary.filterMap (expected .wolf) = [(0, 2 ^ 56 + 5 * 256 + 1, [5, 1]), (1, 2 ^ 56 + 6 * 256, [0x41])] := by decide
example : one.epoch < 256 ∧ (Spec.number .mbed one = Spec.number .mbed two → one = two) := by decide

/-- A client which moves to another channel. -/
def moving : List Core.Conn.Op :=
  [.packet 1 1 (List.replicate 15 1 ++ [0, 22]) true true, .data 1 0 (2 ^ 48 + 5) [5],
   .packet 2 2 (List.replicate 15 1 ++ [1, 23]) true true, .data 1 1 (2 ^ 48 + 6) [5]]

example : ∀ ref ch n d, .data ref ch n d ∈ moving → 0 < n ∧ n < 2 ^ 56 := by
  intro ref ch n d h
  unfold moving at h
  simp only [List.mem_cons, List.not_mem_nil, or_false, reduceCtorEq, false_or, Core.Conn.Op.data.injEq] at h
  omega

example : ((Core.Conn.run (Core.Conn.init true) moving).map (·.2)).any
    (fun os => os.any (· = .event 1 .channelChanged)) = true := by decide

end Verif.Dtls.Records
