import Verif.Dtls.RecordsSpec

/-!
# Records, datagrams and the numbers of received data — lemmas
-/

namespace Verif.Dtls.Records

open Spec

theorem be_length (k : Nat) : ∀ n, (be k n).length = k := by
  induction k with
  | zero => intro n; rfl
  | succ k ih => intro n; show (be k n).length + 1 = _; rw [ih]

theorem fromBE_append (a b : Bytes) : fromBE (a ++ b) = fromBE a * 256 ^ b.length + fromBE b := by
  have key : ∀ (b : Bytes) (n : Nat),
      b.foldl (fun n x => n * 256 + x.toNat) n = n * 256 ^ b.length + b.foldl (fun n x => n * 256 + x.toNat) 0 := by
    intro b
    induction b with
    | nil => intro n; simp
    | cons x b ih =>
      intro n
      rw [List.foldl_cons, List.foldl_cons, ih, ih (0 * 256 + x.toNat), List.length_cons, Nat.pow_succ]
      rw [Nat.add_mul, Nat.add_mul, Nat.mul_assoc n 256, Nat.mul_comm 256]
      omega
  unfold fromBE
  rw [List.foldl_append]
  exact key b _

theorem fromBE_be (k : Nat) : ∀ n, fromBE (be k n) = n % 256 ^ k := by
  induction k with
  | zero => intro n; show 0 = _; rw [Nat.pow_zero, Nat.mod_one]
  | succ k ih =>
    intro n
    show fromBE ([UInt8.ofNat (n / 256 ^ k)] ++ be k n) = _
    rw [fromBE_append, be_length, ih]
    have h1 : fromBE [UInt8.ofNat (n / 256 ^ k)] = n / 256 ^ k % 256 := by
      show 0 * 256 + (UInt8.ofNat (n / 256 ^ k)).toNat = _
      rw [Nat.zero_mul, Nat.zero_add, UInt8.toNat_ofNat']
    rw [h1, Nat.pow_succ, Nat.mod_mul, Nat.mul_comm (256 ^ k)]
    omega

theorem mbed_number {r : Rec} (h : Fits r) (s : St) : number .mbed s r = Spec.number .mbed r := by
  obtain ⟨h1, h2, -⟩ := h
  show fromBE (((header r).drop 3).take 8) = _
  have e : ((header r).drop 3).take 8 = be 2 r.epoch ++ be 6 r.seq := by
    unfold header be; rfl
  rw [e, fromBE_append, be_length, fromBE_be, fromBE_be]
  unfold Spec.number
  dsimp only
  rw [Nat.mod_eq_of_lt (by omega), Nat.mod_eq_of_lt (by omega)]

theorem header_length (r : Rec) : (header r).length = 13 := by
  unfold header; simp [be_length]

theorem wolf_bytes {r : Rec} (h : Fits r) (junk : Bytes) :
    12 ≤ (r.bytes ++ junk).length ∧ fromBE (((r.bytes ++ junk).drop 4).take 8) = Spec.number .wolf r := by
  obtain ⟨-, h2, h3⟩ := h
  refine ⟨?_, ?_⟩
  · unfold Rec.bytes; rw [List.length_append, List.length_append, header_length]; omega
  · have e : ((r.bytes ++ junk).drop 4).take 8 = be 1 r.epoch ++ (be 6 r.seq ++ [UInt8.ofNat (r.body.length / 256 ^ 1)]) := by
      unfold Rec.bytes header be be be be be be be; rfl
    rw [e, fromBE_append, fromBE_append, fromBE_be, fromBE_be, List.length_append, be_length]
    have h1 : fromBE [UInt8.ofNat (r.body.length / 256 ^ 1)] = r.body.length / 256 := by
      show 0 * 256 + (UInt8.ofNat (r.body.length / 256 ^ 1)).toNat = _
      rw [Nat.zero_mul, Nat.zero_add, UInt8.toNat_ofNat', Nat.pow_one]
      exact Nat.mod_eq_of_lt (by omega)
    rw [h1]
    unfold Spec.number
    dsimp only
    rw [Nat.mod_eq_of_lt (a := r.seq) (by omega)]
    simp only [List.length_cons, List.length_nil]
    omega

theorem snoc_ind {α : Type} {P : List α → Prop} (h0 : P []) (hs : ∀ l a, P l → P (l ++ [a])) (l : List α) : P l := by
  have : ∀ l : List α, P l.reverse := by
    intro l
    induction l with
    | nil => exact h0
    | cons a l ih => rw [List.reverse_cons]; exact hs _ _ ih
  have := this l.reverse
  rwa [List.reverse_reverse] at this

/-- Nothing is left of a datagram with at most one record. -/
theorem step_single (lib : Lib) (drop : Bool) {s : St} (op : Op) (hl : s.left = [])
    (h : ∀ ch g, op = .packet ch g → Single g) :
    (step lib drop s op).left = [] ∧ (step lib drop s op).out = s.out ++ (expected lib op).toList := by
  cases op with
  | poke =>
    show (read lib drop s none).left = [] ∧ (read lib drop s none).out = s.out ++ []
    unfold read
    rw [hl]
    exact ⟨rfl, (List.append_nil _).symm⟩
  | packet ch g =>
    obtain ⟨bytes, recs⟩ := g
    show (read lib drop { s with chan := ch } (some ⟨bytes, recs⟩)).left = [] ∧
      (read lib drop { s with chan := ch } (some ⟨bytes, recs⟩)).out = _
    unfold read
    rw [show ({ s with chan := ch } : St).left = [] from hl]
    have hr : ∀ s : St, (recv s bytes).left = s.left ∧ (recv s bytes).out = s.out ∧ (recv s bytes).chan = s.chan := by
      intro s; unfold recv; split <;> exact ⟨rfl, rfl, rfl⟩
    rcases h ch _ rfl with he | ⟨r, junk, he, hb, hf⟩
    · cases (show recs = [] from he)
      refine ⟨(hr _).1, ?_⟩
      rw [show expected lib (.packet ch ⟨bytes, []⟩) = none from rfl]
      exact (hr _).2.1.trans (List.append_nil _).symm
    · cases (show recs = [r] from he)
      have hb : bytes = r.bytes ++ junk := hb
      cases hd : r.data with
      | none =>
        have hs : scan drop [r] = none := by
          unfold scan
          rw [hd]
          cases drop <;> rfl
        have hx : expected lib (.packet ch ⟨bytes, [r]⟩) = none := by
          unfold expected; dsimp only; rw [hd]; rfl
        rw [hx]
        rw [show scan drop [] = none from rfl]
        dsimp only
        rw [hs]
        exact ⟨(hr _).1, (hr _).2.1.trans (List.append_nil _).symm⟩
      | some d =>
        have hs : scan drop [r] = some (r, d, []) := by unfold scan; rw [hd]
        have hx : expected lib (.packet ch ⟨bytes, [r]⟩) = some (ch, Spec.number lib r, d) := by
          unfold expected; dsimp only; rw [hd]; rfl
        rw [hx, show scan drop [] = none from rfl]
        dsimp only
        rw [hs]
        dsimp only
        refine ⟨rfl, ?_⟩
        unfold deliver
        dsimp only
        rw [(hr _).2.1, (hr _).2.2]
        have hn : number lib (recv { s with chan := ch, left := [] } bytes) r = Spec.number lib r := by
          cases lib with
          | mbed => exact mbed_number hf _
          | wolf =>
            show (recv { s with chan := ch, left := [] } bytes).last = _
            unfold recv
            rw [hb, if_pos (wolf_bytes hf junk).1]
            exact (wolf_bytes hf junk).2
        rw [hn]; rfl

/-! ### Other numbers -/

open Core.Conn (Ctx Client Conn update clientOf)

/-- The same connections with other numbers. -/
def cl (f : Nat → Nat) (k : Client) : Client := { k with maxSeq := f k.maxSeq }
def cn (f : Nat → Nat) (k : Conn) : Conn := { k with client := k.client.map (cl f) }
def cx (f : Nat → Nat) (c : Ctx) : Ctx := { c with conns := c.conns.map (cn f) }

variable (f : Nat → Nat)

theorem cx_update {g g' : Client → Client} (h : ∀ k, g' (cl f k) = cl f (g k)) (c : Ctx) (ref : Nat) :
    update (cx f c) ref g' = cx f (update c ref g) := by
  unfold update cx
  dsimp only
  rw [List.map_map, List.map_map]
  congr 1
  refine List.map_congr_left fun k _ => ?_
  show (if (cn f k).ref = ref then { cn f k with client := (cn f k).client.map g' } else cn f k) =
    cn f (if k.ref = ref then { k with client := k.client.map g } else k)
  show (if k.ref = ref then { cn f k with client := (cn f k).client.map g' } else cn f k) = _
  split
  · unfold cn
    dsimp only
    cases k.client with
    | none => rfl
    | some x => show _ = ({ ref := k.ref, client := some (cl f (g x)) } : Conn); rw [← h]; rfl
  · rfl

theorem cx_update_at {g g' : Client → Client} {c : Ctx} {ref : Nat}
    (h : ∀ k, (⟨ref, some k⟩ : Conn) ∈ c.conns → g' (cl f k) = cl f (g k)) :
    update (cx f c) ref g' = cx f (update c ref g) := by
  unfold update cx
  dsimp only
  rw [List.map_map, List.map_map]
  congr 1
  refine List.map_congr_left fun k hk => ?_
  show (if k.ref = ref then { cn f k with client := (cn f k).client.map g' } else cn f k) =
    cn f (if k.ref = ref then { k with client := k.client.map g } else k)
  split
  · next he =>
    obtain ⟨kr, kc⟩ := k
    cases (show kr = ref from he)
    cases kc with
    | none => rfl
    | some x =>
      show ({ ref := ref, client := some (g' (cl f x)) } : Conn) = { ref := ref, client := some (cl f (g x)) }
      rw [h x hk]
  · rfl

theorem cx_clientOf (c : Ctx) (ref : Nat) : clientOf (cx f c) ref = (clientOf c ref).map (cl f) := by
  unfold clientOf cx
  dsimp only
  rw [List.find?_map]
  have : ((fun k : Conn => decide (k.ref = ref)) ∘ cn f) = fun k => decide (k.ref = ref) := rfl
  rw [this]
  cases c.conns.find? (fun k => decide (k.ref = ref)) with
  | none => rfl
  | some k => rfl

theorem cx_fromId (c : Ctx) (h : Core.Conn.Bytes) : Core.Conn.fromId (cx f c) h = (Core.Conn.fromId c h).map (cn f) := by
  unfold Core.Conn.fromId cx
  dsimp only
  rw [List.find?_map]
  congr 1
  congr 1
  funext k
  obtain ⟨kr, kc⟩ := k
  cases kc <;> rfl

theorem cx_free (c : Ctx) (ref : Nat) :
    Core.Conn.free (cx f c) ref = (cx f (Core.Conn.free c ref).1, (Core.Conn.free c ref).2) := by
  have e : (c.conns.map (cn f)).filter (fun k => decide (k.ref ≠ ref)) =
      (c.conns.filter fun k => decide (k.ref ≠ ref)).map (cn f) := by
    rw [List.filter_map]; rfl
  unfold Core.Conn.free cx
  dsimp only
  rw [e]
  split <;> rfl

theorem cx_destroy (c : Ctx) (ref : Nat) :
    Core.Conn.destroy (cx f c) ref = (cx f (Core.Conn.destroy c ref).1, (Core.Conn.destroy c ref).2) := by
  unfold Core.Conn.destroy
  rw [cx_free]

theorem cx_alloc (c : Ctx) (mem : Bool) (k : Option Client) (h0 : ∀ x, k = some x → cl f x = x) :
    Core.Conn.alloc (cx f c) mem k = (cx f (Core.Conn.alloc c mem k).1, (Core.Conn.alloc c mem k).2) := by
  have hk : k.map (cl f) = k := by
    cases k with
    | none => rfl
    | some x => show some (cl f x) = _; rw [h0 x rfl]
  unfold Core.Conn.alloc
  show (if c.current ≥ c.max then _ else _) = _
  split
  · rfl
  · split
    · rfl
    · unfold Core.Conn.nextRef
      dsimp only
      show (match ({ cx f c with lastRef := (c.lastRef + 1) % 2 ^ 64 },
        if c.lastRef > (c.lastRef + 1) % 2 ^ 64 then none else some ((c.lastRef + 1) % 2 ^ 64)) with
        | (c, none) => _
        | (c, some ref) => _) = _
      by_cases hw : c.lastRef > (c.lastRef + 1) % 2 ^ 64
      · rw [if_pos hw]; rfl
      · rw [if_neg hw]
        dsimp only [cx]
        rw [List.map_append]
        show _ = (({ c with
            lastRef := (c.lastRef + 1) % 2 ^ 64, current := c.current + 1,
            conns := c.conns.map (cn f) ++ [⟨(c.lastRef + 1) % 2 ^ 64, k.map (cl f)⟩] } : Ctx), _)
        rw [hk]

theorem cx_sendInternalError (c : Ctx) (sock ep : Nat) (p : Core.Conn.Bytes) :
    Core.Conn.sendInternalError (cx f c) sock ep p =
      (cx f (Core.Conn.sendInternalError c sock ep p).1, (Core.Conn.sendInternalError c sock ep p).2) := by
  unfold Core.Conn.sendInternalError
  show (if c.sendingInternalError then _ else _) = _
  split
  · rfl
  · split <;> rfl

theorem cx_openNew (c : Ctx) (sock ep : Nat) (p : Core.Conn.Bytes) (k : Client) (mem ok : Bool) (h0 : cl f k = k) :
    Core.Conn.openNew (cx f c) sock ep p k mem ok =
      (cx f (Core.Conn.openNew c sock ep p k mem ok).1, (Core.Conn.openNew c sock ep p k mem ok).2) := by
  unfold Core.Conn.openNew
  rw [cx_alloc f c mem (some k) (fun x hx => by cases hx; exact h0)]
  cases Core.Conn.alloc c mem (some k) with
  | mk c1 o =>
    cases o with
    | none => exact cx_sendInternalError f c1 sock ep p
    | some ref =>
      dsimp only
      split
      · rfl
      · rw [cx_sendInternalError]
        dsimp only
        rw [cx_destroy]

theorem cx_handlePacket (h0 : f 0 = 0) (c : Ctx) (sock ep : Nat) (p : Core.Conn.Bytes) (mem ok : Bool) :
    Core.Conn.handlePacket (cx f c) sock ep p mem ok =
      (cx f (Core.Conn.handlePacket c sock ep p mem ok).1, (Core.Conn.handlePacket c sock ep p mem ok).2) := by
  unfold Core.Conn.handlePacket
  split
  · rfl
  · next hp =>
    rw [cx_fromId]
    cases Core.Conn.fromId c p with
    | none =>
      dsimp only [Option.map]
      split
      · refine cx_openNew f c sock ep p _ mem ok ?_
        unfold cl Core.Conn.newClient
        dsimp only
        rw [h0]
      · rfl
    | some k =>
      obtain ⟨ref, kc⟩ := k
      cases kc with
      | none => rfl
      | some x =>
        show Core.Conn.clientPacket (cx f c) ref (cl f x) sock ep p[15] p = (cx f (Core.Conn.clientPacket c ref x sock ep p[15] p).1, _)
        unfold Core.Conn.clientPacket
        dsimp only
        rw [cx_update f (g := fun cl => if p[15] ≠ cl.cur.id then { cl with alt := ⟨sock, ep, p[15]⟩ }
          else { cl with cur := ⟨sock, ep, cl.cur.id⟩ })]
        · rfl
        · intro k
          show (if p[15] ≠ k.cur.id then _ else _) = cl f (if p[15] ≠ k.cur.id then _ else _)
          split <;> rfl

theorem cx_closeLoop (sync : Nat → Bool) (ks : List Conn) : ∀ c : Ctx,
    Core.Conn.closeLoop sync (ks.map (cn f)) (cx f c) =
      (cx f (Core.Conn.closeLoop sync ks c).1, (Core.Conn.closeLoop sync ks c).2) := by
  induction ks with
  | nil => intro c; rfl
  | cons k ks ih =>
    intro c
    rw [List.map_cons]
    unfold Core.Conn.closeLoop
    have hs : (cn f k).client.isSome = k.client.isSome := by
      unfold cn; cases k.client <;> rfl
    rw [hs]
    split
    · have e : (if sync (cn f k).ref then Core.Conn.destroy (cx f c) (cn f k).ref else (cx f c, [])) =
          (cx f (if sync k.ref then Core.Conn.destroy c k.ref else (c, [])).1,
            (if sync k.ref then Core.Conn.destroy c k.ref else (c, [])).2) := by
        show (if sync k.ref then Core.Conn.destroy (cx f c) k.ref else (cx f c, [])) = _
        split
        · exact cx_destroy f c k.ref
        · rfl
      rw [e]
      generalize (if sync k.ref then Core.Conn.destroy c k.ref else (c, [])) = d
      dsimp only
      rw [ih]
      rfl
    · exact ih c

/-- The numbers of all connections are below a bound. -/
def Below (B : Nat) (c : Ctx) : Prop := ∀ k ∈ c.conns, ∀ x, k.client = some x → x.maxSeq < B

theorem cx_handleData {B : Nat} (hm : ∀ a b, a < B → b < B → (a < b ↔ f a < f b)) {c : Ctx} {ref : Nat} {x : Client}
    (hx : x.maxSeq < B) (ch : UInt8) {seq : Nat} (hs : seq < B) (d : Core.Conn.Bytes) :
    Core.Conn.handleData (cx f c) ref (cl f x) ch (f seq) d =
      (Core.Conn.handleData c ref x ch seq d).map fun o => (cx f o.1, o.2) := by
  unfold Core.Conn.handleData
  cases d with
  | nil => rfl
  | cons b d =>
    dsimp only
    have e : (b ≠ 4 ∧ f seq > (cl f x).maxSeq) ↔ (b ≠ 4 ∧ seq > x.maxSeq) :=
      and_congr Iff.rfl (hm x.maxSeq seq hx hs).symm
    by_cases hc : b ≠ 4 ∧ seq > x.maxSeq
    · rw [if_pos hc, if_pos (e.2 hc)]
      show (if x.cur.id ≠ ch ∧ x.alt.id = ch then _ else _) = _
      split
      · rw [cx_update f (g := fun k => { k with maxSeq := seq, cur := k.alt })]
        · rfl
        · intro k; rfl
      · rw [cx_update f (g := fun k => { k with maxSeq := seq })]
        · rfl
        · intro k; rfl
    · rw [if_neg hc, if_neg (fun h => hc (e.1 h))]; rfl

theorem clientOf_mem {c : Ctx} {ref : Nat} {x : Client} (h : clientOf c ref = some x) :
    ∃ k ∈ c.conns, k.client = some x := by
  unfold clientOf at h
  cases hf : c.conns.find? (fun k => decide (k.ref = ref)) with
  | none => rw [hf] at h; cases h
  | some k => rw [hf] at h; exact ⟨k, List.mem_of_find?_eq_some hf, h⟩

theorem cx_asyncClose (c : Ctx) (cb : Bool) (sync : Nat → Bool) :
    Core.Conn.asyncClose (cx f c) cb sync = (cx f (Core.Conn.asyncClose c cb sync).1, (Core.Conn.asyncClose c cb sync).2) := by
  have e : Core.Conn.closeLoop sync (cx f c).conns { cx f c with closing := true } =
      (cx f (Core.Conn.closeLoop sync c.conns { c with closing := true }).1,
        (Core.Conn.closeLoop sync c.conns { c with closing := true }).2) :=
    cx_closeLoop f sync c.conns { c with closing := true }
  have ha : (cx f c).conns.any (fun k => k.client.isSome) = c.conns.any fun k => k.client.isSome := by
    show (c.conns.map (cn f)).any _ = _
    rw [List.any_map]
    congr 1
    funext k
    show (k.client.map (cl f)).isSome = _
    cases k.client <;> rfl
  unfold Core.Conn.asyncClose
  dsimp only
  rw [e, ha]
  dsimp only
  split <;> rfl

/-- One event with other numbers. -/
theorem cx_step {B : Nat} (h0 : f 0 = 0) (hm : ∀ a b, a < B → b < B → (a < b ↔ f a < f b)) {c : Ctx} (hb : Below B c)
    (op : Core.Conn.Op) (ho : ∀ ref ch seq d, op = .data ref ch seq d → seq < B) :
    Core.Conn.step (cx f c) (renumber f op) = (Core.Conn.step c op).map fun o => (cx f o.1, o.2) := by
  cases op with
  | packet sock ep p mem ok =>
    show some (Core.Conn.handlePacket (cx f c) sock ep p mem ok) = some _
    rw [cx_handlePacket f h0]
  | data ref ch seq d =>
    show (match clientOf (cx f c) ref with
      | some cl => Core.Conn.handleData (cx f c) ref cl ch (f seq) d
      | none => some (cx f c, [])) = Option.map _ (match clientOf c ref with
      | some cl => Core.Conn.handleData c ref cl ch seq d
      | none => some (c, []))
    rw [cx_clientOf]
    cases hc : clientOf c ref with
    | none => rfl
    | some x =>
      obtain ⟨k, hk, hx⟩ := clientOf_mem hc
      exact cx_handleData f hm (hb k hk x hx) ch (ho ref ch seq d rfl) d
  | handshakeDone ref =>
    show (match clientOf (cx f c) ref with
      | some _ => some (cx f c, [Core.Conn.Out.event ref .opened])
      | none => some (cx f c, [])) = Option.map _ (match clientOf c ref with
      | some _ => some (c, [Core.Conn.Out.event ref .opened])
      | none => some (c, []))
    rw [cx_clientOf]
    cases clientOf c ref <;> rfl
  | dtlsClosed ref =>
    show (match clientOf (cx f c) ref with
      | some _ => some (Core.Conn.destroy (cx f c) ref)
      | none => some (cx f c, [])) = Option.map _ (match clientOf c ref with
      | some _ => some (Core.Conn.destroy c ref)
      | none => some (c, []))
    rw [cx_clientOf, cx_destroy]
    cases clientOf c ref <;> rfl
  | dtlsSend ref ch d =>
    show (match clientOf (cx f c) ref with
      | some cl => some (Core.Conn.sendToUdp (cx f c) ref cl ch d)
      | none => some (cx f c, [])) = Option.map _ (match clientOf c ref with
      | some cl => some (Core.Conn.sendToUdp c ref cl ch d)
      | none => some (c, []))
    rw [cx_clientOf]
    cases clientOf c ref with
    | none => rfl
    | some x =>
      dsimp only [Option.map]
      unfold Core.Conn.sendToUdp
      have e : update (cx f c) ref (fun cl => { cl with sending := true }) =
          cx f (update c ref fun cl => { cl with sending := true }) :=
        cx_update f (g := fun k => { k with sending := true }) (fun k => rfl) c ref
      show some (if x.sending then _ else _) = _
      split
      · rfl
      · dsimp only
        rw [e]
        show some (if ch = x.cur.id ∨ ch = _ then _ else if ch = x.alt.id then _ else _) = _
        split
        · rfl
        · split <;> rfl
  | udpSent ref =>
    show (match clientOf (cx f c) ref with
      | some cl => some (Core.Conn.sentToUdp (cx f c) ref cl)
      | none => some (cx f c, [])) = Option.map _ (match clientOf c ref with
      | some cl => some (Core.Conn.sentToUdp c ref cl)
      | none => some (c, []))
    rw [cx_clientOf]
    cases clientOf c ref with
    | none => rfl
    | some x =>
      dsimp only [Option.map]
      unfold Core.Conn.sentToUdp
      have e : update (cx f c) ref (fun cl => { cl with sending := false }) =
          cx f (update c ref fun cl => { cl with sending := false }) :=
        cx_update f (g := fun k => { k with sending := false }) (fun k => rfl) c ref
      rw [e]
      show some (if x.sending then _ else _) = _
      split <;> rfl
  | internalErrorSent => rfl
  | newVirtual mem =>
    show (match Core.Conn.alloc (cx f c) mem none with
      | (c, none) => some (c, [])
      | (c, some ref) => some (c, [Core.Conn.Out.created ref none, Core.Conn.Out.event ref .opened])) = Option.map _ (match Core.Conn.alloc c mem none with
      | (c, none) => some (c, [])
      | (c, some ref) => some (c, [Core.Conn.Out.created ref none, Core.Conn.Out.event ref .opened]))
    rw [cx_alloc f c mem none (fun x hx => by cases hx)]
    cases Core.Conn.alloc c mem none with
    | mk c1 o => cases o <;> rfl
  | freeVirtual ref =>
    have ha : (cx f c).conns.any (fun k => decide (k.ref = ref ∧ k.client = none)) =
        c.conns.any fun k => decide (k.ref = ref ∧ k.client = none) := by
      show (c.conns.map (cn f)).any _ = _
      rw [List.any_map]
      congr 1
      funext k
      show decide (k.ref = ref ∧ k.client.map (cl f) = none) = _
      cases k.client <;> simp
    show (if (cx f c).conns.any (fun k => decide (k.ref = ref ∧ k.client = none)) then some (Core.Conn.destroy (cx f c) ref)
      else some (cx f c, [])) = Option.map _ (if c.conns.any (fun k => decide (k.ref = ref ∧ k.client = none)) then _ else _)
    rw [ha, cx_destroy]
    split <;> rfl
  | setMax n => rfl
  | close cb sync =>
    show some (Core.Conn.asyncClose (cx f c) cb sync) = some _
    rw [cx_asyncClose]

theorem below_update {B : Nat} {c : Ctx} {ref : Nat} {g : Client → Client} (h : Below B c)
    (hg : ∀ x, x.maxSeq < B → (g x).maxSeq < B) : Below B (update c ref g) := by
  intro k hk x hx
  unfold update at hk
  obtain ⟨k', hk', rfl⟩ := List.mem_map.1 hk
  by_cases he : k'.ref = ref
  · rw [if_pos he] at hx
    cases hc : k'.client with
    | none => rw [hc] at hx; cases hx
    | some y =>
      rw [hc] at hx
      cases (show g y = x from Option.some.inj hx)
      exact hg y (h k' hk' y hc)
  · rw [if_neg he] at hx
    exact h k' hk' x hx

theorem below_sub {B : Nat} {c c' : Ctx} (h : Below B c) (hs : ∀ k ∈ c'.conns, k ∈ c.conns) : Below B c' :=
  fun k hk => h k (hs k hk)

theorem below_free {B : Nat} {c : Ctx} (ref : Nat) (h : Below B c) : Below B (Core.Conn.destroy c ref).1 := by
  refine below_sub h ?_
  intro k hk
  unfold Core.Conn.destroy Core.Conn.free at hk
  dsimp only at hk
  split at hk <;> exact (List.mem_filter.1 hk).1

theorem below_alloc {B : Nat} {c : Ctx} (mem : Bool) (k : Option Client) (h : Below B c)
    (hk : ∀ x, k = some x → x.maxSeq < B) : Below B (Core.Conn.alloc c mem k).1 := by
  unfold Core.Conn.alloc
  split
  · exact h
  · split
    · exact h
    · unfold Core.Conn.nextRef
      dsimp only
      by_cases hw : c.lastRef > (c.lastRef + 1) % 2 ^ 64
      · rw [if_pos hw]; exact h
      · rw [if_neg hw]
        intro k' hk' x hx
        rcases List.mem_append.1 hk' with hm | hm
        · exact h k' hm x hx
        · cases List.mem_singleton.1 hm
          exact hk x hx

theorem below_closeLoop {B : Nat} (sync : Nat → Bool) (ks : List Conn) : ∀ {c : Ctx}, Below B c →
    Below B (Core.Conn.closeLoop sync ks c).1 := by
  induction ks with
  | nil => intro c h; exact h
  | cons k ks ih =>
    intro c h
    unfold Core.Conn.closeLoop
    split
    · dsimp only
      split
      · exact ih (below_free k.ref h)
      · exact ih h
    · exact ih h

theorem below_error {B : Nat} {c : Ctx} (sock ep : Nat) (p : Core.Conn.Bytes) (h : Below B c) :
    Below B (Core.Conn.sendInternalError c sock ep p).1 := by
  unfold Core.Conn.sendInternalError
  split
  · exact h
  · split <;> exact h

theorem below_step {B : Nat} (hB : 0 < B) {c : Ctx} (h : Below B c) (op : Core.Conn.Op)
    (ho : ∀ ref ch seq d, op = .data ref ch seq d → seq < B) :
    ∀ o, Core.Conn.step c op = some o → Below B o.1 := by
  intro o he
  cases op with
  | packet sock ep p mem ok =>
    cases he
    unfold Core.Conn.handlePacket
    split
    · exact h
    · split
      · unfold Core.Conn.clientPacket
        refine below_update h ?_
        intro x hx
        split <;> exact hx
      · exact h
      · split
        · unfold Core.Conn.openNew
          have ha := below_alloc (c := c) mem (some (Core.Conn.newClient sock ep p (by omega))) h
            (fun x hx => by cases hx; exact hB)
          generalize Core.Conn.alloc c mem (some (Core.Conn.newClient sock ep p (by omega))) = a at ha ⊢
          obtain ⟨c1, o⟩ := a
          cases o with
          | none => exact below_error sock ep p ha
          | some ref =>
            dsimp only
            split
            · exact ha
            · exact below_free ref (below_error sock ep p ha)
        · exact h
  | data ref ch seq d =>
    have hs := ho ref ch seq d rfl
    unfold Core.Conn.step at he
    dsimp only at he
    split at he
    · unfold Core.Conn.handleData at he
      split at he
      · cases he
      · split at he
        · split at he
          · cases he; exact below_update h (fun _ _ => hs)
          · cases he; exact below_update h (fun _ _ => hs)
        · cases he; exact h
    · cases he; exact h
  | handshakeDone ref =>
    unfold Core.Conn.step at he; dsimp only at he; split at he <;> (cases he; exact h)
  | dtlsClosed ref =>
    unfold Core.Conn.step at he; dsimp only at he; split at he
    · cases he; exact below_free ref h
    · cases he; exact h
  | dtlsSend ref ch d =>
    unfold Core.Conn.step at he; dsimp only at he; split at he
    · cases he
      unfold Core.Conn.sendToUdp
      have hu : Below B (update c ref fun cl => { cl with sending := true }) := below_update h (fun _ hx => hx)
      split
      · exact h
      · dsimp only
        split
        · exact hu
        · split <;> exact hu
    · cases he; exact h
  | udpSent ref =>
    unfold Core.Conn.step at he; dsimp only at he; split at he
    · cases he
      unfold Core.Conn.sentToUdp
      split
      · exact below_update h (fun _ hx => hx)
      · exact h
    · cases he; exact h
  | internalErrorSent => cases he; exact h
  | newVirtual mem =>
    have ha := below_alloc (c := c) mem none h (fun x hx => by cases hx)
    unfold Core.Conn.step at he; dsimp only at he
    generalize Core.Conn.alloc c mem none = a at ha he
    obtain ⟨c1, o⟩ := a
    cases o <;> (cases he; exact ha)
  | freeVirtual ref =>
    unfold Core.Conn.step at he; dsimp only at he; split at he
    · cases he; exact below_free ref h
    · cases he; exact h
  | setMax n => cases he; exact h
  | close cb sync =>
    cases he
    unfold Core.Conn.asyncClose
    have hl : Below B (Core.Conn.closeLoop sync c.conns { c with closing := true }).1 := below_closeLoop sync _ h
    dsimp only
    split <;> exact hl

theorem cx_run {B : Nat} (hB : 0 < B) (h0 : f 0 = 0) (hm : ∀ a b, a < B → b < B → (a < b ↔ f a < f b))
    (ops : List Core.Conn.Op) (ho : ∀ ref ch seq d, .data ref ch seq d ∈ ops → seq < B) : ∀ {c : Ctx}, Below B c →
    Core.Conn.run (cx f c) (ops.map (renumber f)) = (Core.Conn.run c ops).map fun o => (cx f o.1, o.2) := by
  induction ops with
  | nil => intro c _; rfl
  | cons op ops ih =>
    intro c hb
    have ho' : ∀ ref ch seq d, op = .data ref ch seq d → seq < B :=
      fun ref ch seq d he => ho ref ch seq d (by rw [he]; exact List.mem_cons_self ..)
    rw [List.map_cons]
    unfold Core.Conn.run
    rw [cx_step f h0 hm hb op ho']
    have hbs := below_step hB hb op ho'
    cases hs : Core.Conn.step c op with
    | none => rfl
    | some o =>
      obtain ⟨c1, os⟩ := o
      have hb1 : Below B c1 := hbs _ hs
      dsimp only [Option.map]
      rw [ih (fun ref ch seq d hx => ho ref ch seq d (List.mem_cons_of_mem _ hx)) hb1]
      cases Core.Conn.run c1 ops with
      | none => rfl
      | some o => rfl

end Verif.Dtls.Records
