import Verif.Stream.ManagerOut

/-!
# C42, C81 and C82: ports, lives and limits of streams

`C` are the addresses of connections, `L` the names of listeners, `f` the flag bits of the streaming module. A
history is any list of operations (`Op`) of clients, application, timers and connections, in any order; what an
operation tells the outside is `Spec.told`. Theorems about a state have the hypothesis that nothing undefined has
happened before (`ub = false`); C81 says when this holds.
-/

namespace Verif.Stream.Manager

open Verif.Core.Packet
open Spec

variable {C L : Type} [DecidableEq C] [DecidableEq L]

/-! ### Reading `told` -/

theorem told_eq (f : Flags) {ops : List (Op C L)} {op : Op C L} {os : List (Out C L)}
    (h : (run f (ops ++ [op])).out = (run f ops).out ++ os) : told f ops op = os := by
  rw [told, h, List.drop_left]

theorem told_allowed (f : Flags) {ops : List (Op C L)} {op : Op C L} {o : Out C L} (h : o ∈ told f ops op) :
    Allowed f (run f ops) op o := by
  obtain ⟨⟨os, e, p⟩, -⟩ := step_out f (run f ops) op
  rw [← run_snoc] at e
  rw [told_eq f e] at h
  exact p o h

theorem step_go (f : Flags) {ops : List (Op C L)} (op : Op C L) (hu : (run f ops).ub = false) :
    run f (ops ++ [op]) = step f (run f ops) op ∧ ¬ (run f ops).ub = true := ⟨run_snoc f ops op, by rw [hu]; simp⟩

omit [DecidableEq C] [DecidableEq L] in
theorem allocated_eq {s : St C L} (h : Inv s) : allocated s = s.current := by
  rw [h.glob.count, live, allocated, List.countP_eq_length_filter]

theorem find_of_not_exists {s : St C L} {c : C} {sid : UInt64} (h : Inv s) (hn : ¬ Exists s c sid) :
    find s.mem sid c s.streams = .no := by
  rcases hf : find s.mem sid c s.streams with _ | _ | n
  · exact absurd hf (find_live fun n hn => h.listed hn)
  · rfl
  · obtain ⟨a, x, b, d, e⟩ := find_at hf
    exact absurd ⟨n, x, a, b, e, d⟩ hn

theorem exists_of_find {s : St C L} {c : C} {sid : UInt64} (hf : find s.mem sid c s.streams = .no) :
    ¬ Exists s c sid := fun ⟨n, x, a, b, d, e⟩ => find_no hf n a x b ⟨e, d⟩

/-! ### C42: listeners -/

/-- **C42 (ports).** At any time no two listeners have the same port. -/
theorem C42_ports_unique (f : Flags) (ops : List (Op C L)) (hu : (run f ops).ub = false) (l l' : L) (port : UInt32)
    (h : Listens (run f ops) l port) (h' : Listens (run f ops) l' port) : l = l' := by
  have hn := (run_inv' f ops hu).glob.ports
  have key : ∀ ls : List (L × UInt32), (ls.map Prod.snd).Nodup → (l, port) ∈ ls → (l', port) ∈ ls → l = l' := by
    intro ls
    induction ls with
    | nil => intro _ h; simp at h
    | cons a ls ih =>
      intro hn h h'
      rw [List.map_cons, List.nodup_cons] at hn
      rcases List.mem_cons.1 h with h1 | h1 <;> rcases List.mem_cons.1 h' with h2 | h2
      · rw [← h1] at h2; exact (congrArg Prod.fst h2).symm
      · rw [← h1] at hn; exact absurd (List.mem_map.2 ⟨_, h2, rfl⟩) hn.1
      · rw [← h2] at hn; exact absurd (List.mem_map.2 ⟨_, h1, rfl⟩) hn.1
      · exact ih hn.2 h1 h2
  exact key _ hn h h'

/-- Two listeners on two ports. -/
example : Listens (run (C := Nat) ⟨1, 4⟩ [.addListener 'a' 80 (fun _ => 0), .addListener 'b' 81 (fun _ => 0)]) 'b' 81 := by
  unfold Listens; decide

/-- **C42 (asking for a port).** A listener which asks for a port gets exactly this port if nobody listens on it,
and is refused otherwise; other listeners keep their ports. -/
theorem C42_listen (f : Flags) (ops : List (Op C L)) (hu : (run f ops).ub = false) (l : L) (port : UInt32)
    (rand : Nat → UInt32) (hp : port ≠ 0) (hl : ∀ p, ¬ Listens (run f ops) l p) :
    ((∀ l', ¬ Listens (run f ops) l' port) →
      told f ops (.addListener l port rand) = [.listening l port] ∧
      ∀ l' p, Listens (run f (ops ++ [.addListener l port rand])) l' p ↔
        Listens (run f ops) l' p ∨ l' = l ∧ p = port) ∧
    ((∃ l', Listens (run f ops) l' port) →
      told f ops (.addListener l port rand) = [.portInUse l] ∧
      ∀ l' p, Listens (run f (ops ++ [.addListener l port rand])) l' p ↔ Listens (run f ops) l' p) := by
  obtain ⟨e, hu'⟩ := step_go f (.addListener l port rand) hu
  have hany : ¬ (run f ops).listeners.any (fun p => p.1 = l) = true := by
    intro h
    obtain ⟨⟨a, p⟩, h1, h2⟩ := List.any_eq_true.1 h
    obtain rfl : a = l := by simpa using h2
    exact hl p h1
  rw [step, if_neg hu'] at e
  rw [if_neg hany, St.addListener, if_neg hp, St.listen] at e
  constructor
  · intro hf
    have : ¬ (run f ops).inUse port = true := by
      rw [inUse_iff, List.mem_map]
      rintro ⟨⟨a, p⟩, h1, rfl⟩
      exact hf a h1
    rw [if_neg this] at e
    refine ⟨told_eq f (by rw [e]; rfl), fun l' p => ?_⟩
    rw [Listens, e]
    simp [St.say, Listens]
  · rintro ⟨l', hf⟩
    have : (run f ops).inUse port = true := by
      rw [inUse_iff, List.mem_map]; exact ⟨_, hf, rfl⟩
    rw [if_pos this] at e
    refine ⟨told_eq f (by rw [e]; rfl), fun l' p => ?_⟩
    rw [Listens, e]
    rfl

/-- The second listener on port 80 is refused. -/
example : told (C := Nat) ⟨1, 4⟩ [.addListener 'a' 80 (fun _ => 0)] (.addListener 'b' 80 (fun _ => 0)) =
    [.portInUse 'b'] := by decide

theorem ephemeral_some {s : St C L} {rand : Nat → UInt32} {p : UInt32} : ∀ {k i : Nat},
    s.ephemeral rand k i = some p → s.inUse p = false ∧ ∃ j, i ≤ j ∧ j < i + k ∧ p = 0x80000000 + (rand j &&& 0x7FFFFFFF) := by
  intro k
  induction k with
  | zero => intro i h; simp [St.ephemeral] at h
  | succ k ih =>
    intro i h
    rw [St.ephemeral] at h
    by_cases hc : s.inUse (0x80000000 + (rand i &&& 0x7FFFFFFF)) = true
    · rw [if_pos hc] at h
      obtain ⟨a, j, b, d, e⟩ := ih h
      exact ⟨a, j, by omega, by omega, e⟩
    · rw [if_neg hc] at h
      obtain rfl := Option.some.inj h
      exact ⟨by simpa using hc, i, Nat.le_refl _, by omega, rfl⟩

theorem ephemeral_none {s : St C L} {rand : Nat → UInt32} : ∀ {k i : Nat},
    s.ephemeral rand k i = none → ∀ j, i ≤ j → j < i + k → s.inUse (0x80000000 + (rand j &&& 0x7FFFFFFF)) = true := by
  intro k
  induction k with
  | zero => intro i _ j h1 h2; omega
  | succ k ih =>
    intro i h j h1 h2
    rw [St.ephemeral] at h
    by_cases hc : s.inUse (0x80000000 + (rand i &&& 0x7FFFFFFF)) = true
    · rw [if_pos hc] at h
      by_cases hj : j = i
      · subst hj; exact hc
      · exact ih h j (by omega) (by omega)
    · rw [if_neg hc] at h; simp at h

theorem ephemeral_high (r : UInt32) : (0x80000000 : UInt32) ≤ 0x80000000 + (r &&& 0x7FFFFFFF) := by
  rw [UInt32.le_iff_toNat_le, UInt32.toNat_add, UInt32.toNat_and]
  have h : (r.toNat &&& (0x7FFFFFFF : UInt32).toNat) ≤ (0x7FFFFFFF : UInt32).toNat := Nat.and_le_right
  have h1 : (0x7FFFFFFF : UInt32).toNat = 0x7FFFFFFF := rfl
  have h2 : (0x80000000 : UInt32).toNat = 0x80000000 := rfl
  rw [h1] at h ⊢
  rw [h2]
  omega

/-- **C42 (any port).** A listener which does not ask for a port gets an unused one of the upper half; it is only
refused when the ten random ports which were tried are in use. -/
theorem C42_ephemeral (f : Flags) (ops : List (Op C L)) (hu : (run f ops).ub = false) (l : L) (rand : Nat → UInt32)
    (hl : ∀ p, ¬ Listens (run f ops) l p) :
    (∃ p, 0x80000000 ≤ p ∧ (∀ l', ¬ Listens (run f ops) l' p) ∧
      told f ops (.addListener l 0 rand) = [.listening l p] ∧
      ∀ l' q, Listens (run f (ops ++ [.addListener l 0 rand])) l' q ↔
        Listens (run f ops) l' q ∨ l' = l ∧ q = p) ∨
    (told f ops (.addListener l 0 rand) = [.noPort l] ∧
      (∀ l' q, Listens (run f (ops ++ [.addListener l 0 rand])) l' q ↔ Listens (run f ops) l' q) ∧
      ∀ i, i < 10 → ∃ l', Listens (run f ops) l' (0x80000000 + (rand i &&& 0x7FFFFFFF))) := by
  obtain ⟨e, hu'⟩ := step_go f (.addListener l 0 rand) hu
  have hany : ¬ (run f ops).listeners.any (fun p => p.1 = l) = true := by
    intro h
    obtain ⟨⟨a, p⟩, h1, h2⟩ := List.any_eq_true.1 h
    obtain rfl : a = l := by simpa using h2
    exact hl p h1
  rw [step, if_neg hu'] at e
  rw [if_neg hany, St.addListener, if_pos rfl] at e
  cases hp : (run f ops).ephemeral rand 10 0 with
  | none =>
    rw [hp] at e
    refine .inr ⟨told_eq f (by rw [e]; rfl), fun l' q => by rw [Listens, e]; rfl, fun i hi => ?_⟩
    have := ephemeral_none hp i (Nat.zero_le _) (by omega)
    rw [inUse_iff, List.mem_map] at this
    obtain ⟨⟨a, p⟩, h1, h2⟩ := this
    dsimp only at h2
    subst h2
    exact ⟨a, h1⟩
  | some p =>
    rw [hp] at e
    obtain ⟨a, j, -, -, b⟩ := ephemeral_some hp
    dsimp only at e
    rw [St.listen, if_neg (by rw [a]; simp)] at e
    refine .inl ⟨p, b ▸ ephemeral_high _, fun l' hl' => ?_, told_eq f (by rw [e]; rfl), fun l' q => ?_⟩
    · have : (run f ops).inUse p = true := by rw [inUse_iff, List.mem_map]; exact ⟨_, hl', rfl⟩
      rw [a] at this; simp at this
    · rw [Listens, e]; simp [St.say, Listens]

example : told (C := Nat) ⟨1, 4⟩ [.addListener 'a' 0x80000005 (fun _ => 0)] (.addListener 'b' 0 (fun n => n.toUInt32 + 5)) =
    [.listening 'b' 0x80000006] := by decide

/-! ### C42: creation of streams -/

/-- **C42 (only a SYN).** A stream is only created by a packet from an existing connection whose flags are SYN and
nothing else, with an even id which no stream of the connection has, and while fewer streams than the limit are
allocated. -/
theorem C42_created (f : Flags) (ops : List (Op C L)) (op : Op C L) (hu : (run f ops).ub = false) (n : Nat) (c : C)
    (sid nonce : UInt64) (h : Out.created n c sid nonce ∈ told f ops op) :
    ∃ bytes m r evs hd, op = .packet c bytes m r evs ∧ c ∈ (run f ops).conns ∧ parseHeader bytes = .ok hd ∧
      hd.flags = f.syn ∧ hd.streamId = sid ∧ sid % 2 = 0 ∧ ¬ Exists (run f ops) c sid ∧
      allocated (run f ops) < (run f ops).maxStreams := by
  have hi := run_inv' f ops hu
  obtain ⟨-, -, bytes, m, r, evs, hd, e, h1, h2, h3, h4, h5, h6, h7⟩ := told_allowed f h
  refine ⟨bytes, m, r, evs, hd, e, h7, h1, h2, h3, ?_, exists_of_find h5, by rw [allocated_eq hi]; exact h6⟩
  rw [Ne, ← UInt64.toNat_inj, UInt64.toNat_mod] at h4
  rw [← UInt64.toNat_inj, UInt64.toNat_mod]
  have e1 : (1 : UInt64).toNat = 1 := rfl
  have e2 : (2 : UInt64).toNat = 2 := rfl
  have e0 : (0 : UInt64).toNat = 0 := rfl
  rw [e1, e2] at h4
  rw [e0, e2]
  omega

/-- **C42 (a SYN creates).** Such a packet creates the stream when memory is there. -/
theorem C42_syn_creates (f : Flags) (ops : List (Op C L)) (hu : (run f ops).ub = false) (c : C) (bytes : List UInt8)
    (m : MemEnv) (r : RstEnv) (evs : List Ev) (hd : Header) (hc : c ∈ (run f ops).conns)
    (hp : parseHeader bytes = .ok hd) (hf : hd.flags = f.syn) (he : hd.streamId % 2 = 0)
    (hx : ¬ Exists (run f ops) c hd.streamId) (ha : allocated (run f ops) < (run f ops).maxStreams)
    (hm : m = ⟨true, true⟩) :
    ∃ n nonce, Out.created n c hd.streamId nonce ∈ told f ops (.packet c bytes m r evs) := by
  have hi := run_inv' f ops hu
  obtain ⟨e, hu'⟩ := step_go f (.packet c bytes m r evs) hu
  rw [step, if_neg hu'] at e
  rw [if_neg (by simpa using hc), St.handlePacket, hp] at e
  dsimp only at e
  rw [find_of_not_exists hi hx] at e
  dsimp only at e
  have h1 : ¬ hd.streamId % 2 = 1 := by rw [he]; decide
  rw [allocated_eq hi] at ha
  subst hm
  rw [if_pos hf, St.acceptStream, if_neg h1, if_neg (by omega), if_neg (by simp), if_neg (by simp)] at e
  dsimp only at e
  let P : Out C L → Prop := fun _ => True
  let s1 : St C L := St.say (St.put { (run f ops) with current := (run f ops).current + 1, nonce := (run f ops).nonce + 1, next := (run f ops).next + 1, streams := (run f ops).streams ++ [(run f ops).next] } (run f ops).next (some { sid := hd.streamId, conn := some c, virt := false, refs := 1, accepted := false, stopped := false, isSending := false })) (.created (run f ops).next c hd.streamId (run f ops).nonce)
  have t := told_packetTo (s := s1) (P := P) evs ⟨fun _ => trivial, fun _ _ _ _ _ => trivial⟩
    (.inr fun _ _ => trivial) (run f ops).next trivial
  obtain ⟨os, e1, -⟩ := t.out
  refine ⟨(run f ops).next, (run f ops).nonce, ?_⟩
  rw [told_eq f (os := .created (run f ops).next c hd.streamId (run f ops).nonce :: os)]
  · exact List.mem_cons_self ..
  · rw [e]
    show (s1.packetTo (run f ops).next evs).out = _
    rw [e1]; simp [s1, St.say, St.put]

/-- A SYN packet for stream 2 arrives, and the module accepts it at once for port 80. -/
example : told (L := Char) ⟨1, 4⟩ [.addListener 'a' 80 (fun _ => 0), .newConn 7]
    (.packet 7 [5, 2, 1, 0] ⟨true, true⟩ ⟨true, true, true⟩ [.accept 80 true ⟨true, true, true⟩]) =
    [.created 0 7 2 0, .packet 0, .delivered 0 'a' 80] := by decide

/-- **C42 (one stream per id).** Two streams of one client connection have different ids. -/
theorem C42_unique (f : Flags) (ops : List (Op C L)) (hu : (run f ops).ub = false) (n m : Nat) (x y : Strm C) (c : C)
    (hx : (run f ops).mem n = some x) (hy : (run f ops).mem m = some y) (h1 : x.virt = false) (h2 : y.virt = false)
    (h3 : x.conn = some c) (h4 : y.conn = some c) (h5 : x.sid = y.sid) : n = m :=
  (run_inv' f ops hu).glob.uniq n m x y c hx hy h1 h2 h3 h4 h5

/-- **C42 (limit).** A stream is only created or opened while fewer streams than the limit are allocated. -/
theorem C42_limit (f : Flags) (ops : List (Op C L)) (op : Op C L) (hu : (run f ops).ub = false) (o : Out C L)
    (ho : (∃ n c sid k, o = .created n c sid k) ∨ ∃ n c p, o = .opened n c p) (h : o ∈ told f ops op) :
    allocated (run f ops) < (run f ops).maxStreams := by
  rw [allocated_eq (run_inv' f ops hu)]
  have := told_allowed f h
  rcases ho with ⟨n, c, sid, k, rfl⟩ | ⟨n, c, p, rfl⟩
  · obtain ⟨-, -, bytes, m, r, evs, hd, -, -, -, -, -, -, h6, -⟩ := this
    exact h6
  · exact this.2.2

/-- With the limit one the second stream is not created; the packet is answered with RST. -/
example : told (L := Char) ⟨1, 4⟩ [.limitStreams 1, .newConn 7, .packet 7 [5, 2, 1, 0] ⟨true, true⟩ ⟨true, true, true⟩ []]
    (.packet 7 [5, 4, 1, 0] ⟨true, true⟩ ⟨true, true, true⟩ []) = [.rst 7 4] := by decide

/-! ### C42: packets -/

/-- **C42 (routing).** A packet is only given to the stream of its connection with its id, or to the stream it has
created. -/
theorem C42_routing (f : Flags) (ops : List (Op C L)) (op : Op C L) (n : Nat) (h : Out.packet n ∈ told f ops op) :
    ∃ c bytes m r evs hd, op = .packet c bytes m r evs ∧ parseHeader bytes = .ok hd ∧
      ((n = (run f ops).next ∧ hd.flags = f.syn ∧ ¬ Exists (run f ops) c hd.streamId) ∨
        ∃ x, n ∈ (run f ops).streams ∧ (run f ops).mem n = some x ∧ x.conn = some c ∧ x.sid = hd.streamId) := by
  obtain ⟨c, bytes, m, r, evs, hd, e, hp, h⟩ := told_allowed f h
  refine ⟨c, bytes, m, r, evs, hd, e, hp, ?_⟩
  rcases h with ⟨a, b, d⟩ | ⟨a, x, b, d, g⟩
  · exact .inl ⟨a, b, exists_of_find d⟩
  · exact .inr ⟨x, a, b, g, d⟩

/-- **C42 (unknown streams).** A packet for a stream which does not exist, and which does not create one, changes no
stream and no listener. It is answered with one RST packet with the same id on the same connection — unless it is
itself a RST packet, an earlier RST packet is still being sent, there is no memory or the connection refuses it —
and with nothing else. -/
theorem C42_unknown (f : Flags) (ops : List (Op C L)) (hu : (run f ops).ub = false) (c : C) (bytes : List UInt8)
    (m : MemEnv) (r : RstEnv) (evs : List Ev) (hd : Header) (hc : c ∈ (run f ops).conns)
    (hp : parseHeader bytes = .ok hd) (hx : ¬ Exists (run f ops) c hd.streamId)
    (hno : hd.flags ≠ f.syn ∨ hd.streamId % 2 = 1 ∨ (run f ops).maxStreams ≤ allocated (run f ops) ∨
      m ≠ ⟨true, true⟩) :
    told f ops (.packet c bytes m r evs) =
      (if hd.flags &&& f.rst = f.rst ∨ (run f ops).rstBuf = true ∨ r.buf = false ∨ r.send = false then []
       else [.rst c hd.streamId]) ∧
    (run f (ops ++ [.packet c bytes m r evs])).mem = (run f ops).mem ∧
    (run f (ops ++ [.packet c bytes m r evs])).streams = (run f ops).streams ∧
    (run f (ops ++ [.packet c bytes m r evs])).listeners = (run f ops).listeners ∧
    (run f (ops ++ [.packet c bytes m r evs])).ub = false := by
  have hi := run_inv' f ops hu
  obtain ⟨e, hu'⟩ := step_go f (.packet c bytes m r evs) hu
  rw [step, if_neg hu'] at e
  rw [if_neg (by simpa using hc), St.handlePacket, hp] at e
  dsimp only at e
  rw [find_of_not_exists hi hx] at e
  dsimp only at e
  rw [allocated_eq hi] at hno
  have ha : ∃ k, (if hd.flags = f.syn then (run f ops).acceptStream c hd.streamId m else (run f ops, none)) =
      ({ run f ops with nonce := k }, none) := by
    by_cases h0 : hd.flags = f.syn
    · rw [if_pos h0, St.acceptStream]
      by_cases h1 : hd.streamId % 2 = 1
      · rw [if_pos h1]; exact ⟨(run f ops).nonce, rfl⟩
      rw [if_neg h1]
      by_cases h2 : (run f ops).current ≥ (run f ops).maxStreams
      · rw [if_pos h2]; exact ⟨(run f ops).nonce, rfl⟩
      rw [if_neg h2]
      obtain ⟨a, b⟩ := m
      cases a with
      | false => exact ⟨(run f ops).nonce, rfl⟩
      | true =>
        cases b with
        | false => exact ⟨(run f ops).nonce + 1, rfl⟩
        | true =>
          exfalso
          rcases hno with h | h | h | h
          · exact h h0
          · exact h1 h
          · exact h2 h
          · exact h rfl
    · rw [if_neg h0]; exact ⟨(run f ops).nonce, rfl⟩
  obtain ⟨k, ha⟩ := ha
  rw [ha] at e
  dsimp only at e
  by_cases h1 : hd.flags &&& f.rst = f.rst
  · rw [if_neg (by simpa using h1)] at e
    rw [if_pos (.inl h1), e]
    exact ⟨told_eq f (by rw [e]; simp), rfl, rfl, rfl, hu⟩
  rw [if_pos h1, St.sendRst] at e
  dsimp only at e
  by_cases h2 : (run f ops).rstBuf = true
  · rw [if_pos h2] at e
    rw [if_pos (.inr (.inl h2)), e]
    exact ⟨told_eq f (by rw [e]; simp), rfl, rfl, rfl, hu⟩
  rw [if_neg h2] at e
  rcases hb : r.buf with _ | _
  · rw [hb, if_pos (by simp)] at e
    rw [if_pos (.inr (.inr (.inl rfl))), e]
    exact ⟨told_eq f (by rw [e]; simp), rfl, rfl, rfl, hu⟩
  rw [hb, if_neg (by simp), if_neg (by simpa using hc)] at e
  rcases hs : r.send with _ | _
  · rw [hs, if_neg (by simp)] at e
    rw [if_pos (.inr (.inr (.inr rfl))), e]
    exact ⟨told_eq f (by rw [e]; simp), rfl, rfl, rfl, hu⟩
  rw [hs, if_pos rfl] at e
  rw [if_neg (by simp [h1, h2]), e]
  exact ⟨told_eq f (by rw [e]; simp [St.say]), rfl, rfl, rfl, hu⟩

example : told (L := Char) ⟨1, 4⟩ [.newConn 7] (.packet 7 [5, 2, 8, 0] ⟨true, true⟩ ⟨true, true, true⟩ []) =
    [.rst 7 2] := by decide

/-- The streams of the history of `C42_rst_violated`: a client opens a stream, and the application frees it while the
connection is closing. The connection refuses the RST packet. -/
def wedge : List (Op Nat Char) :=
  [.addListener 'a' 80 (fun _ => 0), .newConn 7,
   .packet 7 [5, 2, 1, 0] ⟨true, true⟩ ⟨true, true, true⟩ [.accept 80 true ⟨true, true, true⟩],
   .destroy 0 ⟨true, true, false⟩, .closeConn 7]

theorem wedged_run (f : Flags) (pre : List (Op C L)) (hw : Wedged (run f pre)) (more : List (Op C L)) :
    Wedged (run f (pre ++ more)) ∧ ∀ c sid, Out.rst c sid ∉ (run f (pre ++ more)).out.drop (run f pre).out.length := by
  induction more using run_ind with
  | nil => rw [List.append_nil, List.drop_length]; exact ⟨hw, fun _ _ h => by simp at h⟩
  | snoc more op ih =>
    rw [← List.append_assoc, run_snoc]
    obtain ⟨⟨os, e, p⟩, w, -⟩ := step_out f (run f (pre ++ more)) op
    refine ⟨w ih.1, fun c sid h => ?_⟩
    rw [e] at h
    rw [List.drop_append] at h
    rcases List.mem_append.1 h with h | h
    · exact ih.2 c sid h
    · have := p _ (List.mem_of_mem_drop h)
      rw [Allowed, ih.1.1] at this
      simp at this

/-- **C42 (RST) is violated.** After the history `wedge`, in which nothing goes wrong but the connection of the client
closing while the application frees a stream, no RST packet is ever sent again on any connection, whatever happens:
packets for unknown streams are no longer answered. -/
theorem C42_rst_violated (more : List (Op Nat Char)) :
    (run ⟨1, 4⟩ wedge).ub = false ∧
    ∀ c sid, Out.rst c sid ∉ (run ⟨1, 4⟩ (wedge ++ more)).out.drop (run ⟨1, 4⟩ wedge).out.length :=
  ⟨by decide, (wedged_run _ wedge (by unfold Wedged; decide) more).2⟩

/-- **C42 (RST, partial).** Missing: `C42_unknown` for a history in which a connection refuses a RST packet, see
`C42_rst_violated`. As long as no connection does, the buffer is free again when the connection has sent the packet. -/
theorem C42_rst_free_partial (f : Flags) (ops : List (Op C L)) (hu : (run f ops).ub = false)
    (ho : (run f ops).rstOut = true) : (run f (ops ++ [.rstDone])).rstBuf = false := by
  rw [run_snoc, step, if_neg (by rw [hu]; simp)]
  rw [if_pos ho]

/-! ### C42: delivery -/

/-- **C42 (to the right listener).** A stream is only given to a listener which listens on the port the client has asked
for. -/
theorem C42_delivered_port (f : Flags) (ops : List (Op C L)) (op : Op C L) (n : Nat) (l : L) (port : UInt32)
    (h : Out.delivered n l port ∈ told f ops op) : Listens (run f ops) l port ∧ Offers op port :=
  told_allowed f h

omit [DecidableEq C] [DecidableEq L] in
theorem deliveries_eq (s : St C L) (n : Nat) : deliveries s n = dl s n := by
  rw [deliveries, dl, List.countP_eq_length_filter]
  rfl

omit [DecidableEq C] [DecidableEq L] in
theorem frees_eq (s : St C L) (n : Nat) : frees s n = fr s n := by
  rw [frees, fr, List.countP_eq_length_filter]
  rfl

/-- **C42 (delivered once).** No stream is given to listeners twice. -/
theorem C42_delivered_once (f : Flags) (ops : List (Op C L)) (hu : (run f ops).ub = false) (n : Nat) :
    deliveries (run f ops) n ≤ 1 := by
  rw [deliveries_eq]
  have h := (run_inv' f ops hu).loc n
  rcases hx : (run f ops).mem n with _ | x
  · exact (h.dead hx).once
  · exact (h.live hx).once

/-- **C42 (virtual streams).** Opening a virtual stream on a port whose listener keeps it gives it to this listener. -/
theorem C42_virtual_delivered (f : Flags) (ops : List (Op C L)) (hu : (run f ops).ub = false) (c : C) (l : L)
    (port : UInt32) (hc : c ∈ (run f ops).vconns) (hl : Listens (run f ops) l port)
    (ha : allocated (run f ops) < (run f ops).maxStreams) :
    ∃ n, told f ops (.openVirtual c port true true) = [.delivered n l port, .opened n c port] ∧
      n ∈ (run f (ops ++ [.openVirtual c port true true])).apps ∧
      n ∈ (run f (ops ++ [.openVirtual c port true true])).clis := by
  have hi := run_inv' f ops hu
  obtain ⟨e, hu'⟩ := step_go f (.openVirtual c port true true) hu
  rw [step, if_neg hu'] at e
  rw [if_neg (by simpa using hc)] at e
  rw [allocated_eq hi] at ha
  rcases openVirtual_cases (run f ops) c port true true with h | ⟨-, -, ⟨l', -, h1, h2, h3⟩ | ⟨h1, -⟩⟩
  · exfalso
    have hn : ¬ ((run f ops).current ≥ (run f ops).maxStreams ∨ true = false) := by simp; omega
    have h' := congrArg St.next h
    rw [St.openVirtual, if_neg hn] at h'
    dsimp only at h'
    let P : Out C L → Prop := fun _ => True
    have t := told_ready (s := virt1 (run f ops) c) (P := P) (ports := fun _ => True)
      ⟨fun _ => trivial, fun _ _ _ _ _ => trivial⟩ (.inr fun _ _ => trivial) (run f ops).next port trivial true
      ⟨false, false, false⟩
    have t2 := t.trans (told_refInc _ (run f ops).next)
    have := t2.next
    have h'' : ((St.ready (virt1 (run f ops) c) (run f ops).next port true ⟨false, false, false⟩).refInc (run f ops).next).next =
        (run f ops).next := h'
    rw [this] at h''
    have : (virt1 (run f ops) c).next = (run f ops).next + 1 := rfl
    omega
  · have : l' = l := C42_ports_unique f ops hu l' l port h1 hl
    subst this
    rw [e, h3]
    refine ⟨(run f ops).next, told_eq f (by rw [e, h3]; rfl), by simp [virt2], by simp [virt2]⟩
  · exact absurd ⟨rfl, l, hl⟩ h1

example : told ⟨1, 4⟩ [.addListener 'a' 80 (fun _ => 0), .newVirtual 9] (.openVirtual 9 80 true true) =
    [.delivered 0 'a' 80, .opened 0 9 80] := by decide

/-- **C42 (closed connections).** When a connection is gone no stream refers to it. -/
theorem C42_conn_closed (f : Flags) (ops : List (Op C L)) (hu : (run f ops).ub = false) (c : C)
    (hc : c ∈ (run f ops).conns) (n : Nat) (x : Strm C)
    (hx : (run f (ops ++ [.closeConn c])).mem n = some x) : x.conn ≠ some c := by
  have hi := run_inv' f ops hu
  obtain ⟨e, hu'⟩ := step_go f (.closeConn c) hu
  rw [step, if_neg hu'] at e
  rw [if_neg (by simpa using hc)] at e
  rw [e] at hx
  obtain ⟨-, -, -, h1, h2⟩ := closeAll_ok c (run f ops).streams (run f ops) hi hi.nodup (fun _ h => h)
  by_cases hn : n ∈ (run f ops).streams
  · exact h2 n hn x hx
  · have hx' : (run f ops).mem n = some x := by rw [← h1 n hn]; exact hx
    have l := (hi.loc n).live hx'
    intro hcc
    rcases Bool.eq_false_or_eq_true x.stopped with hs | hs
    · rw [l.halted hs] at hcc; simp at hcc
    · exact hn (l.running hs)

/-! ### C81: the memory of streams -/

/-- **C81 (use after free, partial).** With the care of `Spec.Careful` nobody uses a stream after its memory was
given back, in any order of packets, timers, sends, closes, aborts and frees. Missing: histories without this care, see
the theorems `C81_…_violated`. -/
theorem C81_no_use_after_free_partial (f : Flags) (ops : List (Op C L)) (h : CarefulRun f ops) :
    (run f ops).ub = false := (run_careful f ops h).1

/-- A stream is created, accepted, used, its connection closes, and it is freed: all with care. -/
example : CarefulRun (L := Char) ⟨1, 4⟩ [.addListener 'a' 80 (fun _ => 0), .newConn 7,
    .packet 7 [5, 2, 1, 0] ⟨true, true⟩ ⟨true, true, true⟩ [.accept 80 true ⟨true, true, true⟩, .send false true],
    .closeConn 7, .destroy 0 ⟨true, true, true⟩] := by
  intro pre op post e
  rcases pre with _ | ⟨a, _ | ⟨b, _ | ⟨d, _ | ⟨g, _ | ⟨i, pre⟩⟩⟩⟩⟩ <;> simp at e
  · obtain ⟨rfl, -⟩ := e; trivial
  · obtain ⟨-, rfl, -⟩ := e; trivial
  · obtain ⟨-, -, rfl, -⟩ := e; show parseHeader _ ≠ _; decide
  · obtain ⟨-, -, -, rfl, -⟩ := e; trivial
  · obtain ⟨-, -, -, -, rfl, -⟩ := e; trivial

/-- **C81 is violated: nobody listens.** The application opens a virtual stream on a port without listener: the stream is
freed inside the call and used afterwards. -/
theorem C81_no_listener_violated (f : Flags) :
    (run (C := Nat) (L := Char) f [.newVirtual 9, .openVirtual 9 80 true true]).ub = true := by rfl

/-- **C81 is violated: the listener has no memory.** The same happens when the listener cannot keep the stream. -/
theorem C81_listener_memory_violated (f : Flags) :
    (run (C := Nat) f [.addListener 'a' 80 (fun _ => 0), .newVirtual 9, .openVirtual 9 80 true false]).ub = true := by rfl

/-- **C81 is violated: a timer.** A stream which is offered from its timer to a port without listener is freed and then
used. -/
theorem C81_timer_violated :
    (run (L := Char) ⟨1, 4⟩ [.newConn 7, .packet 7 [5, 2, 1, 0] ⟨true, true⟩ ⟨true, true, true⟩ [],
      .timer 0 [.accept 80 true ⟨true, true, true⟩]]).ub = true := by decide

/-- **C81 is violated: a virtual connection.** A virtual connection is freed while a stream of it is open. A client connects
whose connection gets the same memory, and sends a packet for stream 0: it is given to the virtual stream, which has no
streaming module. -/
theorem C81_stale_connection_violated :
    (run ⟨1, 4⟩ [.addListener 'a' 80 (fun _ => 0), .newVirtual 9, .openVirtual 9 80 true true, .freeVirtual 9,
      .newConn 9, .packet 9 [5, 0, 2, 0] ⟨true, true⟩ ⟨true, true, true⟩ []]).ub = true := by decide

omit [DecidableEq C] [DecidableEq L] in
theorem held_iff (s : St C L) (n : Nat) : Held s n ↔ 0 < own s n := by
  unfold Held own
  simp only [← List.count_pos_iff]
  omega

/-- **C81 (freed exactly once).** As long as somebody holds a stream its memory is there and was never given back; as soon
as nobody holds it any more its memory has been given back exactly once. -/
theorem C81_freed_exactly (f : Flags) (ops : List (Op C L)) (hu : (run f ops).ub = false) (n : Nat)
    (hn : n < (run f ops).next) :
    (Held (run f ops) n → ((run f ops).mem n).isSome = true ∧ frees (run f ops) n = 0) ∧
    (¬ Held (run f ops) n → (run f ops).mem n = none ∧ frees (run f ops) n = 1) := by
  have h := (run_inv' f ops hu).loc n
  rw [held_iff, frees_eq]
  rcases hx : (run f ops).mem n with _ | x
  · have d := h.dead hx
    exact ⟨fun hh => absurd d.own (by omega), fun _ => ⟨rfl, d.gone hn⟩⟩
  · have l := h.live hx
    exact ⟨fun _ => ⟨rfl, l.fresh⟩, fun hh => absurd l.pos (by rw [l.refs]; omega)⟩

/-- A stream which is still being sent when the application frees it is given back when the packet was sent. -/
example : frees (run (L := Char) ⟨1, 4⟩ [.addListener 'a' 80 (fun _ => 0), .newConn 7,
    .packet 7 [5, 2, 1, 0] ⟨true, true⟩ ⟨true, true, true⟩ [.accept 80 true ⟨true, true, true⟩, .send false true],
    .destroy 0 ⟨true, true, true⟩]) 0 = 0 ∧
  frees (run (L := Char) ⟨1, 4⟩ [.addListener 'a' 80 (fun _ => 0), .newConn 7,
    .packet 7 [5, 2, 1, 0] ⟨true, true⟩ ⟨true, true, true⟩ [.accept 80 true ⟨true, true, true⟩, .send false true],
    .destroy 0 ⟨true, true, true⟩, .sendDone 0 []]) 0 = 1 := by decide

/-! ### C82: limits -/

theorem nonce_inv (f : Flags) (ops : List (Op C L)) (hl : ops.length < 2 ^ 64) :
    (run f ops).nonce.toNat ≤ ops.length ∧ (Spec.nonces (run f ops)).Nodup ∧
      ∀ k ∈ Spec.nonces (run f ops), k.toNat < (run f ops).nonce.toNat := by
  induction ops using run_ind with
  | nil => exact ⟨Nat.le_refl _, List.nodup_nil, fun k hk => by simp [run, St.init, Spec.nonces] at hk⟩
  | snoc ops op ih =>
    rw [List.length_append, List.length_singleton] at hl ⊢
    obtain ⟨h1, h2, h3⟩ := ih (by omega)
    obtain ⟨-, -, hn, -⟩ := step_out f (run f ops) op
    rw [← run_snoc] at hn
    have hs : ((run f ops).nonce + 1).toNat = (run f ops).nonce.toNat + 1 := by
      rw [UInt64.toNat_add]
      have : (1 : UInt64).toNat = 1 := rfl
      rw [this]; omega
    rcases hn with ⟨e, e' | e'⟩ | ⟨e, e'⟩
    · have e : Spec.nonces (run f (ops ++ [op])) = Spec.nonces (run f ops) := e
      rw [e, e']; exact ⟨by omega, h2, h3⟩
    · have e : Spec.nonces (run f (ops ++ [op])) = Spec.nonces (run f ops) := e
      rw [e, e', hs]
      exact ⟨by omega, h2, fun k hk => Nat.lt_succ_of_lt (h3 k hk)⟩
    · have e : Spec.nonces (run f (ops ++ [op])) = Spec.nonces (run f ops) ++ [(run f ops).nonce] := e
      rw [e, e', hs]
      refine ⟨by omega, ?_, fun k hk => ?_⟩
      · rw [List.nodup_append]
        refine ⟨h2, by simp, fun a ha b hb hab => ?_⟩
        rw [List.mem_singleton] at hb
        have := h3 a ha
        rw [hab, hb] at this
        omega
      · rcases List.mem_append.1 hk with hk | hk
        · exact Nat.lt_succ_of_lt (h3 k hk)
        · rw [List.mem_singleton] at hk; rw [hk]; omega

/-- **C82 (nonces).** In a history of fewer than 2^64 operations no two streams get the same nonce. -/
theorem C82_nonces_unique (f : Flags) (ops : List (Op C L)) (hl : ops.length < 2 ^ 64) :
    (Spec.nonces (run f ops)).Nodup := (nonce_inv f ops hl).2.1

example : Spec.nonces (run (L := Char) ⟨1, 4⟩ [.newConn 7, .packet 7 [5, 2, 1, 0] ⟨true, true⟩ ⟨true, true, true⟩ [],
    .packet 7 [5, 4, 1, 0] ⟨true, false⟩ ⟨true, true, true⟩ [],
    .packet 7 [5, 6, 1, 0] ⟨true, true⟩ ⟨true, true, true⟩ []]) = [0, 2] := by decide

theorem seg_inv (f : Flags) (ops : List (Op C L)) (hu : (run f ops).ub = false) (ho : SegsOwned f ops) :
    (run f ops).segs + returned ops = granted (run f ops) := by
  induction ops using run_ind with
  | nil => rfl
  | snoc ops op ih =>
    have hu0 := ub_prefix f hu
    have ih := ih hu0 (fun pre post e => ho pre (post ++ [op]) (by simp [e]))
    obtain ⟨-, -, -, hs⟩ := step_out f (run f ops) op
    rw [← run_snoc] at hs
    obtain ⟨h1, h2⟩ := hs hu0
    by_cases hf : op = .freeSeg
    · obtain ⟨h3, h4⟩ := h2 hf
      subst hf
      have := ho ops [] rfl
      have hr : returned (ops ++ [.freeSeg]) = returned ops + 1 := by simp [returned]
      omega
    · have h3 := h1 hf
      have hr : returned (ops ++ [op]) = returned ops := by
        rw [returned, List.filter_append, List.length_append]
        cases op <;> first | rfl | exact absurd rfl hf
      omega

/-- **C82 (segments).** A segment is only given out while fewer segments than the limit are out. -/
theorem C82_segments (f : Flags) (ops : List (Op C L)) (op : Op C L) (hu : (run f ops).ub = false)
    (ho : SegsOwned f ops) (h : Out.segment ∈ told f ops op) :
    granted (run f ops) - returned ops < (run f ops).maxSegs := by
  have := (told_allowed f h).2
  have hs := seg_inv f ops hu ho
  omega

/-- **C82 (refused segments).** A segment is refused only when the limit is reached or there is no memory. -/
theorem C82_segment_given (f : Flags) (ops : List (Op C L)) (hu : (run f ops).ub = false) (ho : SegsOwned f ops)
    (h : granted (run f ops) - returned ops < (run f ops).maxSegs) : told f ops (.allocSeg true) = [.segment] := by
  have hs := seg_inv f ops hu ho
  obtain ⟨e, hu'⟩ := step_go f (.allocSeg true) hu
  rw [step, if_neg hu'] at e
  rw [if_neg (by omega), if_neg (by simp)] at e
  exact told_eq f (by rw [e]; rfl)

example : told (C := Nat) (L := Char) ⟨1, 4⟩ [.limitSegs 1, .allocSeg true, .freeSeg, .allocSeg true] (.allocSeg true) =
    [.noSegment] := by decide

end Verif.Stream.Manager
