import Verif.Core.RendezvousSpec

/-!
# Rendezvous packets — property theorems (C49)
-/

namespace Verif.Core.Rendezvous
open Spec
open Verif.Core.Conn (Bytes)

/-- The datagram for a packet in the queue. -/
def toSend (p : Queued) : Send := ⟨p.sock, p.ep, encode p⟩

/-- The datagrams which wait. -/
def waiting (c : Ctx) : List Send := c.queue.map toSend

/-- Invariant: the queue fits, and nothing waits while nothing is being sent. -/
def Inv (c : Ctx) : Prop := c.queue.length ≤ queueLength ∧ (c.busy = false → c.queue = [])

/-- What one function does to the packets: `a` was asked for, `s` was sent. -/
structure Eff (c : Ctx) (a : List Send) (c' : Ctx) (s : List Send) : Prop where
  inv : Inv c'
  dflt : c'.dflt = c.dflt
  sub : ∀ x, (s ++ waiting c').count x ≤ (waiting c ++ a).count x

/-- The same if no buffer is missing and there is room. -/
def Full (c : Ctx) (a : List Send) (c' : Ctx) (s : List Send) : Prop :=
  (s ++ waiting c').Perm (waiting c ++ a) ∧
  c'.queue.length + c'.busy.toNat = c.queue.length + c.busy.toNat + a.length

theorem sendNext_eff {c : Ctx} (h : c.queue.length ≤ queueLength) (alloc : Bool) :
    Eff c [] (sendNext c alloc).1 (sendNext c alloc).2 ∧
    (alloc = true → (sendNext c alloc).2 ++ waiting (sendNext c alloc).1 = 
      (if c.busy then [] else (waiting c).getLast?.toList) ++ (if c.busy then waiting c else (waiting c).dropLast) ∧
      ((sendNext c alloc).1.queue.length + (sendNext c alloc).1.busy.toNat = c.queue.length + c.busy.toNat)) := by
  unfold sendNext
  cases hb : c.busy with
  | true =>
    simp only [if_true]
    exact ⟨⟨⟨h, by simp [hb]⟩, rfl, fun x => by simp⟩, fun _ => ⟨by simp, by simp [hb]⟩⟩
  | false =>
    simp only [Bool.false_eq_true, if_false]
    rcases List.eq_nil_or_concat c.queue with hq | ⟨q, p, hq⟩
    · simp only [hq, List.getLast?_nil]
      exact ⟨⟨⟨by simp [hq], fun _ => hq⟩, rfl, fun x => by simp⟩, fun _ => ⟨by simp [waiting, hq], by simp [hq, hb]⟩⟩
    · simp only [List.concat_eq_append] at hq
      simp only [hq, List.getLast?_concat, List.dropLast_concat]
      cases alloc with
      | false =>
        simp only [Bool.not_false, if_true]
        exact ⟨⟨⟨by simp, fun _ => rfl⟩, rfl, fun x => by simp [waiting]⟩, nofun⟩
      | true =>
        simp only [Bool.not_true, Bool.false_eq_true, if_false]
        refine ⟨⟨⟨?_, nofun⟩, rfl, fun x => ?_⟩, fun _ => ⟨?_, ?_⟩⟩
        · simp [hq] at h; simp; omega
        · simp [waiting, hq, toSend, List.count_cons]
        · simp [waiting, hq, toSend]
        · simp

theorem sendRendezvous_eff {c : Ctx} (h : Inv c) (p : Pkt) (alloc : Bool) :
    let a := ((sockFor p.sock c.dflt).map fun s => (⟨s, p.ep, 241 :: p.id ++ [p.channel, p.type]⟩ : Send)).toList
    ∃ c' s, sendRendezvous c p alloc = some (c', s) ∧ Eff c a c' s ∧
      (alloc = true → c.queue.length + c.busy.toNat + a.length ≤ 11 → Full c a c' s) := by
  intro a
  unfold sendRendezvous
  split
  · rename_i hf
    refine ⟨c, [], rfl, ⟨h, rfl, fun x => by simp⟩, fun _ hl => ?_⟩
    have : c.busy = true := by
      cases hb : c.busy with
      | true => rfl
      | false => simp [h.2 hb, queueLength] at hf
    have ha : a = [] := by
      have : queueLength = 10 := rfl
      rcases a with _ | ⟨x, a⟩
      · rfl
      · simp_all; omega
    rw [ha]
    exact ⟨by simp, by simp⟩
  · rename_i hf
    have hf : c.queue.length < queueLength := by omega
    cases hs : sockFor p.sock c.dflt with
    | none =>
      have ha : a = [] := by simp [a, hs]
      rw [ha]
      exact ⟨c, [], rfl, ⟨h, rfl, fun x => by simp⟩, fun _ _ => ⟨by simp, by simp⟩⟩
    | some s =>
      have ha : a = [toSend ⟨p.type, p.id, p.channel, s, p.ep⟩] := by
        simp [a, hs, toSend, encode, prefixByte]
      simp only [push, hf, if_true]
      generalize hc1 : ({ c with queue := c.queue ++ [⟨p.type, p.id, p.channel, s, p.ep⟩] } : Ctx) = c1
      have hw : waiting c1 = waiting c ++ a := by rw [← hc1, ha]; simp [waiting]
      obtain ⟨he, hfull⟩ := sendNext_eff (c := c1) (by rw [← hc1]; simp; omega) alloc
      refine ⟨(sendNext c1 alloc).1, (sendNext c1 alloc).2, rfl,
        ⟨he.inv, by rw [he.dflt, ← hc1], fun x => ?_⟩, fun hal hl => ?_⟩
      · have := he.sub x
        simpa [hw] using this
      · obtain ⟨h1, h2⟩ := hfull hal
        have hb1 : c1.busy = c.busy := by rw [← hc1]
        have hq1 : c1.queue.length = c.queue.length + 1 := by rw [← hc1]; simp
        refine ⟨?_, by rw [h2, hb1, hq1, ha]; simp; omega⟩
        rw [h1, hb1]
        cases hb : c.busy with
        | true => simp [hw]
        | false =>
          have : waiting c = [] := by simp [waiting, h.2 hb]
          simp [hw, this, ha]

theorem Eff.nil {c : Ctx} (h : Inv c) : Eff c [] c [] := ⟨h, rfl, fun x => by simp⟩

theorem Full.nil (c : Ctx) : Full c [] c [] := ⟨by simp, by simp⟩

theorem Eff.trans {c c1 c2 : Ctx} {a1 a2 s1 s2 : List Send} (h1 : Eff c a1 c1 s1) (h2 : Eff c1 a2 c2 s2) :
    Eff c (a1 ++ a2) c2 (s1 ++ s2) := by
  refine ⟨h2.inv, h2.dflt.trans h1.dflt, fun x => ?_⟩
  have e1 := h1.sub x
  have e2 := h2.sub x
  simp only [List.count_append] at *
  omega

theorem Full.trans {c c1 c2 : Ctx} {a1 a2 s1 s2 : List Send} (h1 : Full c a1 c1 s1) (h2 : Full c1 a2 c2 s2) :
    Full c (a1 ++ a2) c2 (s1 ++ s2) := by
  obtain ⟨p1, l1⟩ := h1
  obtain ⟨p2, l2⟩ := h2
  refine ⟨?_, by rw [l2, l1, List.length_append]; omega⟩
  rw [List.perm_iff_count] at *
  intro x
  have e1 := p1 x
  have e2 := p2 x
  simp only [List.count_append] at *
  omega

theorem validateId_iff (conns : Conn.Ctx) (buf : Bytes) (h : 17 ≤ buf.length) :
    validateId conns (buf.drop 1) = true ↔ KnownShifted conns buf := by
  simp only [validateId, Conn.fromId, KnownShifted, headers, List.find?_isSome, Conn.Spec.id14,
    List.mem_filterMap]
  constructor
  · rintro ⟨k, hk, hm⟩
    split at hm
    · rename_i cl hcl
      refine ⟨cl.hdr, ⟨k, hk, by simp [hcl]⟩, ?_⟩
      simp only [Conn.sameId, beq_iff_eq] at hm
      simp only [List.drop_take] at hm ⊢
      exact hm.symm
    · cases hm
  · rintro ⟨hd, ⟨k, hk, hh⟩, he⟩
    refine ⟨k, hk, ?_⟩
    cases hcl : k.client with
    | none => simp [hcl] at hh
    | some cl =>
      simp only [hcl, Option.map_some, Option.some.injEq] at hh
      subst hh
      simp only [Conn.sameId, beq_iff_eq]
      simp only [List.drop_take] at he ⊢
      exact he.symm

theorem answer_eq (buf : Bytes) (ch t : UInt8) (h : buf[15]? = some ch) :
    241 :: (buf.drop 1).take 14 ++ [ch, t] = answer buf t := by
  unfold answer
  have : (buf.drop 1).take 15 = (buf.drop 1).take 14 ++ [ch] := by
    rw [List.take_succ]; simp [List.getElem?_drop, h]
  rw [this]; simp

theorem handlePacket_eff {c : Ctx} (h : Inv c) (conns : Conn.Ctx) (sock ep : Nat) (buf : Bytes) (alloc : Bool) :
    let a := asked c.dflt (.datagram conns sock ep buf alloc)
    ∃ c' s, handlePacket c conns sock ep buf alloc = some (c', s) ∧ Eff c a c' s ∧
      (alloc = true → c.queue.length + c.busy.toNat + a.length ≤ 11 → Full c a c' s) := by
  intro a
  unfold handlePacket
  by_cases hl : buf.length < 17
  · rw [if_pos hl]
    have ha : a = [] := by simp [a, asked, hl]
    rw [ha]
    exact ⟨c, [], rfl, .nil h, fun _ _ => .nil c⟩
  · rw [if_neg hl]
    have hl' : 17 ≤ buf.length := by omega
    have h16 : buf[16]? = some buf[16] := List.getElem?_eq_getElem ..
    have h15 : buf[15]? = some buf[15] := List.getElem?_eq_getElem ..
    rw [h16, h15]
    simp only
    by_cases h1 : buf[16] = clientRequest
    · rw [if_pos h1]
      by_cases hv : KnownShifted conns buf
      · rw [if_pos ((validateId_iff conns buf hl').mpr hv)]
        have := sendRendezvous_eff h ⟨clientResponse, (buf.drop 1).take 14, buf[15], some sock, ep⟩ alloc
        simp only [sockFor, answer_eq buf _ _ h15, Option.map_some, Option.toList_some] at this
        have ha : a = [⟨sock, ep, answer buf 2⟩] := by
          simp only [a, asked]
          rw [if_neg hl, if_pos ⟨by rw [h16, h1]; rfl, hv⟩]
        rw [ha]
        exact this
      · rw [if_neg (by rw [validateId_iff conns buf hl']; exact hv)]
        have ha : a = [] := by
          simp only [a, asked]
          rw [if_neg hl, if_neg (by simp [hv]), if_neg (by rw [h16, h1]; decide)]
        rw [ha]
        exact ⟨c, [], rfl, .nil h, fun _ _ => .nil c⟩
    · rw [if_neg h1]
      have hn1 : ¬ (buf[16]? = some 1 ∧ KnownShifted conns buf) := by
        rw [h16]; rintro ⟨hx, -⟩; exact h1 (Option.some.inj hx)
      by_cases h4 : buf[16] = pingRequest
      · rw [if_pos h4]
        have := sendRendezvous_eff h ⟨pingResponse, (buf.drop 1).take 14, buf[15], some sock, ep⟩ alloc
        simp only [sockFor, answer_eq buf _ _ h15, Option.map_some, Option.toList_some] at this
        have ha : a = [⟨sock, ep, answer buf 5⟩] := by
          simp only [a, asked]
          rw [if_neg hl, if_neg hn1, if_pos (by rw [h16, h4]; rfl)]
        rw [ha]
        exact this
      · rw [if_neg h4]
        have ha : a = [] := by
          simp only [a, asked]
          rw [if_neg hl, if_neg hn1, if_neg (by rw [h16]; intro hx; exact h4 (Option.some.inj hx))]
        rw [ha]
        exact ⟨c, [], rfl, .nil h, fun _ _ => .nil c⟩

theorem sendAll_eff (eps : List (Nat × Bool)) : ∀ {c : Ctx} (_ : Inv c) (id : Bytes) (sock : Option Nat)
    (_ : sock = none ∨ sock = c.dflt),
    let a := (c.dflt.map fun s => eps.map fun e => (⟨s, e.1, 241 :: id ++ [0, 3]⟩ : Send)).getD []
    ∃ c' s, sendAll c id sock eps = some (c', s) ∧ Eff c a c' s ∧
      ((∀ e ∈ eps, e.2 = true) → c.queue.length + c.busy.toNat + a.length ≤ 11 → Full c a c' s) := by
  induction eps with
  | nil =>
    intro c h id sock hs a
    have ha : a = [] := by cases hd : c.dflt <;> simp [a, hd]
    rw [ha]
    exact ⟨c, [], rfl, .nil h, fun _ _ => .nil c⟩
  | cons e eps ih =>
    intro c h id sock hs a
    obtain ⟨ep, alloc⟩ := e
    obtain ⟨c1, s1, h1, e1, f1⟩ := sendRendezvous_eff h ⟨deviceRequest, id, 0, sock, ep⟩ alloc
    have hsd : sockFor sock c.dflt = c.dflt := by
      rcases hs with hs | hs <;> rw [hs]
      · rfl
      · cases c.dflt <;> rfl
    simp only [hsd] at e1 f1
    obtain ⟨c2, s2, h2, e2, f2⟩ := ih e1.inv id
      (if c.queue.length ≥ queueLength then sock else sockFor sock c.dflt)
      (by
        rw [e1.dflt]
        split
        · exact hs
        · exact .inr hsd)
    simp only [e1.dflt] at e2 f2
    refine ⟨c2, s1 ++ s2, by simp [sendAll, h1, h2], ?_⟩
    have ha : a = (c.dflt.map fun s => (⟨s, ep, 241 :: id ++ [0, 3]⟩ : Send)).toList ++
        (c.dflt.map fun s => eps.map fun e => (⟨s, e.1, 241 :: id ++ [0, 3]⟩ : Send)).getD [] := by
      cases hd : c.dflt <;> simp [a, hd]
    rw [ha]
    refine ⟨e1.trans e2, fun hal hl => ?_⟩
    rw [List.length_append] at hl
    have g1 : Full c (c.dflt.map fun s => (⟨s, ep, 241 :: id ++ [0, 3]⟩ : Send)).toList c1 s1 :=
      f1 (hal _ (List.mem_cons_self ..)) (Nat.le_trans (Nat.le_add_right _ _)
        (by rw [← Nat.add_assoc] at hl; exact hl))
    exact g1.trans (f2 (fun e he => hal e (List.mem_cons_of_mem _ he)) (by rw [g1.2, Nat.add_assoc]; exact hl))

/-- One event. -/
theorem step_eff {c : Ctx} (h : Inv c) (op : Op) :
    ∃ c' s, step c op = some (c', s) ∧ Inv c' ∧ c'.dflt = newDflt c.dflt op ∧
      (∀ x, (s ++ waiting c').count x ≤ (waiting c ++ asked c.dflt op).count x) ∧
      (Alloc op → newLoad c.dflt (c.queue.length + c.busy.toNat) op ≤ 11 →
        (s ++ waiting c').Perm (waiting c ++ asked c.dflt op) ∧
        c'.queue.length + c'.busy.toNat = newLoad c.dflt (c.queue.length + c.busy.toNat) op) := by
  cases op with
  | datagram conns sock ep buf alloc =>
    obtain ⟨c', s, h1, e, f⟩ := handlePacket_eff h conns sock ep buf alloc
    exact ⟨c', s, h1, e.inv, e.dflt, e.sub, f⟩
  | request id eps =>
    obtain ⟨c', s, h1, e, f⟩ := sendAll_eff eps h id none (.inl rfl)
    have ha : asked c.dflt (.request id eps) =
        (c.dflt.map fun s => eps.map fun e => (⟨s, e.1, 241 :: id ++ [0, 3]⟩ : Send)).getD [] := by
      cases hd : c.dflt <;> simp [asked]
    simp only [newLoad, ha]
    exact ⟨c', s, h1, e.inv, e.dflt, e.sub, f⟩
  | dflt sock =>
    refine ⟨_, [], rfl, h, rfl, fun x => by simp [waiting], fun _ _ => ⟨by simp [waiting, asked], by simp [newLoad, asked]⟩⟩
  | sent alloc =>
    simp only [step]
    cases hb : c.busy with
    | false =>
      have hq := h.2 hb
      exact ⟨c, [], rfl, h, rfl, fun x => by simp, fun _ _ => ⟨by simp [asked], by simp [newLoad, hq, hb]⟩⟩
    | true =>
      obtain ⟨e, f⟩ := sendNext_eff (c := { c with busy := false }) h.1 alloc
      refine ⟨(sendNext { c with busy := false } alloc).1, (sendNext { c with busy := false } alloc).2, rfl,
        e.inv, e.dflt, fun x => e.sub x, fun hal _ => ?_⟩
      obtain ⟨f1, f2⟩ := f hal
      refine ⟨?_, by rw [f2]; simp [newLoad]⟩
      rw [f1]
      simp only [Bool.false_eq_true, if_false, asked, List.append_nil]
      have : waiting { c with busy := false } = waiting c := rfl
      rw [this]
      rcases List.eq_nil_or_concat (waiting c) with hq | ⟨q, p, hq⟩
      · simp [hq]
      · simp only [List.concat_eq_append] at hq
        rw [hq, List.getLast?_concat, List.dropLast_concat]
        exact List.perm_append_comm

theorem run_eff {c : Ctx} (h : Inv c) (ops : List Op) :
    ∃ c' s, run c ops = some (c', s) ∧ Inv c' ∧
      (∀ x, (s ++ waiting c').count x ≤ (waiting c ++ askedAll c.dflt ops).count x) ∧
      ((∀ op ∈ ops, Alloc op) → Light c.dflt (c.queue.length + c.busy.toNat) ops →
        (s ++ waiting c').Perm (waiting c ++ askedAll c.dflt ops) ∧
        c'.queue.length + c'.busy.toNat = load c.dflt (c.queue.length + c.busy.toNat) ops) := by
  induction ops generalizing c with
  | nil => exact ⟨c, [], rfl, h, fun x => by simp, fun _ _ => ⟨by simp [askedAll], rfl⟩⟩
  | cons op ops ih =>
    obtain ⟨c1, s1, h1, i1, d1, e1, f1⟩ := step_eff h op
    obtain ⟨c2, s2, h2, i2, e2, f2⟩ := ih i1
    rw [d1] at e2 f2
    refine ⟨c2, s1 ++ s2, by simp [run, h1, h2], i2, fun x => ?_, fun hal hl => ?_⟩
    · have := e1 x
      have := e2 x
      simp only [askedAll, List.count_append] at *
      omega
    · obtain ⟨p1, l1⟩ := f1 (hal _ (List.mem_cons_self ..)) hl.1
      obtain ⟨p2, l2⟩ := f2 (fun o ho => hal o (List.mem_cons_of_mem _ ho)) (by rw [l1]; exact hl.2)
      refine ⟨?_, by rw [l2, l1]; rfl⟩
      rw [List.perm_iff_count] at *
      intro x
      have := p1 x
      have := p2 x
      simp only [askedAll, List.count_append] at *
      omega

theorem inv_init : Inv init := ⟨by simp [init], fun _ => rfl⟩

/-- The packets of a history. -/
def sends (ops : List Op) : Option (List Send) := (run init ops).map (·.2)

/-! ## C49 -/

/-- C49 (partial: an answer does not show that the id is the id of an open connection, see
`C49_foreign_violated`): in every history, no packet is written outside the queue, and every packet the
device sends was asked for: it answers a ping or a request for a connection with the id and the channel of
the datagram, on the socket and to the endpoint it came from, or it is a probe of the connection which made
the CoAP request, to one of the endpoints of that request. No packet is sent more often than it was asked
for, so no datagram leads to more than one answer. -/
theorem C49_only_asked_partial (ops : List Op) :
    ∃ ss, sends ops = some ss ∧ ∀ x, ss.count x ≤ (askedAll none ops).count x := by
  obtain ⟨c', s, hr, -, hs, -⟩ := run_eff inv_init ops
  refine ⟨s, by simp [sends, hr], fun x => ?_⟩
  have := hs x
  simp only [init, waiting, List.map_nil, List.nil_append, List.count_append] at this
  omega

/-- C49: while buffers can be allocated and no more than eleven packets are outstanding, none is lost: the
packets sent are those asked for, except for fewer than the outstanding ones; when nothing is outstanding,
they are exactly those. -/
theorem C49_all_asked (ops : List Op) (ha : ∀ op ∈ ops, Alloc op) (hl : Light none 0 ops) :
    ∃ ss rest, sends ops = some ss ∧ (ss ++ rest).Perm (askedAll none ops) ∧
      rest.length ≤ load none 0 ops - 1 := by
  obtain ⟨c', s, hr, hi, -, hf⟩ := run_eff inv_init ops
  obtain ⟨hp, hn⟩ := hf ha hl
  refine ⟨s, waiting c', by simp [sends, hr], by simpa [init, waiting] using hp, ?_⟩
  simp only [init, List.length_nil, Bool.toNat_false] at hn
  rw [← hn]
  cases hb : c'.busy with
  | false => simp [waiting, hi.2 hb]
  | true => simp [waiting]

/-- C49: every packet has 17 bytes, no more than the datagram it answers. -/
theorem C49_size (ops : List Op) (h : ∀ id eps, .request id eps ∈ ops → id.length = 14)
    {ss : List Send} (hs : sends ops = some ss) : ∀ x ∈ ss, x.bytes.length = 17 := by
  intro x hx
  obtain ⟨ss', hs', hc⟩ := C49_only_asked_partial ops
  rw [hs] at hs'
  cases hs'
  have hm : x ∈ askedAll none ops := by
    rw [← List.count_pos_iff]
    have := hc x
    have := List.count_pos_iff.mpr hx
    omega
  clear hs hc hx
  generalize (none : Option Nat) = d at hm
  induction ops generalizing d with
  | nil => cases hm
  | cons op ops ih =>
    simp only [askedAll, List.mem_append] at hm
    rcases hm with hm | hm
    · cases op with
      | datagram conns sock ep buf alloc =>
        simp only [asked] at hm
        split at hm
        · cases hm
        · have : ∀ t, (answer buf t).length = 17 := by intro t; simp [answer]; omega
          split at hm
          · simp only [List.mem_singleton] at hm; rw [hm]; exact this _
          · split at hm
            · simp only [List.mem_singleton] at hm; rw [hm]; exact this _
            · cases hm
      | request id eps =>
        have := h id eps (List.mem_cons_self ..)
        simp only [asked] at hm
        split at hm
        · cases hm
        · simp only [List.mem_map] at hm
          obtain ⟨e, -, rfl⟩ := hm
          simp [this]
      | sent => cases hm
      | dflt => cases hm
    · exact ih (fun id eps hm => h id eps (List.mem_cons_of_mem _ hm)) _ hm

theorem run_append (c : Ctx) (xs ys : List Op) :
    run c (xs ++ ys) = (run c xs).bind fun r => (run r.1 ys).map fun r' => (r'.1, r.2 ++ r'.2) := by
  induction xs generalizing c with
  | nil => simp [run]
  | cons op xs ih =>
    simp only [List.cons_append, run, ih]
    cases step c op with
    | none => rfl
    | some r =>
      obtain ⟨c1, s1⟩ := r
      simp only [Option.bind_eq_bind, Option.bind_some]
      cases run c1 xs with
      | none => rfl
      | some r =>
        obtain ⟨c2, s2⟩ := r
        simp only [Option.bind_some]
        show _ = Option.map _ (run c2 ys)
        cases run c2 ys with
        | none => rfl
        | some r => simp

/-- C49: at most ten packets wait: whatever has happened, the completions which follow lead to at most ten
further packets. -/
theorem C49_bounded (ops : List Op) (as : List Bool) :
    ∃ ss more, sends ops = some ss ∧ sends (ops ++ as.map .sent) = some (ss ++ more) ∧ more.length ≤ 10 := by
  obtain ⟨c, s, hr, hi, -⟩ := run_eff inv_init ops
  have key : ∀ (as : List Bool) (c : Ctx), ∃ c' s', run c (as.map .sent) = some (c', s') ∧
      s'.length + c'.queue.length ≤ c.queue.length := by
    intro as
    induction as with
    | nil => intro c; exact ⟨c, [], rfl, by simp⟩
    | cons al as ih =>
      intro c
      have hstep : ∃ c1 s1, step c (.sent al) = some (c1, s1) ∧ s1.length + c1.queue.length ≤ c.queue.length := by
        simp only [step]
        cases c.busy with
        | false => exact ⟨c, [], rfl, by simp⟩
        | true =>
          refine ⟨(sendNext { c with busy := false } al).1, (sendNext { c with busy := false } al).2, rfl, ?_⟩
          unfold sendNext
          simp only [Bool.false_eq_true, if_false]
          rcases List.eq_nil_or_concat c.queue with hq | ⟨q, p, hq⟩
          · simp [hq]
          · simp only [List.concat_eq_append] at hq
            cases al <;> simp [hq]
            omega
      obtain ⟨c1, s1, h1, l1⟩ := hstep
      obtain ⟨c2, s2, h2, l2⟩ := ih c1
      exact ⟨c2, s1 ++ s2, by simp [run, h1, h2], by simp; omega⟩
  obtain ⟨c', s', h', hl⟩ := key as c
  refine ⟨s, s', by simp [sends, hr], by simp [sends, run_append, hr, h'], ?_⟩
  have := hi.1
  simp only [queueLength] at this
  omega

/-! ## C78: one send at a time -/

theorem sendNext_busy (c : Ctx) (alloc : Bool) :
    (sendNext c alloc).2.length + c.busy.toNat = (sendNext c alloc).1.busy.toNat := by
  unfold sendNext
  cases hb : c.busy with
  | true => simp [hb]
  | false =>
    simp only [Bool.false_eq_true, if_false]
    cases c.queue.getLast? with
    | none => simp [hb]
    | some p => cases alloc <;> simp [hb]

theorem sendRendezvous_busy {c c' : Ctx} {p : Pkt} {alloc : Bool} {s : List Send}
    (h : sendRendezvous c p alloc = some (c', s)) : s.length + c.busy.toNat = c'.busy.toNat := by
  unfold sendRendezvous at h
  split at h
  · cases h; simp
  · split at h
    · cases h; simp
    · simp only [push] at h
      split at h
      · cases h
      · rename_i c1 h1
        split at h1
        · simp only [Option.some.injEq] at h1 h
          have := sendNext_busy c1 alloc
          rw [h] at this
          rw [← h1] at this
          exact this
        · cases h1

theorem sendAll_busy (eps : List (Nat × Bool)) : ∀ {c c' : Ctx} {id : Bytes} {sock : Option Nat} {s : List Send},
    sendAll c id sock eps = some (c', s) → s.length + c.busy.toNat = c'.busy.toNat := by
  induction eps with
  | nil => intro c c' id sock s h; cases h; simp
  | cons e eps ih =>
    intro c c' id sock s h
    obtain ⟨ep, al⟩ := e
    simp only [sendAll, Option.bind_eq_bind] at h
    cases h1 : sendRendezvous c ⟨deviceRequest, id, 0, sock, ep⟩ al with
    | none => simp [h1] at h
    | some r =>
      obtain ⟨c1, s1⟩ := r
      simp only [h1, Option.bind_some] at h
      split at h
      all_goals
        rename_i hq
        simp only [Option.bind_eq_some_iff] at h
        obtain ⟨⟨c2, s2⟩, h2, h3⟩ := h
        simp only [Option.pure_def, Option.some.injEq, Prod.mk.injEq] at h3
        obtain ⟨rfl, rfl⟩ := h3
        have := ih h2
        have := sendRendezvous_busy h1
        simp only [List.length_append]
        omega

theorem step_busy {c c' : Ctx} {op : Op} {s : List Send} (h : step c op = some (c', s)) :
    s.length + c.busy.toNat ≤ completedSends [op] + c'.busy.toNat := by
  cases op with
  | datagram conns sock ep buf alloc =>
    have : s.length + c.busy.toNat = c'.busy.toNat := by
      simp only [step, handlePacket] at h
      split at h
      · cases h; simp
      · split at h
        · split at h
          · split at h
            · exact sendRendezvous_busy h
            · cases h; simp
          · split at h
            · exact sendRendezvous_busy h
            · cases h; simp
        · cases h
    simp only [completedSends]; omega
  | request id eps =>
    have := sendAll_busy eps h
    simp only [completedSends]; omega
  | dflt d => cases h; simp [completedSends]
  | sent al =>
    simp only [step] at h
    split at h
    · rename_i hb
      have := sendNext_busy { c with busy := false } al
      simp only [Option.some.injEq] at h
      rw [h] at this
      simp [completedSends, hb] at this ⊢
      omega
    · cases h; simp [completedSends]

/-- C78 for rendezvous packets: there is never more than one send outstanding, so the buffer is not
overwritten while it is being sent. -/
theorem C78_rendezvous (ops : List Op) {ss : List Send} (h : sends ops = some ss) :
    ss.length ≤ completedSends ops + 1 := by
  have key : ∀ (ops : List Op) (c c' : Ctx) (s : List Send), run c ops = some (c', s) →
      s.length + c.busy.toNat ≤ completedSends ops + c'.busy.toNat := by
    intro ops
    induction ops with
    | nil => intro c c' s h; cases h; simp [completedSends]
    | cons op ops ih =>
      intro c c' s h
      simp only [run, Option.bind_eq_bind, Option.bind_eq_some_iff] at h
      obtain ⟨⟨c1, s1⟩, h1, ⟨c2, s2⟩, h2, h3⟩ := h
      simp only [Option.pure_def, Option.some.injEq, Prod.mk.injEq] at h3
      obtain ⟨rfl, rfl⟩ := h3
      have e1 := step_busy h1
      have e2 := ih c1 _ _ h2
      have : completedSends (op :: ops) = completedSends [op] + completedSends ops := by
        cases op <;> simp [completedSends] <;> omega
      rw [this, List.length_append]
      omega
  unfold sends at h
  cases hr : run init ops with
  | none => simp [hr] at h
  | some r =>
    have := key ops init r.1 r.2 hr
    simp only [hr, Option.map_some, Option.some.injEq] at h
    rw [← h]
    simp only [init, Bool.toNat_false] at this
    have hb : r.1.busy.toNat ≤ 1 := Bool.toNat_le _
    omega

/-- A connection with this id. -/
def someConn (ref : Nat) (id : Bytes) : Conn.Conn :=
  ⟨ref, some { hdr := 240 :: id ++ [7], cur := ⟨0, 0, 7⟩, alt := ⟨0, 0, 7⟩, maxSeq := 0, sending := false }⟩

/-- Open connections. -/
def someConns (ids : List Bytes) : Conn.Ctx :=
  { clientOnly := false, conns := ids.map (someConn 1), max := 10, current := ids.length, closing := false,
    closeCb := false, lastRef := 1, sendingInternalError := false }

theorem shift_eq (ch : UInt8) : ∀ (n : Nat) (id : Bytes), id.length = n → (id = (id ++ [ch]).drop 1 ↔ id = List.replicate n ch) := by
  intro n
  induction n with
  | zero => intro id h; simp [List.length_eq_zero_iff.mp h]
  | succ n ih =>
    intro id h
    cases id with
    | nil => cases h
    | cons x id =>
      have hlen : id.length = n := by simpa using h
      simp only [List.cons_append, List.drop_succ_cons, List.drop_zero, List.replicate_succ]
      constructor
      · intro he
        have h2 : id = (id ++ [ch]).drop 1 := by
          have := congrArg (List.drop 1) he
          simpa using this
        have h3 := (ih id hlen).mp h2
        rw [h3] at he ⊢
        cases n with
        | zero => simpa using he
        | succ n =>
          simp only [List.replicate_succ, List.cons_append, List.cons.injEq] at he
          rw [he.1]
      · intro he
        simp only [List.cons.injEq] at he
        rw [he.2, he.1, ← List.replicate_succ, ← List.replicate_succ']

/-- C49 is violated: the request of the client itself is answered only in the case that all bytes of its id
are equal to the channel. The function which looks up the connection expects a pointer to the whole header,
it is given a pointer to the id. -/
theorem C49_genuine_violated (id : Bytes) (h : id.length = 14) (ch : UInt8) (sock ep : Nat) :
    Known (someConns [id]) (241 :: id ++ [ch, 1]) ∧
    (sends [.datagram (someConns [id]) sock ep (241 :: id ++ [ch, 1]) true] =
        some [⟨sock, ep, 241 :: id ++ [ch, 2]⟩] ↔ id = List.replicate 14 ch) ∧
    (id ≠ List.replicate 14 ch →
      sends [.datagram (someConns [id]) sock ep (241 :: id ++ [ch, 1]) true] = some []) := by
  have hid : ∀ (x : UInt8) (l : Bytes), Conn.Spec.id14 (x :: id ++ l) = id := by
    intro x l; simp [Conn.Spec.id14, h]
  have hh : headers (someConns [id]) = [240 :: id ++ [7]] := by simp [headers, someConns, someConn]
  have hk : KnownShifted (someConns [id]) (241 :: id ++ [ch, 1]) ↔ id = List.replicate 14 ch := by
    rw [← shift_eq ch 14 id h]
    simp only [KnownShifted, hh, List.mem_singleton, exists_eq_left]
    rw [hid]
    have : Conn.Spec.id14 ((241 :: id ++ [ch, 1]).drop 1) = (id ++ [ch]).drop 1 := by
      have : (id ++ [ch, 1]).take 15 = id ++ [ch] := by simp [List.take_append, h, List.take_of_length_le]
      simp only [Conn.Spec.id14, List.cons_append, List.drop_succ_cons, List.drop_zero, this]
    rw [this]
  have hlen : (241 :: id ++ [ch, 1]).length = 17 := by simp [h]
  have h16 : (241 :: id ++ [ch, 1])[16]? = some 1 := by simp [h]
  have hans : answer (241 :: id ++ [ch, 1]) 2 = 241 :: id ++ [ch, 2] := by
    have : (id ++ [ch, 1]).take 15 = id ++ [ch] := by simp [List.take_append, h, List.take_of_length_le]
    simp [answer, this]
  have hno : id ≠ List.replicate 14 ch →
      sends [.datagram (someConns [id]) sock ep (241 :: id ++ [ch, 1]) true] = some [] := by
    intro hne
    obtain ⟨ss, hs, hc⟩ := C49_only_asked_partial [.datagram (someConns [id]) sock ep (241 :: id ++ [ch, 1]) true]
    rw [hs]
    have : askedAll none [.datagram (someConns [id]) sock ep (241 :: id ++ [ch, 1]) true] = [] := by
      simp only [askedAll, asked]
      rw [if_neg (by omega), if_neg (by rw [hk]; exact fun hx => hne hx.2), if_neg (by rw [h16]; decide)]
      rfl
    rw [this] at hc
    cases ss with
    | nil => rfl
    | cons x ss => have := hc x; simp at this
  refine ⟨⟨_, by rw [hh]; exact List.mem_singleton.mpr rfl, by rw [hid, hid]⟩, ⟨fun hx => ?_, fun hx => ?_⟩, hno⟩
  · apply Classical.byContradiction
    intro hne
    rw [hno hne] at hx
    cases hx
  · have ha : askedAll none [.datagram (someConns [id]) sock ep (241 :: id ++ [ch, 1]) true] =
        [⟨sock, ep, 241 :: id ++ [ch, 2]⟩] := by
      simp only [askedAll, asked]
      rw [if_neg (by omega), if_pos ⟨h16, hk.mpr hx⟩, hans]
      rfl
    obtain ⟨ss, rest, hs, hp, hr⟩ := C49_all_asked
      [.datagram (someConns [id]) sock ep (241 :: id ++ [ch, 1]) true] (by simp [Alloc])
      (by
        simp only [askedAll, List.append_nil] at ha
        simp only [Light, newLoad, ha]; simp)
    rw [ha] at hp
    have hr' : rest = [] := by
      simp only [askedAll, List.append_nil] at ha
      simp only [load, newLoad, ha] at hr
      simpa using hr
    rw [hs]
    rw [hr', List.append_nil] at hp
    rw [List.perm_singleton.mp hp]

/-- C49 is violated: a request with an id which no open connection has is answered. -/
theorem C49_foreign_violated :
    let id : Bytes := [1, 2, 3, 4, 5, 6, 7, 8, 9, 10, 11, 12, 13, 14]
    let buf : Bytes := [241, 0, 1, 2, 3, 4, 5, 6, 7, 8, 9, 10, 11, 12, 13, 14, 1]
    ¬ Known (someConns [id]) buf ∧
    sends [.datagram (someConns [id]) 5 6 buf true] =
      some [⟨5, 6, [241, 0, 1, 2, 3, 4, 5, 6, 7, 8, 9, 10, 11, 12, 13, 14, 2]⟩] := by
  refine ⟨?_, by decide +kernel⟩
  simp only [Known, headers, someConns]
  decide

/-- Non-vacuity: two pings and a CoAP request with two endpoints, then the sends are completed. The packets
leave the device in the opposite order. -/
example :
    let id : Bytes := List.replicate 14 9
    let ops : List Op := [.dflt (some 3), .datagram (someConns []) 1 11 (241 :: id ++ [0, 4]) true,
      .request id [(21, true), (22, true)], .datagram (someConns []) 2 12 (241 :: id ++ [1, 4]) true,
      .sent true, .sent true, .sent true, .sent true]
    sends ops = some [⟨1, 11, 241 :: id ++ [0, 5]⟩, ⟨2, 12, 241 :: id ++ [1, 5]⟩, ⟨3, 22, 241 :: id ++ [0, 3]⟩,
      ⟨3, 21, 241 :: id ++ [0, 3]⟩] := by decide +kernel

example :
    let id : Bytes := List.replicate 14 9
    let ops : List Op := [.dflt (some 3), .datagram (someConns []) 1 11 (241 :: id ++ [0, 4]) true,
      .request id [(21, true), (22, true)], .sent true, .sent true, .sent true]
    (∀ op ∈ ops, Alloc op) ∧ Light none 0 ops ∧ load none 0 ops = 0 := by
  simp [Alloc, Light, load, newLoad, asked, newDflt]

end Verif.Core.Rendezvous
