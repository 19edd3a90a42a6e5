import Verif.Core.ConnLemmas

/-!
# Client connections — property theorems (C44)
-/

namespace Verif.Core.Conn

open Spec

/-! ### Helpers -/

theorem snoc_ind {α : Type} {P : List α → Prop} (h0 : P []) (h1 : ∀ l a, P l → P (l ++ [a])) :
    ∀ l, P l := by
  intro l
  have : ∀ n, ∀ l : List α, l.length = n → P l := by
    intro n
    induction n with
    | zero => intro l hl; rw [List.eq_nil_of_length_eq_zero hl]; exact h0
    | succ n ih =>
      intro l hl
      have hne : l ≠ [] := by intro e; simp [e] at hl
      rw [← List.dropLast_concat_getLast hne]
      exact h1 _ _ (ih _ (by simp [hl]))
  exact this _ l rfl

theorem limit_snoc (ops : List Op) (op : Op) :
    limit (ops ++ [op]) = newLimit (limit ops) op := by
  simp [limit, List.foldl_append]

theorem alloc_fields (c : Ctx) (mem : Bool) (cl : Option Client) :
    (alloc c mem cl).1.lastRef ≤ c.lastRef + 1 ∧ (alloc c mem cl).1.max = c.max ∧
    (alloc c mem cl).1.clientOnly = c.clientOnly ∧ (alloc c mem cl).1.closing = c.closing ∧
    (alloc c mem cl).1.closeCb = c.closeCb := by
  unfold alloc
  have := Nat.mod_le (c.lastRef + 1) (2 ^ 64)
  split
  · simp
  · split
    · simp
    · unfold nextRef
      dsimp only
      split
      · rename_i h
        split at h <;> simp at h
        subst h; exact ⟨this, rfl, rfl, rfl, rfl⟩
      · rename_i h
        split at h <;> simp at h
        rw [← h.1]; exact ⟨this, rfl, rfl, rfl, rfl⟩

theorem destroy_fields (c : Ctx) (ref : Nat) :
    (destroy c ref).1.lastRef = c.lastRef ∧ (destroy c ref).1.max = c.max ∧
    (destroy c ref).1.clientOnly = c.clientOnly :=
  ⟨(free_view c ref).2.2.1, (free_view c ref).2.2.2.1, (free_view c ref).2.2.2.2.1⟩

theorem closeLoop_fields (sync : Nat → Bool) (ks : List Conn) (c : Ctx) :
    (closeLoop sync ks c).1.lastRef = c.lastRef ∧ (closeLoop sync ks c).1.max = c.max ∧
    (closeLoop sync ks c).1.clientOnly = c.clientOnly := by
  induction ks generalizing c with
  | nil => exact ⟨rfl, rfl, rfl⟩
  | cons k ks ih =>
    simp only [closeLoop]
    split
    · split
      · obtain ⟨h1, h2, h3⟩ := ih (destroy c k.ref).1
        obtain ⟨g1, g2, g3⟩ := destroy_fields c k.ref
        exact ⟨h1.trans g1, h2.trans g2, h3.trans g3⟩
      · exact ih c
    · exact ih c

/-- The counter, the limit and the build option after a step. -/
theorem step_fields {c c' : Ctx} {op : Op} {os : List Out} (h : step c op = some (c', os)) :
    c'.lastRef ≤ c.lastRef + 1 ∧ c'.clientOnly = c.clientOnly ∧
    c'.max = newLimit c.max op := by
  have same : c.lastRef ≤ c.lastRef + 1 := by omega
  cases op with
  | packet sock ep data mem initOk =>
    simp only [step, Option.some.injEq] at h
    unfold handlePacket at h
    split at h
    · cases h; exact ⟨same, rfl, rfl⟩
    · split at h
      · cases h; exact ⟨same, rfl, rfl⟩
      · cases h; exact ⟨same, rfl, rfl⟩
      · split at h
        · unfold openNew at h
          split at h
          · rename_i d hc
            obtain ⟨b, os', he, -⟩ := sendInternalError_cases d sock ep data
            obtain ⟨h1, h2, h3, -⟩ := alloc_fields c mem (some (newClient sock ep data (by omega)))
            rw [hc] at h1 h2 h3
            rw [he] at h; cases h
            exact ⟨h1, h3, h2⟩
          · rename_i d ref hc
            obtain ⟨h1, h2, h3, -⟩ := alloc_fields c mem (some (newClient sock ep data (by omega)))
            rw [hc] at h1 h2 h3
            split at h
            · cases h
              exact ⟨h1, h3, h2⟩
            · obtain ⟨b, os', he, -⟩ := sendInternalError_cases d sock ep data
              rw [he] at h
              obtain ⟨g1, g2, g3⟩ := destroy_fields { d with sendingInternalError := b } ref
              have hc' : c' = (destroy { d with sendingInternalError := b } ref).1 := by
                simp only [Prod.mk.injEq] at h; exact h.1.symm
              rw [hc']
              exact ⟨by rw [g1]; exact h1, by rw [g3]; exact h3, by rw [g2]; exact h2⟩
        · cases h; exact ⟨same, rfl, rfl⟩
  | data ref channel seq data =>
    simp only [step] at h
    split at h
    · unfold handleData at h
      split at h
      · cases h
      · split at h
        · split at h <;> cases h <;> exact ⟨same, rfl, rfl⟩
        · cases h; exact ⟨same, rfl, rfl⟩
    · cases h; exact ⟨same, rfl, rfl⟩
  | handshakeDone ref =>
    simp only [step] at h
    split at h <;> cases h <;> exact ⟨same, rfl, rfl⟩
  | dtlsClosed ref =>
    simp only [step] at h
    split at h
    · obtain ⟨g1, g2, g3⟩ := destroy_fields c ref
      rw [Option.some.inj h] at g1 g2 g3
      exact ⟨by rw [g1]; omega, g3, g2⟩
    · cases h; exact ⟨same, rfl, rfl⟩
  | dtlsSend ref channel data =>
    simp only [step] at h
    split at h
    · unfold sendToUdp at h
      split at h
      · cases h; exact ⟨same, rfl, rfl⟩
      · dsimp only at h
        split at h
        · cases h; exact ⟨same, rfl, rfl⟩
        · split at h <;> cases h <;> exact ⟨same, rfl, rfl⟩
    · cases h; exact ⟨same, rfl, rfl⟩
  | udpSent ref =>
    simp only [step] at h
    split at h
    · unfold sentToUdp at h
      split at h <;> cases h <;> exact ⟨same, rfl, rfl⟩
    · cases h; exact ⟨same, rfl, rfl⟩
  | internalErrorSent => cases h; exact ⟨same, rfl, rfl⟩
  | newVirtual mem =>
    simp only [step] at h
    obtain ⟨h1, h2, h3, -⟩ := alloc_fields c mem none
    split at h
    · rename_i hc
      rw [hc] at h1 h2 h3
      cases h; exact ⟨h1, h3, h2⟩
    · rename_i hc
      rw [hc] at h1 h2 h3
      cases h; exact ⟨h1, h3, h2⟩
  | freeVirtual ref =>
    simp only [step] at h
    split at h
    · obtain ⟨g1, g2, g3⟩ := destroy_fields c ref
      rw [Option.some.inj h] at g1 g2 g3
      exact ⟨by rw [g1]; omega, g3, g2⟩
    · cases h; exact ⟨same, rfl, rfl⟩
  | setMax n => cases h; exact ⟨same, rfl, rfl⟩
  | close cb sync =>
    simp only [step, Option.some.injEq] at h
    unfold asyncClose at h
    obtain ⟨g1, g2, g3⟩ := closeLoop_fields sync c.conns { c with closing := true }
    dsimp only at h
    split at h
    all_goals
      simp only [Prod.mk.injEq] at h
      rw [← h.1]
      exact ⟨Nat.le_trans (Nat.le_of_eq g1) same, g3, g2⟩

theorem run_inv {m : Bool} {ops : List Op} : ∀ {c : Ctx} {outs : List Out},
    run (init m) ops = some (c, outs) → ops.length < 2 ^ 64 - 1 →
    Inv c outs ∧ c.lastRef ≤ ops.length ∧ c.max = limit ops ∧ c.clientOnly = m := by
  induction ops using snoc_ind with
  | h0 =>
    intro c outs h _
    simp only [run, Option.some.injEq, Prod.mk.injEq] at h
    obtain ⟨rfl, rfl⟩ := h
    exact ⟨inv_init m, Nat.le_refl _, rfl, rfl⟩
  | h1 ops op ih =>
    intro c outs h hlen
    obtain ⟨d, os, os', hr, hs, rfl⟩ := run_snoc h
    simp only [List.length_append, List.length_singleton] at hlen ⊢
    obtain ⟨hi, hl, hm, ho⟩ := ih hr (by omega)
    obtain ⟨g1, g2, g3⟩ := step_fields hs
    refine ⟨inv_step hi (by omega) hs, by omega, ?_, g2.trans ho⟩
    rw [limit_snoc, g3, hm]

theorem live_mem {c : Ctx} {outs : List Out} (hi : Inv c outs) {ref : Nat} {hdr : Bytes}
    (h : (ref, some hdr) ∈ live outs) : ∃ cl, ⟨ref, some cl⟩ ∈ c.conns ∧ cl.hdr = hdr := by
  rw [hi.live] at h
  obtain ⟨⟨r, cl⟩, hk, he⟩ := List.mem_map.mp h
  simp only [Prod.mk.injEq] at he
  obtain ⟨rfl, he⟩ := he
  cases cl with
  | none => simp at he
  | some cl => exact ⟨cl, hk, by simpa using he⟩

theorem fromId_live {c : Ctx} {outs : List Out} (hi : Inv c outs) {ref : Nat} {cl : Client}
    {hdr : Bytes} (h : ⟨ref, some cl⟩ ∈ c.conns) (he : id14 hdr = id14 cl.hdr) :
    fromId c hdr = some ⟨ref, some cl⟩ := by
  cases hf : fromId c hdr with
  | none =>
    exact absurd he.symm (fromId_none hf (ref, some cl.hdr) (List.mem_map.mpr ⟨_, h, rfl⟩) _ rfl)
  | some k =>
    obtain ⟨hk, cl', hcl, he'⟩ := fromId_some hf
    have := pairwise_eq hi.apart
      (List.mem_map.mpr ⟨k, hk, rfl⟩) (List.mem_map.mpr ⟨_, h, rfl⟩)
      (x := cl'.hdr) (y := cl.hdr) (by simp [hcl]) rfl (he'.symm.trans he)
    simp only [Prod.mk.injEq] at this
    rw [conn_unique hi hk h this.1]

/-! ## C44: connections are identified by their id -/

/-- C44: a datagram with the id of an open connection is given, without its header, to the DTLS session
of that connection and to nothing else, and no connection is opened or closed by it. (Histories of less
than `2^64 - 1` events; see `C44_refs_violated`.) -/
theorem C44_delivered {m : Bool} {ops : List Op} {c : Ctx} {outs : List Out}
    (h : run (init m) ops = some (c, outs)) (hlen : ops.length < 2 ^ 64 - 1)
    {ref : Nat} {hdr : Bytes} (hlive : (ref, some hdr) ∈ live outs)
    {packet : Bytes} (hp : 17 ≤ packet.length) (hid : id14 packet = id14 hdr)
    (sock ep : Nat) (mem initOk : Bool) :
    ∃ c' ch, step c (.packet sock ep packet mem initOk) = some (c', [.toDtls ref ch (packet.drop 16)]) := by
  obtain ⟨hi, -, -, -⟩ := run_inv h hlen
  obtain ⟨cl, hk, rfl⟩ := live_mem hi hlive
  refine ⟨(clientPacket c ref cl sock ep packet[15] packet).1,
    if c.clientOnly then packet[15] else cl.cur.id, ?_⟩
  simp only [step, handlePacket, dif_neg (show ¬ packet.length < 17 by omega), fromId_live hi hk hid]
  rfl

/-- C44: a connection is opened only by a handshake packet whose id is not the id of an open connection,
or by the application as a virtual connection, and in both cases only below the limit. It gets the
header of the packet. -/
theorem C44_created {m : Bool} {ops : List Op} {c c' : Ctx} {outs os : List Out}
    (h : run (init m) ops = some (c, outs)) (hlen : ops.length < 2 ^ 64 - 1) {op : Op}
    (hs : step c op = some (c', os)) {ref : Nat} {hdr : Option Bytes} (hc : .created ref hdr ∈ os) :
    (live outs).length < limit ops ∧
    ((∃ mem, op = .newVirtual mem ∧ hdr = none) ∨
     (∃ sock ep packet, op = .packet sock ep packet true true ∧ 17 ≤ packet.length ∧
        packet[16]? = some 22 ∧ hdr = some (packet.take 16) ∧
        ∀ k ∈ live outs, ∀ hd, k.2 = some hd → id14 hd ≠ id14 packet)) := by
  obtain ⟨hi, hl, hmax, -⟩ := run_inv h hlen
  have hcnt : c.current = (live outs).length := by rw [hi.live]; exact hi.count
  have quiet : ∀ {os : List Out}, (∀ o ∈ os, Quiet o) → .created ref hdr ∈ os → False :=
    fun hq hm => hq _ hm
  cases op with
  | packet sock ep packet mem initOk =>
    simp only [step, Option.some.injEq] at hs
    unfold handlePacket at hs
    split at hs
    · cases hs; cases hc
    · split at hs
      · cases hs; simp at hc
      · cases hs; cases hc
      · rename_i hf
        split at hs
        · rename_i h22
          unfold openNew at hs
          split at hs
          · obtain ⟨b, os', he, ho⟩ := sendInternalError_cases (by assumption) sock ep packet
            rw [he] at hs
            cases hs
            exact absurd (ho _ hc) nofun
          · rename_i hal
            obtain ⟨rfl, h1, rfl, rfl⟩ := alloc_some hal (by omega)
            split at hs
            · rename_i hok
              cases hs
              rw [hcnt, hmax] at h1
              refine ⟨h1, .inr ⟨sock, ep, packet, by rw [hok], by omega, ?_, ?_, ?_⟩⟩
              · rw [List.getElem?_eq_getElem (by omega), h22]
              · rcases List.mem_cons.mp hc with hc | hc
                · cases hc; rfl
                · unfold start at hc
                  split at hc <;> simp at hc
              · rw [hi.live]; exact fromId_none hf
            · obtain ⟨b, os', he, ho⟩ := sendInternalError_cases
                { c with lastRef := c.lastRef + 1, current := c.current + 1,
                         conns := c.conns ++
                           [⟨c.lastRef + 1, some (newClient sock ep packet (by omega))⟩] }
                sock ep packet
              rw [he] at hs
              cases hs
              rcases List.mem_append.mp hc with hc | hc
              · exact absurd (ho _ hc) nofun
              · rcases List.mem_cons.mp hc with hc | hc
                · cases hc
                · exact (quiet (free_quiet _ _) hc).elim
        · cases hs; cases hc
  | newVirtual mem =>
    simp only [step] at hs
    split at hs
    · cases hs; cases hc
    · rename_i hal
      obtain ⟨-, h1, -, -⟩ := alloc_some hal (by omega)
      cases hs
      rw [hcnt, hmax] at h1
      refine ⟨h1, .inl ⟨mem, rfl, ?_⟩⟩
      simp at hc
      exact hc.2
  | data r ch seq d =>
    simp only [step] at hs
    split at hs
    · unfold handleData at hs
      split at hs
      · cases hs
      · split at hs
        · split at hs <;> cases hs <;> simp at hc
        · cases hs; simp at hc
    · cases hs; cases hc
  | handshakeDone r =>
    simp only [step] at hs
    split at hs <;> cases hs <;> simp at hc
  | dtlsClosed r =>
    simp only [step] at hs
    split at hs
    · cases hs
      rcases List.mem_cons.mp hc with hc | hc
      · cases hc
      · exact (quiet (free_quiet _ _) hc).elim
    · cases hs; cases hc
  | dtlsSend r ch d =>
    simp only [step] at hs
    split at hs
    · unfold sendToUdp at hs
      split at hs
      · cases hs; simp at hc
      · dsimp only at hs
        split at hs
        · cases hs; simp at hc
        · split at hs <;> cases hs <;> simp at hc
    · cases hs; cases hc
  | udpSent r =>
    simp only [step] at hs
    split at hs
    · unfold sentToUdp at hs
      split at hs <;> cases hs <;> simp at hc
    · cases hs; cases hc
  | internalErrorSent => cases hs; cases hc
  | freeVirtual r =>
    simp only [step] at hs
    split at hs
    · cases hs
      rcases List.mem_cons.mp hc with hc | hc
      · cases hc
      · exact (quiet (free_quiet _ _) hc).elim
    · cases hs; cases hc
  | setMax n => cases hs; cases hc
  | close cb sync =>
    have hloop : ∀ (ks : List Conn) (d : Ctx), .created ref hdr ∉ (closeLoop sync ks d).2 := by
      intro ks
      induction ks with
      | nil => intro d hm; cases hm
      | cons k ks ih =>
        intro d hm
        simp only [closeLoop] at hm
        split at hm
        · split at hm
          · simp only [List.mem_cons, List.mem_append, List.cons_append] at hm
            rcases hm with hm | hm | hm
            · cases hm
            · rcases List.mem_cons.mp hm with hm | hm
              · cases hm
              · exact quiet (free_quiet _ _) hm
            · exact ih _ hm
          · simp only [List.mem_cons, List.mem_append, List.cons_append, List.not_mem_nil, false_or] at hm
            rcases hm with hm | hm
            · cases hm
            · exact ih _ hm
        · exact ih _ hm
    simp only [step, Option.some.injEq] at hs
    unfold asyncClose at hs
    dsimp only at hs
    split at hs
    · cases hs; exact (hloop _ _ hc).elim
    · cases hs
      simp at hc
      exact (hloop _ _ hc).elim

/-- C44: and such a packet does open a connection if memory allows: the condition of `C44_created` is
exact. -/
theorem C44_opens {m : Bool} {ops : List Op} {c : Ctx} {outs : List Out}
    (h : run (init m) ops = some (c, outs)) (hlen : ops.length < 2 ^ 64 - 1)
    {packet : Bytes} (hp : 17 ≤ packet.length) (h22 : packet[16]? = some 22)
    (hid : ∀ k ∈ live outs, ∀ hd, k.2 = some hd → id14 hd ≠ id14 packet)
    (hlim : (live outs).length < limit ops) (sock ep : Nat) :
    ∃ c' ref os, step c (.packet sock ep packet true true) =
        some (c', .created ref (some (packet.take 16)) :: os) ∧
      os = (if m then [.dtlsConnect ref] else [.toDtls ref packet[15] (packet.drop 16)]) ∧
      ref ∉ made outs := by
  obtain ⟨hi, hl, hmax, hm⟩ := run_inv h hlen
  have hcnt : c.current = (live outs).length := by rw [hi.live]; exact hi.count
  have hf : fromId c packet = none := by
    cases hf : fromId c packet with
    | none => rfl
    | some k =>
      obtain ⟨hk, cl, hcl, he⟩ := fromId_some hf
      refine absurd he.symm (hid (k.ref, some cl.hdr) ?_ _ rfl)
      rw [hi.live]
      exact List.mem_map.mpr ⟨k, hk, by simp [hcl]⟩
  have h22' : packet[16] = 22 := by
    rw [List.getElem?_eq_getElem (by omega)] at h22
    exact Option.some.inj h22
  have hal : ∀ cl, alloc c true cl =
      ({ c with lastRef := c.lastRef + 1, current := c.current + 1
                conns := c.conns ++ [⟨c.lastRef + 1, cl⟩] }, some (c.lastRef + 1)) := by
    intro cl
    have hmod : (c.lastRef + 1) % 2 ^ 64 = c.lastRef + 1 := Nat.mod_eq_of_lt (by omega)
    unfold alloc
    rw [if_neg (by rw [hcnt, hmax]; omega), if_neg (by simp)]
    simp only [nextRef, hmod]
    rw [if_neg (by omega)]
  refine ⟨{ c with lastRef := c.lastRef + 1, current := c.current + 1
                   conns := c.conns ++ [⟨c.lastRef + 1, some (newClient sock ep packet (by omega))⟩] },
    c.lastRef + 1, _, ?_, rfl, ?_⟩
  · simp only [step, handlePacket, dif_neg (show ¬ packet.length < 17 by omega), hf, if_pos h22', openNew,
      hal, if_true, start, hm]
    rfl
  · intro hmem
    have := hi.madeBound _ hmem
    omega

/-- C44: the number of open connections stays within the limit, as long as the limit is not lowered
below it. -/
theorem C44_limit {m : Bool} {ops later : List Op} {c d : Ctx} {outs outs' : List Out}
    (h : run (init m) ops = some (c, outs)) (h' : run c later = some (d, outs'))
    (hlen : (ops ++ later).length < 2 ^ 64 - 1) (hkeep : KeepsLimit later)
    (hlim : (live outs).length ≤ limit ops) : (live (outs ++ outs')).length ≤ limit ops := by
  induction later using snoc_ind generalizing d outs' with
  | h0 =>
    simp only [run, Option.some.injEq, Prod.mk.injEq] at h'
    obtain ⟨rfl, rfl⟩ := h'
    simpa using hlim
  | h1 later op ih =>
    obtain ⟨e, os, os', hr, hs, rfl⟩ := run_snoc h'
    have hkeep' : KeepsLimit later := fun o ho => hkeep o (List.mem_append_left _ ho)
    have hl := ih hr (by simp at hlen ⊢; omega) hkeep'
    have hre : run (init m) (ops ++ later) = some (e, outs ++ os) := by
      rw [run_append, h]; simp [hr]
    have hlen2 : (ops ++ later).length < 2 ^ 64 - 1 := by simp at hlen ⊢; omega
    have hlimit : limit (ops ++ later) = limit ops := by
      clear hlim hl hre hr ih hs h' h hlen hlen2 hkeep
      induction later using snoc_ind with
      | h0 => simp
      | h1 l o ih =>
        rw [← List.append_assoc, limit_snoc]
        have hk : KeepsLimit l := fun o ho => hkeep' o (List.mem_append_left _ ho)
        cases o with
        | setMax n => exact absurd rfl (hkeep' (.setMax n) (by simp) n)
        | _ => exact ih hk
    by_cases hcr : ∃ r hd, Out.created r hd ∈ os'
    · obtain ⟨r, hd, hm⟩ := hcr
      obtain ⟨hlt, hcase⟩ := C44_created hre hlen2 hs hm
      rw [hlimit] at hlt
      rw [← List.append_assoc, live_append]
      have key : ∀ (l : List Out) (v : List (Nat × Option Bytes)),
          (l.foldl note v).length ≤ v.length + (made l).length := by
        intro l
        induction l with
        | nil => intro v; simp [made]
        | cons o l ih =>
          intro v
          refine Nat.le_trans (ih _) ?_
          have : (note v o).length + (made l).length ≤ v.length + (made (o :: l)).length := by
            unfold note
            split
            · simp [made]; omega
            · have := List.length_filter_le (fun k : Nat × Option Bytes => k.1 ≠ by assumption) v
              simp only [made]; omega
            · cases o <;> simp_all [made]
          exact this
      have hone : (made os').length ≤ 1 := by
        obtain ⟨mem, rfl, -⟩ | ⟨sock, ep, packet, rfl, -⟩ := hcase
        · simp only [step] at hs
          split at hs <;> cases hs <;> simp [made]
        · simp only [step, Option.some.injEq] at hs
          unfold handlePacket at hs
          split at hs
          · cases hs; simp [made]
          · split at hs
            · cases hs; simp [made]
            · cases hs; simp [made]
            · split at hs
              · unfold openNew at hs
                split at hs
                · obtain ⟨b, os2, he, ho⟩ := sendInternalError_cases (by assumption) sock ep packet
                  rw [he] at hs
                  cases hs
                  exact absurd (ho _ hm) nofun
                · simp at hs
                  obtain ⟨-, rfl⟩ := hs
                  unfold start
                  split <;> simp [made]
              · cases hs; simp [made]
      have := key os' (live (outs ++ os))
      omega
    · rw [← List.append_assoc, live_append]
      have key : ∀ (l : List Out) (v : List (Nat × Option Bytes)),
          (¬ ∃ r hd, Out.created r hd ∈ l) → (l.foldl note v).length ≤ v.length := by
        intro l
        induction l with
        | nil => intro v _; simp
        | cons o l ih =>
          intro v hn
          refine Nat.le_trans (ih _ (fun ⟨r, hd, hm⟩ => hn ⟨r, hd, List.mem_cons_of_mem _ hm⟩)) ?_
          unfold note
          split
          · rename_i r hd
            exact absurd ⟨r, hd, List.mem_cons_self ..⟩ hn
          · exact List.length_filter_le ..
          · exact Nat.le_refl _
      exact Nat.le_trans (key os' _ hcr) hl

/-- C44: no two open connections have the same id or the same reference, and no reference is ever handed
out twice. -/
theorem C44_refs_partial {m : Bool} {ops : List Op} {c : Ctx} {outs : List Out}
    (h : run (init m) ops = some (c, outs)) (hlen : ops.length < 2 ^ 64 - 1) :
    (made outs).Nodup ∧ ((live outs).map (·.1)).Nodup ∧
    ∀ k ∈ live outs, ∀ k' ∈ live outs, ∀ hd hd', k.2 = some hd → k'.2 = some hd' →
      id14 hd = id14 hd' → k = k' := by
  obtain ⟨hi, -⟩ := run_inv h hlen
  refine ⟨hi.made.imp (fun h => Nat.ne_of_lt h), by rw [hi.live]; exact hi.refs, ?_⟩
  rw [hi.live]
  intro k hk k' hk' hd hd' h1 h2 h3
  exact pairwise_eq hi.apart hk hk' h1 h2 h3

/-- C44: a client which cannot be served is told so: a handshake packet with an unknown id which finds
the limit reached or no memory is answered with the header of the packet and a fatal DTLS alert
(internal error), sent to the sender, unless such an alert is being sent already. -/
theorem C44_refused {m : Bool} {ops : List Op} {c : Ctx} {outs : List Out}
    (h : run (init m) ops = some (c, outs)) (hlen : ops.length < 2 ^ 64 - 1)
    {packet : Bytes} (hp : 17 ≤ packet.length) (h22 : packet[16]? = some 22)
    (hid : ∀ k ∈ live outs, ∀ hd, k.2 = some hd → id14 hd ≠ id14 packet) {mem : Bool}
    (hlim : limit ops ≤ (live outs).length ∨ mem = false) (sock ep : Nat) (initOk : Bool) :
    step c (.packet sock ep packet mem initOk) =
      some (if c.sendingInternalError then (c, [])
        else ({ c with sendingInternalError := true },
          [.udp sock ep (packet.take 16 ++
            [21, 254, 253, 0, 0, 0, 0, 0, 0, 0, 0, 0, 2, 2, 80])])) := by
  obtain ⟨hi, hl, hmax, hm⟩ := run_inv h hlen
  have hcnt : c.current = (live outs).length := by rw [hi.live]; exact hi.count
  have hf : fromId c packet = none := by
    cases hf : fromId c packet with
    | none => rfl
    | some k =>
      obtain ⟨hk, cl, hcl, he⟩ := fromId_some hf
      refine absurd he.symm (hid (k.ref, some cl.hdr) ?_ _ rfl)
      rw [hi.live]
      exact List.mem_map.mpr ⟨k, hk, by simp [hcl]⟩
  have h22' : packet[16] = 22 := by
    rw [List.getElem?_eq_getElem (by omega)] at h22
    exact Option.some.inj h22
  have hal : ∀ cl, alloc c mem cl = (c, none) := by
    intro cl
    unfold alloc
    rcases hlim with hlim | rfl
    · rw [if_pos (by rw [hcnt, hmax]; exact hlim)]
    · split <;> simp
  simp only [step, handlePacket, dif_neg (show ¬ packet.length < 17 by omega), hf, if_pos h22', openNew,
    hal, sendInternalError, dif_neg, if_neg (show ¬ packet.length < 16 by omega)]
  split
  · rfl
  · simp [internalError]

/-- A handshake packet of a client with this id and channel. -/
def hello (id ch : UInt8) : Bytes := [240] ++ List.replicate 14 id ++ [ch] ++ [22, 1]

/-- Non-vacuity: two clients, the second finds the limit reached; a packet of the first one is
delivered. -/
example : ∃ c, run (init false)
    [.setMax 1, .packet 1 10 (hello 7 0) true true, .packet 1 11 (hello 8 0) true true,
      .packet 1 10 (hello 7 0) true true] =
    some (c, [.created 1 (some ((hello 7 0).take 16)), .toDtls 1 0 [22, 1],
      .udp 1 11 ((hello 8 0).take 16 ++ [21, 254, 253, 0, 0, 0, 0, 0, 0, 0, 0, 0, 2, 2, 80]),
      .toDtls 1 0 [22, 1]]) := ⟨_, rfl⟩

/-! ### The counter of references wraps -/

/-- Make and free a virtual connection `n` times. -/
def cycle : Nat → List Op
  | 0 => []
  | n + 1 => cycle n ++ [.newVirtual true, .freeVirtual (n + 1)]

theorem run_cycle (m : Bool) (n : Nat) (hn : n < 2 ^ 64) :
    ∃ outs, run (init m) (cycle n) = some ({ init m with lastRef := n }, outs) ∧
      (0 < n → 1 ∈ made outs) := by
  induction n with
  | zero => exact ⟨[], rfl, by omega⟩
  | succ n ih =>
    obtain ⟨outs, hr, hm⟩ := ih (by omega)
    have hmod : (n + 1) % 2 ^ 64 = n + 1 := Nat.mod_eq_of_lt hn
    have hs : run { init m with lastRef := n } [.newVirtual true, .freeVirtual (n + 1)] =
        some ({ init m with lastRef := n + 1 },
          [.created (n + 1) none, .event (n + 1) .opened, .event (n + 1) .closed]) := by
      have hlt : ¬ (n + 1 < n) := by omega
      simp only [run, step, alloc, nextRef, hmod, init]
      simp [destroy, free, hlt]
    refine ⟨outs ++ [.created (n + 1) none, .event (n + 1) .opened, .event (n + 1) .closed], ?_, ?_⟩
    · simp only [cycle, run_append, hr, Option.bind_some, hs, Option.map_some]
    · intro _
      rw [made_append]
      by_cases h0 : n = 0
      · subst h0; simp [made]
      · exact List.mem_append_left _ (hm (by omega))

/-- C44 is violated in a history with `2^64` connections: the test for a wrapped counter
(nc_device.c:491) refuses one connection only, then the references start again from 1. -/
theorem C44_refs_violated (m : Bool) :
    ∃ ops c outs, run (init m) ops = some (c, outs) ∧ ¬ (made outs).Nodup := by
  obtain ⟨n, hn⟩ : ∃ n, n + 1 = 2 ^ 64 := ⟨2 ^ 64 - 1, by omega⟩
  obtain ⟨outs, hr, hm⟩ := run_cycle m n (by omega)
  have hs : run { init m with lastRef := n } [.newVirtual true, .newVirtual true] =
      some ({ init m with lastRef := 1, current := 1, conns := [⟨1, none⟩] },
        [.created 1 none, .event 1 .opened]) := by
    have hz : (n + 1) % 2 ^ 64 = 0 := by rw [hn]
    have : 0 < n := by omega
    simp only [run, step, alloc, nextRef, init, hz]
    simp [this]
  refine ⟨cycle n ++ [.newVirtual true, .newVirtual true],
    { init m with lastRef := 1, current := 1, conns := [⟨1, none⟩] },
    outs ++ [.created 1 none, .event 1 .opened], ?_, ?_⟩
  · simp only [run_append, hr, Option.bind_some, hs, Option.map_some]
  · rw [made_append]
    intro h
    exact (List.nodup_append.mp h).2.2 1 (hm (by omega)) 1 (by simp [made]) rfl

end Verif.Core.Conn
