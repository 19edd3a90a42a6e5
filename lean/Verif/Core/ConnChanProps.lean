import Verif.Core.ConnChan

/-!
# Channels of client connections (C73, C74, C75)
-/

namespace Verif.Core.Conn

open Spec

/-! ### Lemmas -/

theorem senders_append (id : Bytes) (a b : List Op) :
    senders id (a ++ b) = senders id a ++ senders id b := by
  induction a with
  | nil => rfl
  | cons op a ih =>
    cases op <;> simp only [List.cons_append, senders, ih]
    split <;> simp

/-- Both channels of a connection were seen in datagrams with its id. -/
def Seen (ops : List Op) (k : Conn) : Prop :=
  ∀ cl, k.client = some cl →
    (cl.cur.sock, cl.cur.ep) ∈ senders (id14 cl.hdr) ops ∧
    (cl.alt.sock, cl.alt.ep) ∈ senders (id14 cl.hdr) ops

theorem seen_step {ops : List Op} {op : Op} {k : Conn} (h : Seen ops k) :
    Seen (ops ++ [op]) (stepConn op k) := by
  intro cl' hcl'
  cases hc : k.client with
  | none => simp [stepConn, hc] at hcl'
  | some cl =>
    obtain ⟨h1, h2⟩ := h cl hc
    have m1 : ∀ {x} , x ∈ senders (id14 cl.hdr) ops → x ∈ senders (id14 cl.hdr) (ops ++ [op]) := by
      intro x hx; rw [senders_append]; exact List.mem_append_left _ hx
    have old : stepConn op k = k →
        (cl'.cur.sock, cl'.cur.ep) ∈ senders (id14 cl'.hdr) (ops ++ [op]) ∧
        (cl'.alt.sock, cl'.alt.ep) ∈ senders (id14 cl'.hdr) (ops ++ [op]) := by
      intro e
      rw [e, hc] at hcl'
      cases hcl'
      exact ⟨m1 h1, m1 h2⟩
    unfold stepConn at hcl' old
    simp only [hc] at hcl' old
    split at hcl'
    · rename_i sock ep p mem ok
      have new : 17 ≤ p.length → id14 p = id14 cl.hdr →
          (sock, ep) ∈ senders (id14 cl.hdr) (ops ++ [.packet sock ep p mem ok]) := by
        intro hp hid
        rw [senders_append]
        exact List.mem_append_right _ (by simp [senders, hp, hid])
      split at hcl'
      · rename_i hp
        split at hcl'
        · rename_i hid
          split at hcl'
          · cases hcl'; exact ⟨m1 h1, new hp hid⟩
          · cases hcl'; exact ⟨new hp hid, m1 h2⟩
        · rw [hc] at hcl'; cases hcl'; exact ⟨m1 h1, m1 h2⟩
      · rw [hc] at hcl'; cases hcl'; exact ⟨m1 h1, m1 h2⟩
    · split at hcl'
      · split at hcl'
        · rw [hc] at hcl'; cases hcl'; exact ⟨m1 h1, m1 h2⟩
        · split at hcl'
          · split at hcl'
            · cases hcl'; exact ⟨m1 h2, m1 h2⟩
            · cases hcl'; exact ⟨m1 h1, m1 h2⟩
          · rw [hc] at hcl'; cases hcl'; exact ⟨m1 h1, m1 h2⟩
      · rw [hc] at hcl'; cases hcl'; exact ⟨m1 h1, m1 h2⟩
    · split at hcl'
      · cases hcl'; exact ⟨m1 h1, m1 h2⟩
      · rw [hc] at hcl'; cases hcl'; exact ⟨m1 h1, m1 h2⟩
    · split at hcl'
      · cases hcl'; exact ⟨m1 h1, m1 h2⟩
      · rw [hc] at hcl'; cases hcl'; exact ⟨m1 h1, m1 h2⟩
    · rw [hc] at hcl'; cases hcl'; exact ⟨m1 h1, m1 h2⟩

theorem run_seen {m : Bool} {ops : List Op} : ∀ {c : Ctx} {outs : List Out},
    run (init m) ops = some (c, outs) → ops.length < 2 ^ 64 - 1 → ∀ k ∈ c.conns, Seen ops k := by
  induction ops using snoc_ind with
  | h0 =>
    intro c outs h _
    simp only [run, Option.some.injEq, Prod.mk.injEq] at h
    obtain ⟨rfl, rfl⟩ := h
    simp [init]
  | h1 ops op ih =>
    intro c outs h hlen k' hk'
    obtain ⟨d, os, os', hr, hs, rfl⟩ := run_snoc h
    simp only [List.length_append, List.length_singleton] at hlen
    obtain ⟨hi, hl, -, -⟩ := run_inv hr (by omega)
    rcases conns_step hi (by omega) hs hk' with ⟨k, hk, rfl⟩ | ⟨-, -, hn | ⟨sock, ep, p, mem, ok, hp, rfl, hn⟩⟩
    · exact seen_step (ih hr (by omega) k hk)
    · intro cl hcl; rw [hn] at hcl; cases hcl
    · intro cl hcl
      rw [hn] at hcl
      cases hcl
      have : (sock, ep) ∈ senders (id14 (p.take 16)) (ops ++ [.packet sock ep p mem ok]) := by
        rw [senders_append]
        exact List.mem_append_right _ (by simp [senders, hp, id14_take])
      exact ⟨this, this⟩

/-! ## C73: where the packets of a connection are sent -/

/-- C73: a packet of a connection is sent, with the header of the connection, to a socket and endpoint
from which a datagram with the id of the connection was received; otherwise nothing is sent. -/
theorem C73_senders {m : Bool} {ops : List Op} {c c' : Ctx} {outs os : List Out}
    (h : run (init m) ops = some (c, outs)) (hlen : ops.length < 2 ^ 64 - 1)
    {ref : Nat} {ch : UInt8} {d : Bytes} (hs : step c (.dtlsSend ref ch d) = some (c', os)) :
    (∀ sock ep b, .udp sock ep b ∉ os) ∨
    ∃ hdr sock ep ch', (ref, some hdr) ∈ live outs ∧ hdr.length = 16 ∧
      os = [.udp sock ep (hdr.take 15 ++ [ch'] ++ d)] ∧ (ch ≠ 0xff → ch' = ch) ∧
      (sock, ep) ∈ senders (id14 hdr) ops := by
  obtain ⟨hi, -, -, -⟩ := run_inv h hlen
  simp only [step] at hs
  split at hs
  · rename_i cl hc
    have hmem := clientOf_some hc
    have hlive : (ref, some cl.hdr) ∈ live outs := by rw [hi.live]; exact clientOf_view hc
    obtain ⟨s1, s2⟩ := run_seen h hlen _ hmem cl rfl
    have hh := hi.hdrs _ (clientOf_view hc) _ rfl
    unfold sendToUdp at hs
    split at hs
    · cases hs; left; simp
    · dsimp only at hs
      split at hs
      · rename_i hch
        cases hs
        refine Or.inr ⟨cl.hdr, _, _, _, hlive, hh, rfl, ?_, s1⟩
        intro hne
        rcases hch with h1 | h1
        · exact h1.symm
        · exact absurd h1 hne
      · split at hs
        · rename_i hch
          cases hs
          exact Or.inr ⟨cl.hdr, _, _, _, hlive, hh, rfl, fun _ => hch.symm, s2⟩
        · cases hs; left; simp
  · cases hs; left; simp

/-! ### Outputs are about known connections -/

theorem clientPacket_about {c : Ctx} {ref : Nat} {cl : Client} {sock ep : Nat} {ch : UInt8} {p : Bytes}
    {o : Out} (h : o ∈ (clientPacket c ref cl sock ep ch p).2) : about o = some ref := by
  simp [clientPacket] at h
  subst h
  rfl

theorem free_about {c : Ctx} {ref : Nat} {o : Out} (h : o ∈ (free c ref).2) : about o = none := by
  unfold free at h
  dsimp only at h
  split at h
  · split at h
    · simp at h; subst h; rfl
    · simp at h
  · simp at h

theorem destroy_about {c : Ctx} {ref r : Nat} {o : Out} (h : o ∈ (destroy c ref).2)
    (hr : about o = some r) : r = ref := by
  simp only [destroy, List.mem_cons] at h
  rcases h with rfl | h
  · simpa [about] using hr.symm
  · rw [free_about h] at hr; cases hr

theorem closeLoop_about {sync : Nat → Bool} (ks : List Conn) {c : Ctx} {o : Out} {r : Nat}
    (h : o ∈ (closeLoop sync ks c).2) (hr : about o = some r) : ∃ k ∈ ks, k.ref = r := by
  induction ks generalizing c with
  | nil => simp [closeLoop] at h
  | cons k ks ih =>
    simp only [closeLoop] at h
    split at h
    · dsimp only at h
      simp only [List.cons_append, List.mem_cons, List.mem_append] at h
      rcases h with rfl | h | h
      · exact ⟨k, List.mem_cons_self .., by simpa [about] using hr⟩
      · split at h
        · exact ⟨k, List.mem_cons_self .., (destroy_about h hr).symm⟩
        · simp at h
      · obtain ⟨k', h1, h2⟩ := ih h
        exact ⟨k', List.mem_cons_of_mem _ h1, h2⟩
    · obtain ⟨k', h1, h2⟩ := ih h
      exact ⟨k', List.mem_cons_of_mem _ h1, h2⟩

theorem step_about {c c' : Ctx} {os : List Out} (hl : c.lastRef + 1 < 2 ^ 64)
    {op : Op} (hs : step c op = some (c', os)) {o : Out} (ho : o ∈ os) {r : Nat} (hr : about o = some r) :
    (∃ k ∈ c.conns, k.ref = r) ∨ (r = c.lastRef + 1 ∧ c'.lastRef = c.lastRef + 1) := by
  have known : ∀ {ref cl}, clientOf c ref = some cl → r = ref → ∃ k ∈ c.conns, k.ref = r :=
    fun hc e => ⟨_, clientOf_some hc, e.symm⟩
  cases op with
  | packet sock ep p mem ok =>
    simp only [step, Option.some.injEq] at hs
    unfold handlePacket at hs
    split at hs
    · cases hs; simp at ho
    · split at hs
      · rename_i hp ref cl hf
        have h1 : os = (clientPacket c ref cl sock ep p[15] p).2 := by rw [hs]
        rw [h1] at ho
        rw [clientPacket_about ho] at hr
        cases hr
        exact Or.inl ⟨_, (fromId_some hf).1, rfl⟩
      · cases hs; simp at ho
      · split at hs
        · unfold openNew at hs
          split at hs
          · rename_i d hc
            obtain ⟨b, os', he, h1⟩ := sendInternalError_cases d sock ep p
            rw [he] at hs; cases hs
            rw [h1 o ho] at hr
            cases hr
          · rename_i d ref hc
            obtain ⟨-, -, hr', hd⟩ := alloc_some hc hl
            have hdl : d.lastRef = c.lastRef + 1 := by rw [hd]; exact hr'
            split at hs
            · simp only [Prod.mk.injEq] at hs
              obtain ⟨hs1, hs2⟩ := hs
              rw [← hs2] at ho
              refine Or.inr ⟨?_, by rw [← hs1, hdl]⟩
              rcases List.mem_cons.mp ho with rfl | ho
              · simp only [about, Option.some.injEq] at hr; rw [← hr, hr']
              · unfold start at ho
                split at ho
                all_goals
                  simp at ho; subst ho
                  simp only [about, Option.some.injEq] at hr; rw [← hr, hr']
            · obtain ⟨b, os', he, h1⟩ := sendInternalError_cases d sock ep p
              rw [he] at hs
              simp only [Prod.mk.injEq] at hs
              obtain ⟨hs1, hs2⟩ := hs
              rw [← hs2] at ho
              rcases List.mem_append.mp ho with ho | ho
              · rw [h1 o ho] at hr; cases hr
              · refine Or.inr ⟨(destroy_about ho hr).trans hr', ?_⟩
                rw [← hs1, (destroy_fields _ _).1]
                exact hdl
        · cases hs; simp at ho
  | data ref ch seq d =>
    simp only [step] at hs
    split at hs
    · rename_i cl hc
      unfold handleData at hs
      split at hs
      · cases hs
      · refine Or.inl (known hc ?_)
        split at hs
        · split at hs
          · cases hs; simp at ho; rcases ho with rfl | rfl <;> simpa [about] using hr.symm
          · cases hs; simp at ho; subst ho; simpa [about] using hr.symm
        · cases hs; simp at ho; subst ho; simpa [about] using hr.symm
    · cases hs; simp at ho
  | handshakeDone ref =>
    simp only [step] at hs
    split at hs
    · rename_i cl hc
      cases hs; simp at ho; subst ho
      exact Or.inl (known hc (by simpa [about] using hr.symm))
    · cases hs; simp at ho
  | dtlsClosed ref =>
    simp only [step] at hs
    split at hs
    · rename_i cl hc
      have h1 : os = (destroy c ref).2 := by rw [Option.some.inj hs]
      rw [h1] at ho
      exact Or.inl (known hc (destroy_about ho hr))
    · cases hs; simp at ho
  | dtlsSend ref ch d =>
    simp only [step] at hs
    split at hs
    · rename_i cl hc
      unfold sendToUdp at hs
      split at hs
      · cases hs; simp at ho; subst ho
        exact Or.inl (known hc (by simpa [about] using hr.symm))
      · dsimp only at hs
        split at hs
        · cases hs; simp at ho; subst ho; simp [about] at hr
        · split at hs
          · cases hs; simp at ho; subst ho; simp [about] at hr
          · cases hs; simp at ho
    · cases hs; simp at ho
  | udpSent ref =>
    simp only [step] at hs
    split at hs
    · rename_i cl hc
      unfold sentToUdp at hs
      split at hs
      · cases hs; simp at ho; subst ho
        exact Or.inl (known hc (by simpa [about] using hr.symm))
      · cases hs; simp at ho
    · cases hs; simp at ho
  | internalErrorSent => cases hs; simp at ho
  | newVirtual mem =>
    simp only [step] at hs
    split at hs
    · cases hs; simp at ho
    · rename_i d ref hc
      obtain ⟨-, -, hr', hd⟩ := alloc_some hc hl
      simp only [Option.some.injEq, Prod.mk.injEq] at hs
      obtain ⟨hs1, hs2⟩ := hs
      rw [← hs2] at ho
      refine Or.inr ⟨?_, by rw [← hs1, hd]; exact hr'⟩
      simp at ho
      rcases ho with rfl | rfl
      all_goals simp only [about, Option.some.injEq] at hr; rw [← hr, hr']
  | freeVirtual ref =>
    simp only [step] at hs
    split at hs
    · rename_i hc
      have h1 : os = (destroy c ref).2 := by rw [Option.some.inj hs]
      rw [h1] at ho
      obtain ⟨k, hk, he⟩ := List.any_eq_true.mp hc
      simp at he
      exact Or.inl ⟨k, hk, he.1.trans (destroy_about ho hr).symm⟩
    · cases hs; simp at ho
  | setMax n => cases hs; simp at ho
  | close cb sync =>
    simp only [step, Option.some.injEq] at hs
    unfold asyncClose at hs
    dsimp only at hs
    have h1 : o ∈ (closeLoop sync c.conns { c with closing := true }).2 := by
      split at hs
      all_goals
        simp only [Prod.mk.injEq] at hs
        rw [← hs.2] at ho
      · exact ho
      · rcases List.mem_append.mp ho with ho | ho
        · exact ho
        · simp at ho; subst ho; cases hr
    exact Or.inl (closeLoop_about _ h1 hr)

theorem step_lastRef {c c' : Ctx} {os : List Out} (hl : c.lastRef + 1 < 2 ^ 64)
    {op : Op} (hs : step c op = some (c', os)) : c.lastRef ≤ c'.lastRef := by
  cases op with
  | packet sock ep p mem ok =>
    simp only [step, Option.some.injEq] at hs
    unfold handlePacket at hs
    split at hs
    · cases hs; exact Nat.le_refl _
    · split at hs
      · cases hs; exact Nat.le_refl _
      · cases hs; exact Nat.le_refl _
      · split at hs
        · unfold openNew at hs
          split at hs
          · rename_i d hc
            obtain ⟨b, os', he, -⟩ := sendInternalError_cases d sock ep p
            rw [(alloc_none hc hl).1] at he hs
            rw [he] at hs; cases hs
            exact Nat.le_refl _
          · rename_i d ref hc
            obtain ⟨-, -, hr', hd⟩ := alloc_some hc hl
            have hdl : d.lastRef = c.lastRef + 1 := by rw [hd]; exact hr'
            split at hs
            · simp only [Prod.mk.injEq] at hs
              rw [← hs.1]; omega
            · obtain ⟨b, os', he, -⟩ := sendInternalError_cases d sock ep p
              rw [he] at hs
              simp only [Prod.mk.injEq] at hs
              rw [← hs.1, (destroy_fields _ _).1]
              exact hdl ▸ Nat.le_succ _
        · cases hs; exact Nat.le_refl _
  | newVirtual mem =>
    simp only [step] at hs
    split at hs
    · rename_i hc
      rw [(alloc_none hc hl).1] at hs
      cases hs; exact Nat.le_refl _
    · rename_i hc
      obtain ⟨-, -, hr', hd⟩ := alloc_some hc hl
      simp only [Option.some.injEq, Prod.mk.injEq] at hs
      rw [← hs.1, hd, hr']
      exact Nat.le_succ _
  | dtlsClosed ref =>
    simp only [step] at hs
    split at hs
    · have : c' = (destroy c ref).1 := by rw [Option.some.inj hs]
      rw [this, (destroy_fields _ _).1]; exact Nat.le_refl _
    · cases hs; exact Nat.le_refl _
  | freeVirtual ref =>
    simp only [step] at hs
    split at hs
    · have : c' = (destroy c ref).1 := by rw [Option.some.inj hs]
      rw [this, (destroy_fields _ _).1]; exact Nat.le_refl _
    · cases hs; exact Nat.le_refl _
  | close cb sync =>
    simp only [step, Option.some.injEq] at hs
    unfold asyncClose at hs
    dsimp only at hs
    have h1 := (closeLoop_fields sync c.conns { c with closing := true }).1
    split at hs
    all_goals
      simp only [Prod.mk.injEq] at hs
      rw [← hs.1]
      exact Nat.le_of_eq h1.symm
  | data ref ch seq d =>
    simp only [step, handleData] at hs
    repeat' split at hs
    all_goals cases hs
    all_goals exact Nat.le_refl _
  | handshakeDone ref =>
    simp only [step] at hs
    split at hs <;> cases hs <;> exact Nat.le_refl _
  | dtlsSend ref ch d =>
    simp only [step, sendToUdp] at hs
    repeat' split at hs
    all_goals cases hs
    all_goals exact Nat.le_refl _
  | udpSent ref =>
    simp only [step, sentToUdp] at hs
    repeat' split at hs
    all_goals cases hs
    all_goals exact Nat.le_refl _
  | internalErrorSent => cases hs; exact Nat.le_refl _
  | setMax n => cases hs; exact Nat.le_refl _

theorem run_about {m : Bool} {ops : List Op} : ∀ {c : Ctx} {outs : List Out},
    run (init m) ops = some (c, outs) → ops.length < 2 ^ 64 - 1 →
    ∀ o ∈ outs, ∀ r, about o = some r → r ≤ c.lastRef := by
  induction ops using snoc_ind with
  | h0 =>
    intro c outs h _
    simp only [run, Option.some.injEq, Prod.mk.injEq] at h
    obtain ⟨rfl, rfl⟩ := h
    simp
  | h1 ops op ih =>
    intro c outs h hlen o ho r hr
    obtain ⟨d, os, os', hrun, hs, rfl⟩ := run_snoc h
    simp only [List.length_append, List.length_singleton] at hlen
    obtain ⟨hi, hl, -, -⟩ := run_inv hrun (by omega)
    have hmono : d.lastRef ≤ c.lastRef := step_lastRef (by omega) hs
    rcases List.mem_append.mp ho with ho | ho
    · exact Nat.le_trans (ih hrun (by omega) o ho r hr) hmono
    · rcases step_about (by omega) hs ho hr with ⟨k, hk, rfl⟩ | ⟨rfl, h2⟩
      · exact Nat.le_trans (hi.bound _ (List.mem_map.mpr ⟨k, hk, rfl⟩)) hmono
      · omega

/-! ### The channel which the DTLS session is told -/

theorem step_toDtls {c c' : Ctx} {os : List Out} (hl : c.lastRef + 1 < 2 ^ 64)
    {op : Op} (hs : step c op = some (c', os)) {r : Nat} {ch : UInt8} {b : Bytes}
    (ho : .toDtls r ch b ∈ os) :
    ∃ sock ep p mem ok, ∃ h : 17 ≤ p.length, op = .packet sock ep p mem ok ∧
      ((∃ cl, ⟨r, some cl⟩ ∈ c.conns ∧ ch = if c.clientOnly then p[15] else cl.cur.id) ∨
        (r = c.lastRef + 1 ∧ ch = p[15])) := by
  cases op with
  | packet sock ep p mem ok =>
    simp only [step, Option.some.injEq] at hs
    unfold handlePacket at hs
    split at hs
    · cases hs; simp at ho
    · split at hs
      · rename_i hp ref cl hf
        have h1 : os = (clientPacket c ref cl sock ep p[15] p).2 := by rw [hs]
        rw [h1] at ho
        simp only [clientPacket, List.mem_singleton, Out.toDtls.injEq] at ho
        obtain ⟨rfl, rfl, -⟩ := ho
        exact ⟨sock, ep, p, mem, ok, by omega, rfl, Or.inl ⟨cl, (fromId_some hf).1, rfl⟩⟩
      · cases hs; simp at ho
      · split at hs
        · unfold openNew at hs
          split at hs
          · rename_i d hc
            obtain ⟨b, os', he, h1⟩ := sendInternalError_cases d sock ep p
            rw [he] at hs; cases hs
            cases h1 _ ho
          · rename_i d ref hc
            obtain ⟨-, -, hr', hd⟩ := alloc_some hc hl
            split at hs
            · simp only [Prod.mk.injEq] at hs
              rw [← hs.2] at ho
              rcases List.mem_cons.mp ho with ho | ho
              · cases ho
              · unfold start at ho
                split at ho
                · simp at ho
                · simp only [List.mem_singleton, Out.toDtls.injEq] at ho
                  obtain ⟨rfl, rfl, -⟩ := ho
                  exact ⟨sock, ep, p, mem, ok, by omega, rfl, Or.inr ⟨hr', rfl⟩⟩
            · obtain ⟨b', os', he, h1⟩ := sendInternalError_cases d sock ep p
              rw [he] at hs
              simp only [Prod.mk.injEq] at hs
              rw [← hs.2] at ho
              rcases List.mem_append.mp ho with ho | ho
              · cases h1 _ ho
              · simp only [destroy, List.mem_cons, reduceCtorEq, false_or] at ho
                have := free_about ho
                cases this
        · cases hs; simp at ho
  | data ref ch seq d =>
    simp only [step, handleData] at hs
    repeat' split at hs
    all_goals cases hs
    all_goals simp at ho
  | handshakeDone ref =>
    simp only [step] at hs
    split at hs <;> cases hs <;> simp at ho
  | dtlsClosed ref =>
    simp only [step] at hs
    split at hs
    · have h1 : os = (destroy c ref).2 := by rw [Option.some.inj hs]
      rw [h1] at ho
      simp only [destroy, List.mem_cons, reduceCtorEq, false_or] at ho
      cases free_about ho
    · cases hs; simp at ho
  | dtlsSend ref ch d =>
    simp only [step, sendToUdp] at hs
    repeat' split at hs
    all_goals cases hs
    all_goals simp at ho
  | udpSent ref =>
    simp only [step, sentToUdp] at hs
    repeat' split at hs
    all_goals cases hs
    all_goals simp at ho
  | internalErrorSent => cases hs; simp at ho
  | newVirtual mem =>
    simp only [step] at hs
    split at hs <;> cases hs <;> simp at ho
  | freeVirtual ref =>
    simp only [step] at hs
    split at hs
    · have h1 : os = (destroy c ref).2 := by rw [Option.some.inj hs]
      rw [h1] at ho
      simp only [destroy, List.mem_cons, reduceCtorEq, false_or] at ho
      cases free_about ho
    · cases hs; simp at ho
  | setMax n => cases hs; simp at ho
  | close cb sync =>
    simp only [step, Option.some.injEq] at hs
    unfold asyncClose at hs
    dsimp only at hs
    have hl' : ∀ (ks : List Conn) (c : Ctx), .toDtls r ch b ∉ (closeLoop sync ks c).2 := by
      intro ks
      induction ks with
      | nil => simp [closeLoop]
      | cons k ks ih =>
        intro c h
        simp only [closeLoop] at h
        split at h
        · dsimp only at h
          simp only [List.cons_append, List.mem_cons, reduceCtorEq, false_or, List.mem_append] at h
          rcases h with h | h
          · split at h
            · simp only [destroy, List.mem_cons, reduceCtorEq, false_or] at h
              cases free_about h
            · simp at h
          · exact ih _ h
        · exact ih _ h
    split at hs
    all_goals
      simp only [Prod.mk.injEq] at hs
      rw [← hs.2] at ho
    · exact absurd ho (hl' _ _)
    · rcases List.mem_append.mp ho with ho | ho
      · exact absurd ho (hl' _ _)
      · simp at ho

theorem faithful_left {m : Bool} {ops : List Op} {op : Op} (h : Faithful m (ops ++ [op])) :
    Faithful m ops := by
  intro pre ref ch seq d post c outs he hr
  exact h pre ref ch seq d (post ++ [op]) c outs (by rw [he]; simp) hr

theorem lastSender_snoc (id : Bytes) (ch : UInt8) (ops : List Op) (op : Op) :
    lastSender id ch (ops ++ [op]) =
      match op with
      | .packet sock ep data _ _ =>
        if 17 ≤ data.length ∧ id14 data = id ∧ data[15]? = some ch then some (sock, ep)
        else lastSender id ch ops
      | _ => lastSender id ch ops := by
  simp only [lastSender, List.foldl_append, List.foldl_cons, List.foldl_nil]
  cases op <;> rfl

/-- The only channel of a connection in the default build. -/
def OneChannel (ops : List Op) (outs : List Out) (k : Conn) : Prop :=
  ∀ cl, k.client = some cl →
    cl.hdr[15]? = some cl.cur.id ∧
    lastSender (id14 cl.hdr) cl.cur.id ops = some (cl.cur.sock, cl.cur.ep) ∧
    ∀ ch p, .toDtls k.ref ch p ∈ outs → ch = cl.cur.id

theorem oneChannel_step {ops : List Op} {op : Op} {outs : List Out} {k : Conn}
    (h : OneChannel ops outs k)
    (hf : ∀ ref ch seq d, op = .data ref ch seq d → ∃ p, .toDtls ref ch p ∈ outs) :
    OneChannel (ops ++ [op]) outs (stepConn op k) ∧
      ((stepConn op k).client.map (·.cur.id)) = k.client.map (·.cur.id) := by
  cases hc : k.client with
  | none =>
    have : stepConn op k = k := by simp [stepConn, hc]
    rw [this]
    exact ⟨(by intro cl hcl; rw [hc] at hcl; cases hcl), by rw [hc]⟩
  | some cl =>
    obtain ⟨h1, h2, h3⟩ := h cl hc
    have key : ∀ cl', cl'.hdr = cl.hdr → cl'.cur.id = cl.cur.id →
        lastSender (id14 cl.hdr) cl.cur.id (ops ++ [op]) = some (cl'.cur.sock, cl'.cur.ep) →
        OneChannel (ops ++ [op]) outs { k with client := some cl' } := by
      intro cl' e1 e2 e3 cl'' hcl''
      cases hcl''
      rw [e1, e2]
      exact ⟨h1, e3, h3⟩
    have keep : lastSender (id14 cl.hdr) cl.cur.id (ops ++ [op]) = lastSender (id14 cl.hdr) cl.cur.id ops →
        stepConn op k = k →
        OneChannel (ops ++ [op]) outs (stepConn op k) ∧
          ((stepConn op k).client.map (·.cur.id)) = some cl.cur.id := by
      intro e1 e2
      rw [e2]
      refine ⟨?_, by rw [hc]; rfl⟩
      intro cl' hcl'
      rw [hc] at hcl'
      cases hcl'
      exact ⟨h1, by rw [e1]; exact h2, h3⟩
    cases op with
    | packet sock ep p mem ok =>
      simp only [stepConn, hc] at keep ⊢
      split
      · rename_i hp
        split
        · rename_i hid
          split
          · rename_i hch
            refine ⟨key _ rfl rfl ?_, rfl⟩
            rw [lastSender_snoc]
            simp only [hp, hid, true_and]
            rw [if_neg (by rw [List.getElem?_eq_getElem (by omega)]; simpa using hch)]
            exact h2
          · rename_i hch
            refine ⟨key _ rfl rfl ?_, rfl⟩
            rw [lastSender_snoc]
            simp only [hp, hid, true_and]
            rw [if_pos (by rw [List.getElem?_eq_getElem (by omega)]; simpa using hch)]
        · rename_i hid
          simp only [dif_pos hp, if_neg hid] at keep
          exact keep (by rw [lastSender_snoc]; simp [hid]) trivial
      · rename_i hp
        simp only [dif_neg hp] at keep
        exact keep (by rw [lastSender_snoc]; simp [hp]) trivial
    | data ref ch seq d =>
      have e1 : lastSender (id14 cl.hdr) cl.cur.id (ops ++ [.data ref ch seq d]) =
          lastSender (id14 cl.hdr) cl.cur.id ops := by rw [lastSender_snoc]
      simp only [stepConn, hc] at keep ⊢
      split
      · rename_i he
        simp only [if_pos he] at keep
        split
        · exact keep e1 rfl
        · simp only at keep
          split
          · rename_i hb
            split
            · rename_i hcc
              obtain ⟨p, hp⟩ := hf ref ch seq _ rfl
              exact absurd (h3 ch p (he ▸ hp)) (fun e => hcc.1 e.symm)
            · exact ⟨key _ rfl rfl (by rw [e1]; exact h2), rfl⟩
          · rename_i hb
            simp only [if_neg hb] at keep
            exact keep e1 trivial
      · rename_i he
        simp only [if_neg he] at keep
        exact keep e1 trivial
    | dtlsSend ref ch d =>
      have e1 : lastSender (id14 cl.hdr) cl.cur.id (ops ++ [.dtlsSend ref ch d]) =
          lastSender (id14 cl.hdr) cl.cur.id ops := by rw [lastSender_snoc]
      simp only [stepConn, hc] at keep ⊢
      split
      · exact ⟨key _ rfl rfl (by rw [e1]; exact h2), rfl⟩
      · rename_i he
        simp only [if_neg he] at keep
        exact keep e1 trivial
    | udpSent ref =>
      have e1 : lastSender (id14 cl.hdr) cl.cur.id (ops ++ [.udpSent ref]) =
          lastSender (id14 cl.hdr) cl.cur.id ops := by rw [lastSender_snoc]
      simp only [stepConn, hc] at keep ⊢
      split
      · exact ⟨key _ rfl rfl (by rw [e1]; exact h2), rfl⟩
      · rename_i he
        simp only [if_neg he] at keep
        exact keep e1 trivial
    | handshakeDone => exact keep (by rw [lastSender_snoc]) (by simp [stepConn, hc])
    | dtlsClosed => exact keep (by rw [lastSender_snoc]) (by simp [stepConn, hc])
    | internalErrorSent => exact keep (by rw [lastSender_snoc]) (by simp [stepConn, hc])
    | newVirtual => exact keep (by rw [lastSender_snoc]) (by simp [stepConn, hc])
    | freeVirtual => exact keep (by rw [lastSender_snoc]) (by simp [stepConn, hc])
    | setMax => exact keep (by rw [lastSender_snoc]) (by simp [stepConn, hc])
    | close => exact keep (by rw [lastSender_snoc]) (by simp [stepConn, hc])

theorem run_oneChannel {ops : List Op} : ∀ {c : Ctx} {outs : List Out},
    run (init false) ops = some (c, outs) → ops.length < 2 ^ 64 - 1 → Faithful false ops →
    ∀ k ∈ c.conns, OneChannel ops outs k := by
  induction ops using snoc_ind with
  | h0 =>
    intro c outs h _ _
    simp only [run, Option.some.injEq, Prod.mk.injEq] at h
    obtain ⟨rfl, rfl⟩ := h
    simp [init]
  | h1 ops op ih =>
    intro c outs h hlen hf k' hk'
    obtain ⟨d, os, os', hr, hs, rfl⟩ := run_snoc h
    simp only [List.length_append, List.length_singleton] at hlen
    obtain ⟨hi, hl, -, hm⟩ := run_inv hr (by omega)
    have ih := ih hr (by omega) (faithful_left hf)
    rcases conns_step hi (by omega) hs hk' with
      ⟨k, hk, rfl⟩ | ⟨href, -, hn | ⟨sock, ep, p, mem, ok, hp, rfl, hn⟩⟩
    · obtain ⟨g1, g2⟩ := oneChannel_step (op := op) (ih k hk) (by
        intro ref ch seq dd he
        subst he
        exact hf ops ref ch seq dd [] d os rfl hr)
      intro cl hcl
      obtain ⟨a1, a2, a3⟩ := g1 cl hcl
      refine ⟨a1, a2, ?_⟩
      intro ch b hb
      rcases List.mem_append.mp hb with hb | hb
      · exact a3 ch b hb
      · rw [hcl, Option.map_some] at g2
        obtain ⟨sock, ep, p, mem, ok, hp, rfl, hcase⟩ := step_toDtls (by omega) hs hb
        rw [stepConn_ref] at hcase
        rcases hcase with ⟨cl', hk2, hch⟩ | ⟨hnew, -⟩
        · rw [hm] at hch
          have := conn_unique hi hk hk2 rfl
          rw [this] at g2
          simp only [Option.map_some, Option.some.injEq] at g2
          rw [hch, g2]; rfl
        · have := hi.bound _ (List.mem_map.mpr ⟨k, hk, rfl⟩)
          simp only at this
          omega
    · intro cl hcl; rw [hn] at hcl; cases hcl
    · intro cl hcl
      rw [hn] at hcl
      cases hcl
      refine ⟨?_, ?_, ?_⟩
      · simp [newClient]
      · rw [lastSender_snoc]
        simp [newClient, id14_take, hp]
      · intro ch b hb
        rcases List.mem_append.mp hb with hb | hb
        · have := run_about hr (by omega) _ hb _ rfl
          omega
        · obtain ⟨sock', ep', p', mem', ok', hp', he, hcase⟩ := step_toDtls (by omega) hs hb
          cases he
          rcases hcase with ⟨cl', hk2, -⟩ | ⟨-, hch⟩
          · have := hi.bound _ (List.mem_map.mpr ⟨_, hk2, rfl⟩)
            simp only at this
            omega
          · rw [hch]; rfl

/-- C73, in the default build: every packet of a connection which is sent on the channel of the DTLS
session or on the default channel goes to the sender of the last datagram which carried the id of the
connection and the channel of its first datagram. -/
theorem C73_destination_partial {ops : List Op} {c c' : Ctx} {outs os : List Out}
    (h : run (init false) ops = some (c, outs)) (hlen : ops.length < 2 ^ 64 - 1)
    (hf : Faithful false ops) {ref : Nat} {hdr : Bytes} (hlive : (ref, some hdr) ∈ live outs)
    {ch : UInt8} (hch : ch = 0xff ∨ ∃ p, .toDtls ref ch p ∈ outs) {d : Bytes}
    (hs : step c (.dtlsSend ref ch d) = some (c', os)) :
    os = [.refused ref] ∨
    ∃ ch₀ sock ep, hdr[15]? = some ch₀ ∧ lastSender (id14 hdr) ch₀ ops = some (sock, ep) ∧
      os = [.udp sock ep (hdr ++ d)] := by
  obtain ⟨hi, -, -, -⟩ := run_inv h hlen
  obtain ⟨cl, hk, rfl⟩ := live_mem hi hlive
  obtain ⟨a1, a2, a3⟩ := run_oneChannel h hlen hf _ hk cl rfl
  have hch' : ch = cl.cur.id ∨ ch = defaultChannel := by
    rcases hch with h1 | ⟨p, hp⟩
    · exact Or.inr h1
    · exact Or.inl (a3 ch p hp)
  have hh : cl.hdr.length = 16 := hi.hdrs _ (List.mem_map.mpr ⟨_, hk, rfl⟩) _ rfl
  have hhdr : cl.hdr.take 15 ++ [cl.cur.id] = cl.hdr := by
    have h15 : cl.hdr[15]'(by omega) = cl.cur.id := by
      rw [List.getElem?_eq_getElem (by omega)] at a1
      exact Option.some.inj a1
    rw [← h15, List.take_append_getElem]
    exact List.take_of_length_le (by omega)
  simp only [step, clientOf_of_mem hi hk, sendToUdp] at hs
  split at hs
  · cases hs; exact Or.inl rfl
  · cases hs
    exact Or.inr ⟨_, _, _, a1, a2, by rw [hhdr]⟩

/-- C73 is violated where the peer has to prove that it is at a new address: in the default build one
datagram with the header of a connection and any other byte, from anywhere, directs all further packets
of the connection to its sender. -/
theorem C73_authenticated_violated {ops : List Op} {c : Ctx} {outs : List Out}
    (h : run (init false) ops = some (c, outs)) (hlen : ops.length + 1 < 2 ^ 64 - 1)
    (hf : Faithful false ops) {ref : Nat} {hdr : Bytes} (hlive : (ref, some hdr) ∈ live outs)
    (sock ep : Nat) (b : UInt8) (mem ok : Bool) :
    ∃ c' os, step c (.packet sock ep (hdr ++ [b]) mem ok) = some (c', os) ∧
      ∀ d c'' os', step c' (.dtlsSend ref 0xff d) = some (c'', os') →
        os' = [.refused ref] ∨ os' = [.udp sock ep (hdr ++ d)] := by
  obtain ⟨hi, -, -, -⟩ := run_inv h (by omega)
  have hh : hdr.length = 16 := by
    rw [hi.live] at hlive
    exact hi.hdrs _ hlive _ rfl
  obtain ⟨c', ch, hs⟩ := C44_delivered (packet := hdr ++ [b]) h (by omega) hlive (by simp [hh])
    (by simp [id14, List.take_append_of_le_length (show 15 ≤ hdr.length by omega)]) sock ep mem ok
  refine ⟨c', _, hs, ?_⟩
  intro d c'' os' hs'
  have hrun := run_step h hs
  have hfaith : Faithful false (ops ++ [.packet sock ep (hdr ++ [b]) mem ok]) := by
    intro pre r ch' seq dd post c0 outs0 he hr
    rcases List.eq_nil_or_concat post with rfl | ⟨post', x, rfl⟩
    · have := congrArg List.getLast? he
      simp at this
    · have he' : ops ++ [.packet sock ep (hdr ++ [b]) mem ok] =
          (pre ++ .data r ch' seq dd :: post') ++ [x] := by rw [he]; simp
      exact hf pre r ch' seq dd post' c0 outs0 (List.append_inj_left' he' rfl) hr
  have hlive' : (ref, some hdr) ∈ live (outs ++ [.toDtls ref ch ((hdr ++ [b]).drop 16)]) := by
    rw [live_append]; exact hlive
  rcases C73_destination_partial hrun (by simpa using hlen) hfaith hlive' (Or.inl rfl) hs' with
    h1 | ⟨ch₀, s, e, h1, h2, h3⟩
  · exact Or.inl h1
  · rw [lastSender_snoc] at h2
    simp only [List.length_append, hh, List.length_singleton, Nat.reduceAdd, Nat.le_refl, true_and] at h2
    rw [if_pos ⟨by simp [id14, List.take_append_of_le_length (show 15 ≤ hdr.length by omega)],
      by rw [List.getElem?_append_left (by omega)]; exact h1⟩] at h2
    cases h2
    exact Or.inr h3

/-! ## C74: changing the channel -/

/-- C74 is violated in the default build: no connection ever changes its channel (the DTLS session is
told the current channel instead of the channel of the packet, nc_client_connection.c:133). -/
theorem C74_never_violated {ops : List Op} : ∀ {c : Ctx} {outs : List Out},
    run (init false) ops = some (c, outs) → ops.length < 2 ^ 64 - 1 → Faithful false ops →
    ∀ ref, .event ref .channelChanged ∉ outs := by
  induction ops using snoc_ind with
  | h0 =>
    intro c outs h _ _
    simp only [run, Option.some.injEq, Prod.mk.injEq] at h
    obtain ⟨rfl, rfl⟩ := h
    simp
  | h1 ops op ih =>
    intro c outs h hlen hf ref hmem
    obtain ⟨d, os, os', hr, hs, rfl⟩ := run_snoc h
    simp only [List.length_append, List.length_singleton] at hlen
    obtain ⟨hi, hl, -, -⟩ := run_inv hr (by omega)
    have one := run_oneChannel hr (by omega) (faithful_left hf)
    rcases List.mem_append.mp hmem with hmem | hmem
    · exact ih hr (by omega) (faithful_left hf) ref hmem
    · cases op with
      | data r ch seq dd =>
        simp only [step] at hs
        split at hs
        · rename_i cl hc
          obtain ⟨p, hp⟩ := hf ops r ch seq dd [] d os rfl hr
          have he := (one _ (clientOf_some hc) cl rfl).2.2 ch p hp
          unfold handleData at hs
          split at hs
          · cases hs
          · split at hs
            · split at hs
              · rename_i hcc
                exact hcc.1 he.symm
              · cases hs; simp at hmem
            · cases hs; simp at hmem
        · cases hs; simp at hmem
      | packet sock ep p mem ok =>
        simp only [step, Option.some.injEq] at hs
        unfold handlePacket at hs
        split at hs
        · cases hs; simp at hmem
        · split at hs
          · cases hs; simp at hmem
          · cases hs; simp at hmem
          · split at hs
            · unfold openNew at hs
              split at hs
              · rename_i e hc
                obtain ⟨b, os'', he, h1⟩ := sendInternalError_cases e sock ep p
                rw [he] at hs; cases hs
                cases h1 _ hmem
              · rename_i e rr hc
                split at hs
                · simp only [Prod.mk.injEq] at hs
                  rw [← hs.2] at hmem
                  rcases List.mem_cons.mp hmem with hmem | hmem
                  · cases hmem
                  · unfold start at hmem
                    split at hmem <;> simp at hmem
                · obtain ⟨b', os'', he, h1⟩ := sendInternalError_cases e sock ep p
                  rw [he] at hs
                  simp only [Prod.mk.injEq] at hs
                  rw [← hs.2] at hmem
                  rcases List.mem_append.mp hmem with hmem | hmem
                  · cases h1 _ hmem
                  · simp only [destroy, List.mem_cons, Out.event.injEq, reduceCtorEq, and_false,
                      false_or] at hmem
                    cases free_about hmem
            · cases hs; simp at hmem
      | handshakeDone r =>
        simp only [step] at hs
        split at hs <;> cases hs <;> simp at hmem
      | dtlsClosed r =>
        simp only [step] at hs
        split at hs
        · have h1 : os' = (destroy d r).2 := by rw [Option.some.inj hs]
          rw [h1] at hmem
          simp only [destroy, List.mem_cons, Out.event.injEq, reduceCtorEq, and_false, false_or] at hmem
          cases free_about hmem
        · cases hs; simp at hmem
      | dtlsSend r ch dd =>
        simp only [step, sendToUdp] at hs
        repeat' split at hs
        all_goals cases hs
        all_goals simp at hmem
      | udpSent r =>
        simp only [step, sentToUdp] at hs
        repeat' split at hs
        all_goals cases hs
        all_goals simp at hmem
      | internalErrorSent => cases hs; simp at hmem
      | newVirtual mem =>
        simp only [step] at hs
        split at hs <;> cases hs <;> simp at hmem
      | freeVirtual r =>
        simp only [step] at hs
        split at hs
        · have h1 : os' = (destroy d r).2 := by rw [Option.some.inj hs]
          rw [h1] at hmem
          simp only [destroy, List.mem_cons, Out.event.injEq, reduceCtorEq, and_false, false_or] at hmem
          cases free_about hmem
        · cases hs; simp at hmem
      | setMax n => cases hs; simp at hmem
      | close cb sync =>
        simp only [step, Option.some.injEq] at hs
        unfold asyncClose at hs
        dsimp only at hs
        have hl' : ∀ (ks : List Conn) (c : Ctx), .event ref .channelChanged ∉ (closeLoop sync ks c).2 := by
          intro ks
          induction ks with
          | nil => simp [closeLoop]
          | cons k ks ih =>
            intro c h
            simp only [closeLoop] at h
            split at h
            · dsimp only at h
              simp only [List.cons_append, List.mem_cons, reduceCtorEq, false_or, List.mem_append] at h
              rcases h with h | h
              · split at h
                · simp only [destroy, List.mem_cons, Out.event.injEq, reduceCtorEq, and_false,
                    false_or] at h
                  cases free_about h
                · simp at h
              · exact ih _ h
            · exact ih _ h
        split at hs
        all_goals
          simp only [Prod.mk.injEq] at hs
          rw [← hs.2] at hmem
        · exact absurd hmem (hl' _ _)
        · rcases List.mem_append.mp hmem with hmem | hmem
          · exact absurd hmem (hl' _ _)
          · simp at hmem

/-- The largest sequence number of a connection was seen. -/
def SeqSeen (ops : List Op) (k : Conn) : Prop :=
  ∀ cl, k.client = some cl → cl.maxSeq = 0 ∨ ∃ ch d, .data k.ref ch cl.maxSeq d ∈ ops

theorem seqSeen_step {ops : List Op} {op : Op} {k : Conn} (h : SeqSeen ops k) :
    SeqSeen (ops ++ [op]) (stepConn op k) := by
  intro cl' hcl'
  rw [stepConn_ref]
  have old : ∀ cl, k.client = some cl → cl'.maxSeq = cl.maxSeq →
      cl'.maxSeq = 0 ∨ ∃ ch d, .data k.ref ch cl'.maxSeq d ∈ ops ++ [op] := by
    intro cl hc e
    rw [e]
    rcases h cl hc with h1 | ⟨ch, d, h1⟩
    · exact Or.inl h1
    · exact Or.inr ⟨ch, d, List.mem_append_left _ h1⟩
  unfold stepConn at hcl'
  split at hcl'
  · rename_i hc; rw [hc] at hcl'; cases hcl'
  · rename_i cl hc
    have new : ∀ ref ch seq d, op = .data ref ch seq d → k.ref = ref → cl'.maxSeq = seq →
        cl'.maxSeq = 0 ∨ ∃ ch d, .data k.ref ch cl'.maxSeq d ∈ ops ++ [op] := by
      rintro ref ch seq d rfl rfl rfl
      exact Or.inr ⟨ch, d, by simp⟩
    repeat' split at hcl'
    all_goals first
      | (rw [hc] at hcl'; cases hcl'; exact old _ hc rfl)
      | (cases hcl'; exact old cl hc rfl)
      | (cases hcl'; exact new _ _ _ _ rfl (by assumption) rfl)

theorem run_seqSeen {m : Bool} {ops : List Op} : ∀ {c : Ctx} {outs : List Out},
    run (init m) ops = some (c, outs) → ops.length < 2 ^ 64 - 1 → ∀ k ∈ c.conns, SeqSeen ops k := by
  induction ops using snoc_ind with
  | h0 =>
    intro c outs h _
    simp only [run, Option.some.injEq, Prod.mk.injEq] at h
    obtain ⟨rfl, rfl⟩ := h
    simp [init]
  | h1 ops op ih =>
    intro c outs h hlen k' hk'
    obtain ⟨d, os, os', hr, hs, rfl⟩ := run_snoc h
    simp only [List.length_append, List.length_singleton] at hlen
    obtain ⟨hi, hl, -, -⟩ := run_inv hr (by omega)
    rcases conns_step hi (by omega) hs hk' with ⟨k, hk, rfl⟩ | ⟨-, -, hn | ⟨sock, ep, p, mem, ok, hp, rfl, hn⟩⟩
    · exact seqSeen_step (ih hr (by omega) k hk)
    · intro cl hcl; rw [hn] at hcl; cases hcl
    · intro cl hcl
      rw [hn] at hcl
      cases hcl
      exact Or.inl rfl

theorem mem_update_self {c : Ctx} {ref : Nat} {f : Client → Client} {cl : Client}
    (h : ⟨ref, some cl⟩ ∈ c.conns) : ⟨ref, some (f cl)⟩ ∈ (update c ref f).conns := by
  simp only [update, List.mem_map]
  exact ⟨_, h, by simp⟩

/-- C74, in the client only build: when a datagram from a new place brings data which is newer than
everything seen before and no keep alive, the connection moves to the channel and the place of that
datagram, and this is reported if the channel differs from the one used before. -/
theorem C74_moves_partial {ops : List Op} {c : Ctx} {outs : List Out}
    (h : run (init true) ops = some (c, outs)) (hlen : ops.length + 2 < 2 ^ 64 - 1)
    {ref : Nat} {hdr : Bytes} (hlive : (ref, some hdr) ∈ live outs)
    {p : Bytes} (hp : 17 ≤ p.length) (hid : id14 p = id14 hdr)
    {seq : Nat} (hpos : 0 < seq) (hseq : ∀ ch s d, .data ref ch s d ∈ ops → s < seq)
    {b : UInt8} (hb : b ≠ 4) (rest : Bytes) (sock ep : Nat) (mem ok : Bool) :
    ∃ c' os, run c [.packet sock ep p mem ok, .data ref p[15] seq (b :: rest)] = some (c', os) ∧
      (∀ d c'' os', step c' (.dtlsSend ref 0xff d) = some (c'', os') →
        os' = [.refused ref] ∨ os' = [.udp sock ep (hdr.take 15 ++ [p[15]] ++ d)]) ∧
      (∀ c₁ s e ch₀, step c (.dtlsSend ref 0xff []) = some (c₁, [.udp s e (hdr.take 15 ++ [ch₀])]) →
        (.event ref .channelChanged ∈ os ↔ ch₀ ≠ p[15])) := by
  obtain ⟨hi, hl, -, hm⟩ := run_inv h (by omega)
  obtain ⟨cl, hk, rfl⟩ := live_mem hi hlive
  have hmax : cl.maxSeq < seq := by
    rcases run_seqSeen h (by omega) _ hk cl rfl with h1 | ⟨ch, d, h1⟩
    · omega
    · exact hseq _ _ _ h1
  -- the datagram
  have hs1 : step c (.packet sock ep p mem ok) = some (clientPacket c ref cl sock ep p[15] p) := by
    simp only [step, handlePacket, dif_neg (show ¬ p.length < 17 by omega), fromId_live hi hk hid]
  have hi1 : Inv (clientPacket c ref cl sock ep p[15] p).1
      (outs ++ (clientPacket c ref cl sock ep p[15] p).2) := inv_step hi (by omega) hs1
  have ho1 : (clientPacket c ref cl sock ep p[15] p).2 = [.toDtls ref p[15] (p.drop 16)] := by
    simp [clientPacket, hm]
  generalize hd : (clientPacket c ref cl sock ep p[15] p).1 = d at hi1
  have hstep1 : step c (.packet sock ep p mem ok) = some (d, [.toDtls ref p[15] (p.drop 16)]) := by
    rw [hs1, ← hd, ← ho1]
  let cl1 : Client := if p[15] ≠ cl.cur.id then { cl with alt := ⟨sock, ep, p[15]⟩ }
    else { cl with cur := ⟨sock, ep, cl.cur.id⟩ }
  have hk1 : (⟨ref, some cl1⟩ : Conn) ∈ d.conns := by
    rw [← hd]
    exact mem_update_self (f := fun cl => if p[15] ≠ cl.cur.id then { cl with alt := ⟨sock, ep, p[15]⟩ }
      else { cl with cur := ⟨sock, ep, cl.cur.id⟩ }) hk
  have hhdr1 : cl1.hdr = cl.hdr := by simp only [cl1]; split <;> rfl
  have hseq1 : cl1.maxSeq = cl.maxSeq := by simp only [cl1]; split <;> rfl
  have hsend1 : cl1.sending = cl.sending := by simp only [cl1]; split <;> rfl
  -- where the default channel leads to
  have dest : ∀ (e : Ctx) (outs' : List Out) (cl2 : Client), Inv e outs' → ⟨ref, some cl2⟩ ∈ e.conns →
      cl2.hdr = cl.hdr → cl2.cur = ⟨sock, ep, p[15]⟩ → ∀ d c'' os',
      step e (.dtlsSend ref 0xff d) = some (c'', os') →
        os' = [.refused ref] ∨ os' = [.udp sock ep (cl.hdr.take 15 ++ [p[15]] ++ d)] := by
    intro e outs' cl2 hie hk2 hh2 hcur d c'' os' hs
    simp only [step, clientOf_of_mem hie hk2, sendToUdp] at hs
    split at hs
    · cases hs; exact Or.inl rfl
    · rw [if_pos (show (0xff : UInt8) = cl2.cur.id ∨ (0xff : UInt8) = defaultChannel from Or.inr rfl)] at hs
      cases hs
      rw [hcur, hh2]
      exact Or.inr rfl
  have before : ∀ c₁ s e ch₀, step c (.dtlsSend ref 0xff []) =
      some (c₁, [.udp s e (cl.hdr.take 15 ++ [ch₀])]) → ch₀ = cl.cur.id := by
    intro c₁ s e ch₀ hs
    simp only [step, clientOf_of_mem hi hk, sendToUdp] at hs
    split at hs
    · cases hs
    · rw [if_pos (show (0xff : UInt8) = cl.cur.id ∨ (0xff : UInt8) = defaultChannel from Or.inr rfl)] at hs
      simp at hs
      exact hs.2.2.2.symm
  by_cases hsame : p[15] = cl.cur.id
  · have hc1 : cl1 = { cl with cur := ⟨sock, ep, cl.cur.id⟩ } := by simp [cl1, hsame]
    have hs2 : step d (.data ref p[15] seq (b :: rest)) =
        some (update d ref (fun cl => { cl with maxSeq := seq }), [.app ref (kindOf b) p[15] (b :: rest)]) := by
      simp only [step, clientOf_of_mem hi1 hk1, handleData]
      rw [if_pos ⟨hb, by rw [hseq1]; exact hmax⟩, if_neg (by rw [hc1]; exact fun h => h.1 hsame.symm)]
    have hlast : d.lastRef = c.lastRef := by rw [← hd]; rfl
    have hi2 := inv_step hi1 (by omega) hs2
    have hk2 := mem_update_self (f := fun cl => { cl with maxSeq := seq }) hk1
    refine ⟨_, [.toDtls ref p[15] (p.drop 16)] ++ [.app ref (kindOf b) p[15] (b :: rest)],
      by simp only [run, hstep1, hs2]; rfl, ?_, ?_⟩
    · exact dest _ _ _ hi2 hk2 hhdr1 (by simp only [hc1, hsame])
    · intro c₁ s e ch₀ hs
      rw [before _ _ _ _ hs]
      simp [hsame]
  · have hc1 : cl1 = { cl with alt := ⟨sock, ep, p[15]⟩ } := by simp [cl1, hsame]
    have hs2 : step d (.data ref p[15] seq (b :: rest)) =
        some (update d ref (fun cl => { cl with maxSeq := seq, cur := cl.alt }),
          [.event ref .channelChanged, .app ref (kindOf b) p[15] (b :: rest)]) := by
      simp only [step, clientOf_of_mem hi1 hk1, handleData]
      rw [if_pos ⟨hb, by rw [hseq1]; exact hmax⟩,
        if_pos (by rw [hc1]; exact ⟨fun h => hsame h.symm, rfl⟩)]
    have hlast : d.lastRef = c.lastRef := by rw [← hd]; rfl
    have hi2 := inv_step hi1 (by omega) hs2
    have hk2 := mem_update_self (f := fun cl => { cl with maxSeq := seq, cur := cl.alt }) hk1
    refine ⟨_, [.toDtls ref p[15] (p.drop 16)] ++
      [.event ref .channelChanged, .app ref (kindOf b) p[15] (b :: rest)],
      by simp only [run, hstep1, hs2]; rfl, ?_, ?_⟩
    · exact dest _ _ _ hi2 hk2 hhdr1 (by simp only [hc1])
    · intro c₁ s e ch₀ hs
      rw [before _ _ _ _ hs]
      simp only [List.cons_append, List.nil_append, List.mem_cons, true_or, or_true, true_iff]
      exact fun h => hsame h.symm

/-- Data of a connection which may move it: not a keep alive. -/
def mayMove (ref : Nat) : Op → Bool
  | .data r _ _ (b :: _) => r = ref && b != 4
  | _ => false

/-- C74: nothing else moves a connection to another channel: the packets of a connection carry the same
channel before and after every event which is not the delivery of authenticated data other than a keep
alive. -/
theorem C74_stays {m : Bool} {ops : List Op} {c c' c₁ c₂ : Ctx} {outs os : List Out}
    (h : run (init m) ops = some (c, outs)) (hlen : ops.length + 1 < 2 ^ 64 - 1)
    {op : Op} (hs : step c op = some (c', os)) {ref : Nat} (hop : mayMove ref op = false)
    {s e s' e' : Nat} {b b' : Bytes} {d : Bytes}
    (h1 : step c (.dtlsSend ref 0xff d) = some (c₁, [.udp s e b]))
    (h2 : step c' (.dtlsSend ref 0xff d) = some (c₂, [.udp s' e' b'])) : b = b' := by
  obtain ⟨hi, hl, -, -⟩ := run_inv h (by omega)
  obtain ⟨hi', -, -, -⟩ := run_inv (run_step h hs) (by simpa using hlen)
  have out : ∀ {c c₁ : Ctx} {s e b}, step c (.dtlsSend ref 0xff d) = some (c₁, [.udp s e b]) →
      ∃ cl, ⟨ref, some cl⟩ ∈ c.conns ∧ b = cl.hdr.take 15 ++ [cl.cur.id] ++ d := by
    intro c c₁ s e b hs
    simp only [step] at hs
    split at hs
    · rename_i cl hc
      refine ⟨cl, clientOf_some hc, ?_⟩
      unfold sendToUdp at hs
      split at hs
      · cases hs
      · rw [if_pos (show (0xff : UInt8) = cl.cur.id ∨ (0xff : UInt8) = defaultChannel from Or.inr rfl)] at hs
        simp only [Option.some.injEq, Prod.mk.injEq, List.cons.injEq, Out.udp.injEq, and_true] at hs
        exact hs.2.2.2.symm
    · cases hs
  obtain ⟨cl, hk, rfl⟩ := out h1
  obtain ⟨cl', hk', rfl⟩ := out h2
  rcases conns_step hi (by omega) hs hk' with ⟨k, hk0, he⟩ | ⟨hnew, -⟩
  · have hr : k.ref = ref := by have := congrArg Conn.ref he; rw [stepConn_ref] at this; exact this.symm
    have := conn_unique hi hk0 hk hr
    subst this
    have hhdr := congrArg (fun k : Conn => k.client.map (·.hdr)) he
    simp only [stepConn_hdr, Option.map_some, Option.some.injEq] at hhdr
    have hcur : cl'.cur.id = cl.cur.id := by
      have he := congrArg Conn.client he
      unfold stepConn at he
      simp only at he
      repeat' split at he
      all_goals cases he
      all_goals first
        | rfl
        | (rename_i hb hcc
           have := hb.1
           simp_all [mayMove])
    rw [hhdr, hcur]
  · have := hi.bound _ (List.mem_map.mpr ⟨_, hk, rfl⟩)
    simp only at this hnew
    omega

/-! ## C75: packets given to a connection are sent -/

theorem waits_snoc (ref : Nat) (ops : List Op) (op : Op) :
    waits ref (ops ++ [op]) =
      match op with
      | .dtlsSend r _ _ => if r = ref then true else waits ref ops
      | .udpSent r => if r = ref then false else waits ref ops
      | _ => waits ref ops := by
  simp only [waits, List.foldl_append, List.foldl_cons, List.foldl_nil]
  cases op <;> rfl

theorem stepConn_sending {op : Op} {k : Conn} {cl cl' : Client} (hc : k.client = some cl)
    (hc' : (stepConn op k).client = some cl') :
    cl'.sending = match op with
      | .dtlsSend r _ _ => if k.ref = r then true else cl.sending
      | .udpSent r => if k.ref = r then false else cl.sending
      | _ => cl.sending := by
  unfold stepConn at hc'
  simp only [hc] at hc'
  cases op <;> simp only at hc' ⊢
  all_goals
    repeat' split at hc'
    all_goals first
      | (rw [hc] at hc'; cases hc'; first | rfl | simp_all)
      | (cases hc'; first | rfl | simp_all)

theorem run_waits {m : Bool} {ops : List Op} : ∀ {c : Ctx} {outs : List Out},
    run (init m) ops = some (c, outs) → ops.length < 2 ^ 64 - 1 →
    ∀ k ∈ c.conns, ∀ cl, k.client = some cl → cl.sending = true → waits k.ref ops = true := by
  induction ops using snoc_ind with
  | h0 =>
    intro c outs h _
    simp only [run, Option.some.injEq, Prod.mk.injEq] at h
    obtain ⟨rfl, rfl⟩ := h
    simp [init]
  | h1 ops op ih =>
    intro c outs h hlen k' hk' cl' hcl' hsend
    obtain ⟨d, os, os', hr, hs, rfl⟩ := run_snoc h
    simp only [List.length_append, List.length_singleton] at hlen
    obtain ⟨hi, hl, -, -⟩ := run_inv hr (by omega)
    rcases conns_step hi (by omega) hs hk' with ⟨k, hk, rfl⟩ | ⟨-, -, hn | ⟨sock, ep, p, mem, ok, hp, rfl, hn⟩⟩
    · have hsome : ∃ cl, k.client = some cl := by
        have := stepConn_hdr op k
        rw [hcl', Option.map_some] at this
        cases hc : k.client with
        | none => rw [hc] at this; cases this
        | some cl => exact ⟨cl, rfl⟩
      obtain ⟨cl, hc⟩ := hsome
      have e := stepConn_sending hc hcl'
      have ih := ih hr (by omega) k hk cl hc
      rw [stepConn_ref, waits_snoc]
      rw [hsend] at e
      have comm : ∀ r, (k.ref = r) = (r = k.ref) := fun r => propext ⟨Eq.symm, Eq.symm⟩
      cases op <;> simp only [comm] at e ⊢ <;> first
        | exact ih e.symm
        | (split at e <;> first | simp_all | (split <;> simp_all))
    · rw [hn] at hcl'; cases hcl'
    · rw [hn] at hcl'; cases hcl'; cases hsend

/-- C75, in the default build: a packet which the DTLS session sends on the channel it was told or on the
default channel is sent, unless the session has not waited for the completion of the packet before. -/
theorem C75_sent_partial {ops : List Op} {c c' : Ctx} {outs os : List Out}
    (h : run (init false) ops = some (c, outs)) (hlen : ops.length < 2 ^ 64 - 1)
    (hf : Faithful false ops) {ref : Nat} {hdr : Bytes} (hlive : (ref, some hdr) ∈ live outs)
    (hw : waits ref ops = false) {ch : UInt8} (hch : ch = 0xff ∨ ∃ p, .toDtls ref ch p ∈ outs) {d : Bytes}
    (hs : step c (.dtlsSend ref ch d) = some (c', os)) :
    ∃ sock ep, os = [.udp sock ep (hdr ++ d)] := by
  rcases C73_destination_partial h hlen hf hlive hch hs with rfl | ⟨_, sock, ep, -, -, h3⟩
  · obtain ⟨hi, -, -, -⟩ := run_inv h hlen
    obtain ⟨cl, hk, rfl⟩ := live_mem hi hlive
    exfalso
    have hns : cl.sending = false := by
      cases hx : cl.sending with
      | false => rfl
      | true =>
        have := run_waits h hlen _ hk cl rfl hx
        rw [this] at hw; cases hw
    simp only [step, clientOf_of_mem hi hk, sendToUdp, hns] at hs
    simp only [Bool.false_eq_true, if_false] at hs
    split at hs
    · cases hs
    · split at hs <;> cases hs
  · exact ⟨sock, ep, h3⟩

/-- Once the completion of a packet is lost nothing is sent any more. -/
theorem stuck {ref : Nat} : ∀ {later : List Op} {c c' : Ctx} {outs outs' : List Out}, Inv c outs →
    c.lastRef + later.length + 1 < 2 ^ 64 → ref ≤ c.lastRef →
    (∀ k ∈ c.conns, k.ref = ref → ∀ cl, k.client = some cl → cl.sending = true) →
    .udpSent ref ∉ later → run c later = some (c', outs') →
    ∀ ch d, ∃ c'' os, step c' (.dtlsSend ref ch d) = some (c'', os) ∧ ∀ s e b, .udp s e b ∉ os := by
  intro later
  induction later with
  | nil =>
    intro c c' outs outs' hi _ _ hk _ hr ch d
    simp only [run, Option.some.injEq, Prod.mk.injEq] at hr
    obtain ⟨rfl, -⟩ := hr
    simp only [step]
    split
    · rename_i cl hc
      have := hk _ (clientOf_some hc) rfl cl rfl
      exact ⟨c, [.refused ref], by simp [sendToUdp, this], by simp⟩
    · exact ⟨c, [], rfl, by simp⟩
  | cons op later ih =>
    intro c c' outs outs' hi hl href hk hno hr
    simp only [List.length_cons] at hl
    simp only [run] at hr
    split at hr
    · cases hr
    · rename_i c1 os1 hs
      split at hr
      · cases hr
      · rename_i c2 os2 hr2
        simp only [Option.some.injEq, Prod.mk.injEq] at hr
        obtain ⟨rfl, -⟩ := hr
        have hi1 := inv_step hi (by omega) hs
        have hfl := step_fields hs
        have hmono := step_lastRef (by omega) hs
        refine ih hi1 (by omega) (by omega) ?_ (fun h => hno (List.mem_cons_of_mem _ h)) hr2
        intro k' hk' hr' cl' hcl'
        rcases conns_step hi (by omega) hs hk' with ⟨k, hk0, rfl⟩ | ⟨hn, -⟩
        · rw [stepConn_ref] at hr'
          cases hc : k.client with
          | none => simp [stepConn, hc] at hcl'
          | some cl =>
            have e := stepConn_sending hc hcl'
            have hold := hk k hk0 hr' cl hc
            rw [e]
            cases op <;> simp only <;> first
              | exact hold
              | (split
                 · rfl
                 · exact hold)
              | (split
                 · rename_i hh
                   exact absurd (List.mem_cons.mpr (Or.inl (by rw [← hr', hh]))) hno
                 · exact hold)
        · omega

/-- A client of the client only build which is seen on three channels, one after the other; the packet
which answers the one on the second channel is not sent, and the session is never told. -/
def threeChannels : List Op :=
  [.packet 1 10 (hello 7 0) true true, .packet 1 11 (hello 7 1) true true,
    .packet 1 12 (hello 7 2) true true, .dtlsSend 1 1 [23]]

/-- C75 is violated in the client only build: a packet for a channel which another datagram has replaced
is not sent and its completion is never reported, so no packet of this connection is sent any more. -/
theorem C75_client_violated :
    ∃ c outs, run (init true) threeChannels = some (c, outs) ∧
      (∃ p, .toDtls 1 1 p ∈ outs) ∧ (∀ s e b, .udp s e b ∉ outs) ∧
      ∀ later c' outs', later.length < 2 ^ 63 → .udpSent 1 ∉ later → run c later = some (c', outs') →
        ∀ ch d, ∃ c'' os, step c' (.dtlsSend 1 ch d) = some (c'', os) ∧ ∀ s e b, .udp s e b ∉ os := by
  have hrun : ∃ c, run (init true) threeChannels =
      some (c, [.created 1 (some ((hello 7 0).take 16)), .dtlsConnect 1, .toDtls 1 1 [22, 1],
        .toDtls 1 2 [22, 1]]) ∧ c.lastRef = 1 ∧
        c.conns = [⟨1, some ⟨(hello 7 0).take 16, ⟨1, 10, 0⟩, ⟨1, 12, 2⟩, 0, true⟩⟩] := ⟨_, rfl, rfl, rfl⟩
  obtain ⟨c, hr, hl, hc⟩ := hrun
  refine ⟨c, _, hr, ⟨[22, 1], by simp⟩, by simp, ?_⟩
  intro later c' outs' hlen hno hr'
  obtain ⟨hi, -, -, -⟩ := run_inv hr (by simp [threeChannels])
  refine stuck hi (by omega) (by omega) ?_ hno hr'
  intro k hk href cl hcl
  rw [hc] at hk
  simp only [List.mem_singleton] at hk
  subst hk
  cases hcl
  rfl

/-! ### Non-vacuity -/

/-- A client of the default build opens a connection, sends data on its channel, and moves to another
channel with newer data. -/
def moving : List Op :=
  [.packet 1 10 (hello 7 0) true true, .handshakeDone 1,
    .packet 1 10 ((hello 7 0).take 16 ++ [23, 1]) true true, .data 1 0 1 [5, 0],
    .packet 2 20 ((hello 7 3).take 16 ++ [23, 2]) true true, .data 1 0 2 [5, 1]]

theorem moving_faithful : Faithful false moving := by
  intro pre ref ch seq d post c outs he hr
  have hcases : pre = moving.take 3 ∧ ref = 1 ∧ ch = 0 ∨ pre = moving.take 5 ∧ ref = 1 ∧ ch = 0 := by
    have hlen := congrArg List.length he
    simp only [moving, List.length_cons, List.length_nil, List.length_append] at hlen
    have hpre : pre = moving.take pre.length := by rw [he]; simp
    have hget := congrArg (fun l => l[pre.length]?) he
    simp only [List.getElem?_append_right (Nat.le_refl _), Nat.sub_self, List.getElem?_cons_zero] at hget
    have hlt : pre.length < 6 := by omega
    generalize pre.length = n at hpre hget hlt
    match n, hlt with
    | 0, _ => simp [moving] at hget
    | 1, _ => simp [moving] at hget
    | 2, _ => simp [moving] at hget
    | 3, _ => simp [moving] at hget; exact Or.inl ⟨hpre, hget.1.symm, hget.2.1.symm⟩
    | 4, _ => simp [moving] at hget
    | 5, _ => simp [moving] at hget; exact Or.inr ⟨hpre, hget.1.symm, hget.2.1.symm⟩
  rcases hcases with ⟨rfl, rfl, rfl⟩ | ⟨rfl, rfl, rfl⟩
  · have e : run (init false) (moving.take 3) = some (((run (init false) (moving.take 3)).get rfl).1,
      [.created 1 (some ((hello 7 0).take 16)), .toDtls 1 0 [22, 1], .event 1 .opened,
        .toDtls 1 0 [23, 1]]) := rfl
    rw [e] at hr
    cases hr
    exact ⟨_, List.mem_cons_of_mem _ (List.mem_cons_self ..)⟩
  · have e : run (init false) (moving.take 5) = some (((run (init false) (moving.take 5)).get rfl).1,
      [.created 1 (some ((hello 7 0).take 16)), .toDtls 1 0 [22, 1], .event 1 .opened,
        .toDtls 1 0 [23, 1], .app 1 .stream 0 [5, 0], .toDtls 1 0 [23, 2]]) := rfl
    rw [e] at hr
    cases hr
    exact ⟨_, List.mem_cons_of_mem _ (List.mem_cons_self ..)⟩

/-- After the move of `moving` the device still sends to the old place. -/
example : ∃ c outs c', run (init false) moving = some (c, outs) ∧
    (1, some ((hello 7 0).take 16)) ∈ live outs ∧ waits 1 moving = false ∧
    step c (.dtlsSend 1 0 [23]) = some (c', [.udp 1 10 ((hello 7 0).take 16 ++ [23])]) :=
  ⟨_, _, _, rfl, by decide, by decide, rfl⟩

/-- The same in the client only build, where the session reports the channel of the packet: the
connection moves. -/
example : ∃ c outs c', run (init true)
      [.packet 1 10 (hello 7 0) true true, .handshakeDone 1,
        .packet 1 10 ((hello 7 0).take 16 ++ [23, 1]) true true, .data 1 0 1 [5, 0],
        .packet 2 20 ((hello 7 3).take 16 ++ [23, 2]) true true, .data 1 3 2 [5, 1]] = some (c, outs) ∧
    .event 1 .channelChanged ∈ outs ∧
    step c (.dtlsSend 1 0xff [23]) = some (c', [.udp 2 20 ((hello 7 0).take 15 ++ [3] ++ [23])]) :=
  ⟨_, _, _, rfl, by decide, rfl⟩

end Verif.Core.Conn
