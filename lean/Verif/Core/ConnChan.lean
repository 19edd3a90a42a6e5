import Verif.Core.ConnProps

/-!
# What an event does to each connection (lemmas for C73–C77)
-/

namespace Verif.Core.Conn

open Spec

/-- The effect of an event on a connection which survives it. -/
def stepConn (op : Op) (k : Conn) : Conn :=
  match k.client with
  | none => k
  | some cl =>
    match op with
    | .packet sock ep p _ _ =>
      if h : 17 ≤ p.length then
        if id14 p = id14 cl.hdr then
          if p[15] ≠ cl.cur.id then { k with client := some { cl with alt := ⟨sock, ep, p[15]⟩ } }
          else { k with client := some { cl with cur := ⟨sock, ep, cl.cur.id⟩ } }
        else k
      else k
    | .data ref ch seq d =>
      if k.ref = ref then
        match d with
        | [] => k
        | b :: _ =>
          if b ≠ 4 ∧ seq > cl.maxSeq then
            if cl.cur.id ≠ ch ∧ cl.alt.id = ch then
              { k with client := some { cl with maxSeq := seq, cur := cl.alt } }
            else { k with client := some { cl with maxSeq := seq } }
          else k
      else k
    | .dtlsSend ref _ _ => if k.ref = ref then { k with client := some { cl with sending := true } } else k
    | .udpSent ref => if k.ref = ref then { k with client := some { cl with sending := false } } else k
    | _ => k

/-- Where a connection can come from. -/
def FreshConn (c : Ctx) (op : Op) (os : List Out) (k : Conn) : Prop :=
  k.ref = c.lastRef + 1 ∧ .created k.ref (k.client.map (·.hdr)) ∈ os ∧
    (k.client = none ∨ ∃ sock ep p mem ok, ∃ h : 17 ≤ p.length,
      op = .packet sock ep p mem ok ∧ k.client = some (newClient sock ep p (by omega)))

theorem stepConn_ref (op : Op) (k : Conn) : (stepConn op k).ref = k.ref := by
  unfold stepConn
  repeat' split
  all_goals rfl

theorem stepConn_hdr (op : Op) (k : Conn) :
    (stepConn op k).client.map (·.hdr) = k.client.map (·.hdr) := by
  unfold stepConn
  split
  · rfl
  · rename_i cl hcl
    repeat' split
    all_goals simp [hcl]

theorem mem_update {c : Ctx} {ref : Nat} {f : Client → Client} {k' : Conn}
    (h : k' ∈ (update c ref f).conns) :
    ∃ k ∈ c.conns, k' = if k.ref = ref then { k with client := k.client.map f } else k := by
  simp only [update, List.mem_map] at h
  obtain ⟨k, hk, rfl⟩ := h
  exact ⟨k, hk, rfl⟩

theorem mem_destroy {c : Ctx} {ref : Nat} {k : Conn} (h : k ∈ (destroy c ref).1.conns) :
    k ∈ c.conns ∧ k.ref ≠ ref := by
  unfold destroy free at h
  dsimp only at h
  split at h <;> simpa using h

theorem mem_closeLoop {sync : Nat → Bool} (ks : List Conn) {c : Ctx} {k : Conn}
    (h : k ∈ (closeLoop sync ks c).1.conns) : k ∈ c.conns := by
  induction ks generalizing c with
  | nil => exact h
  | cons a ks ih =>
    simp only [closeLoop] at h
    split at h
    · dsimp only at h
      split at h
      · exact (mem_destroy (ih h)).1
      · exact ih h
    · exact ih h

theorem conns_step {c c' : Ctx} {outs os : List Out} (hi : Inv c outs) (hl : c.lastRef + 1 < 2 ^ 64)
    {op : Op} (hs : step c op = some (c', os)) {k' : Conn} (hk' : k' ∈ c'.conns) :
    (∃ k ∈ c.conns, k' = stepConn op k) ∨ FreshConn c op os k' := by
  have same : ∀ {k : Conn}, stepConn op k = k → k ∈ c.conns →
      (∃ k₀ ∈ c.conns, k = stepConn op k₀) ∨ FreshConn c op os k :=
    fun {k} he hk => Or.inl ⟨k, hk, he.symm⟩
  have triv : ∀ {k : Conn} {op' : Op}, (∀ cl, k.client = some cl → (stepConn op' k) = k) →
      stepConn op' k = k := by
    intro k op' h
    cases hc : k.client with
    | none => simp [stepConn, hc]
    | some cl => exact h cl hc
  have other : ∀ {k : Conn} {ref : Nat} {cl : Client}, clientOf c ref = some cl → k ∈ c.conns →
      k.ref = ref → k.client = some cl := by
    intro k ref cl hc hk he
    have := conn_unique hi hk (clientOf_some hc) he
    rw [this]
  have nobody : ∀ {k : Conn} {ref : Nat}, clientOf c ref = none → k ∈ c.conns →
      k.ref = ref → k.client = none := by
    intro k ref hc hk he
    cases h : k.client with
    | none => rfl
    | some cl =>
      have : (⟨ref, some cl⟩ : Conn) ∈ c.conns := by
        rw [← he, ← h]; exact hk
      rw [clientOf_of_mem hi this] at hc
      cases hc
  cases op with
  | packet sock ep p mem ok =>
    simp only [step, Option.some.injEq] at hs
    unfold handlePacket at hs
    split at hs
    · rename_i hp
      cases hs
      exact same (triv fun cl hc => by simp [stepConn, hc, show ¬ 17 ≤ p.length by omega]) hk'
    · rename_i hp
      split at hs
      · rename_i ref cl hf
        have hs1 : c' = (clientPacket c ref cl sock ep p[15] p).1 := by rw [hs]
        rw [hs1] at hk'
        obtain ⟨k, hk, rfl⟩ := mem_update hk'
        obtain ⟨hm, cl', hcl', hid⟩ := fromId_some hf
        simp only [Option.some.injEq] at hcl'
        subst hcl'
        refine Or.inl ⟨k, hk, ?_⟩
        by_cases he : k.ref = ref
        · have := conn_unique hi hk hm he
          subst this
          simp only [stepConn, dif_pos (show 17 ≤ p.length by omega), if_pos hid, if_true,
            Option.map_some]
          split <;> rfl
        · rw [if_neg he]
          symm
          apply triv
          intro cl2 hc2
          have : id14 p ≠ id14 cl2.hdr := by
            intro e
            have hk2 : (⟨k.ref, some cl2⟩ : Conn) ∈ c.conns := by rw [← hc2]; exact hk
            rw [fromId_live hi hk2 e] at hf
            simp only [Option.some.injEq, Conn.mk.injEq] at hf
            exact he hf.1
          simp [stepConn, hc2, this]
      · rename_i hf
        obtain ⟨-, cl', hcl', -⟩ := fromId_some hf
        cases hcl'
      · rename_i hf
        have hno : ∀ k ∈ c.conns, stepConn (.packet sock ep p mem ok) k = k := by
          intro k hk
          apply triv
          intro cl2 hc2
          have : id14 p ≠ id14 cl2.hdr := fun e =>
            fromId_none hf (k.ref, some cl2.hdr) (List.mem_map.mpr ⟨k, hk, by simp [hc2]⟩) _ rfl e.symm
          simp [stepConn, hc2, this]
        split at hs
        · unfold openNew at hs
          split at hs
          · rename_i d hc
            obtain ⟨b, os', he, -⟩ := sendInternalError_cases d sock ep p
            rw [(alloc_none hc hl).1] at he hs
            rw [he] at hs; cases hs
            exact same (hno _ hk') hk'
          · rename_i d ref hc
            obtain ⟨-, -, hr, hd⟩ := alloc_some hc hl
            split at hs
            · simp only [Prod.mk.injEq] at hs
              rw [← hs.1, hd] at hk'
              simp only [List.mem_append, List.mem_singleton] at hk'
              rcases hk' with hk' | rfl
              · exact same (hno _ hk') hk'
              · refine Or.inr ⟨by rw [hr], ?_, Or.inr ⟨sock, ep, p, mem, ok, by omega, rfl, rfl⟩⟩
                rw [← hs.2, hr]
                exact List.mem_cons_self ..
            · obtain ⟨b, os', he, -⟩ := sendInternalError_cases d sock ep p
              rw [he] at hs
              have hc' : c' = (destroy { d with sendingInternalError := b } ref).1 := by
                simp only [Prod.mk.injEq] at hs; exact hs.1.symm
              rw [hc'] at hk'
              obtain ⟨h1, h2⟩ := mem_destroy hk'
              rw [hd] at h1
              simp only [List.mem_append, List.mem_singleton] at h1
              rcases h1 with h1 | rfl
              · exact same (hno _ h1) h1
              · exact absurd rfl h2
        · cases hs
          exact same (hno _ hk') hk'
  | data ref ch seq d =>
    simp only [step] at hs
    split at hs
    · rename_i cl hc
      unfold handleData at hs
      split at hs
      · cases hs
      · rename_i b d
        have hrest : ∀ k ∈ c.conns, k.ref ≠ ref → stepConn (.data ref ch seq (b :: d)) k = k := by
          intro k hk hne
          apply triv
          intro cl2 hc2
          simp [stepConn, hc2, hne]
        split at hs
        · rename_i hb
          split at hs
          · rename_i hcc
            cases hs
            obtain ⟨k, hk, rfl⟩ := mem_update hk'
            refine Or.inl ⟨k, hk, ?_⟩
            by_cases he : k.ref = ref
            · have := other hc hk he
              simp only [he, if_true, this, Option.map_some, stepConn]
              rw [if_pos hb, if_pos hcc]
            · rw [if_neg he, hrest k hk he]
          · rename_i hcc
            cases hs
            obtain ⟨k, hk, rfl⟩ := mem_update hk'
            refine Or.inl ⟨k, hk, ?_⟩
            by_cases he : k.ref = ref
            · have := other hc hk he
              simp only [he, if_true, this, Option.map_some, stepConn]
              rw [if_pos hb, if_neg hcc]
            · rw [if_neg he, hrest k hk he]
        · rename_i hb
          cases hs
          apply same _ hk'
          by_cases he : k'.ref = ref
          · have := other hc hk' he
            simp only [he, if_true, this, stepConn]
            rw [if_neg hb]
          · exact hrest _ hk' he
    · rename_i hc
      cases hs
      apply same _ hk'
      by_cases he : k'.ref = ref
      · simp [stepConn, nobody hc hk' he]
      · exact triv fun cl2 hc2 => by simp [stepConn, hc2, he]
  | handshakeDone ref =>
    have : c' = c := by
      simp only [step] at hs
      split at hs <;> cases hs <;> rfl
    subst this
    exact same (triv fun cl hc => by simp [stepConn, hc]) hk'
  | dtlsClosed ref =>
    simp only [step] at hs
    split at hs
    · simp only [Option.some.injEq] at hs
      have hc' : c' = (destroy c ref).1 := by rw [hs]
      rw [hc'] at hk'
      exact same (triv fun cl hc => by simp [stepConn, hc]) (mem_destroy hk').1
    · cases hs
      exact same (triv fun cl hc => by simp [stepConn, hc]) hk'
  | dtlsSend ref ch d =>
    have hrest : ∀ k ∈ c.conns, k.ref ≠ ref → stepConn (.dtlsSend ref ch d) k = k := by
      intro k hk hne
      exact triv fun cl2 hc2 => by simp [stepConn, hc2, hne]
    simp only [step] at hs
    split at hs
    · rename_i cl hc
      unfold sendToUdp at hs
      split at hs
      · rename_i hsend
        cases hs
        apply same _ hk'
        by_cases he : k'.ref = ref
        · have := other hc hk' he
          obtain ⟨r, o⟩ := k'
          simp only at he this
          subst he this
          cases cl
          simp only at hsend
          simp [stepConn, hsend]
        · exact hrest _ hk' he
      · have hup : c' = update c ref fun cl => { cl with sending := true } := by
          dsimp only at hs
          split at hs
          · cases hs; rfl
          · split at hs <;> cases hs <;> rfl
        rw [hup] at hk'
        obtain ⟨k, hk, rfl⟩ := mem_update hk'
        refine Or.inl ⟨k, hk, ?_⟩
        by_cases he : k.ref = ref
        · have := other hc hk he
          simp [he, this, stepConn]
        · rw [if_neg he, hrest k hk he]
    · rename_i hc
      cases hs
      apply same _ hk'
      by_cases he : k'.ref = ref
      · simp [stepConn, nobody hc hk' he]
      · exact hrest _ hk' he
  | udpSent ref =>
    have hrest : ∀ k ∈ c.conns, k.ref ≠ ref → stepConn (.udpSent ref) k = k := by
      intro k hk hne
      exact triv fun cl2 hc2 => by simp [stepConn, hc2, hne]
    simp only [step] at hs
    split at hs
    · rename_i cl hc
      unfold sentToUdp at hs
      split at hs
      · cases hs
        obtain ⟨k, hk, rfl⟩ := mem_update hk'
        refine Or.inl ⟨k, hk, ?_⟩
        by_cases he : k.ref = ref
        · have := other hc hk he
          simp [he, this, stepConn]
        · rw [if_neg he, hrest k hk he]
      · rename_i hsend
        cases hs
        apply same _ hk'
        by_cases he : k'.ref = ref
        · have := other hc hk' he
          obtain ⟨r, o⟩ := k'
          simp only at he this
          subst he this
          cases cl
          simp only [Bool.not_eq_true] at hsend
          simp [stepConn, hsend]
        · exact hrest _ hk' he
    · rename_i hc
      cases hs
      apply same _ hk'
      by_cases he : k'.ref = ref
      · simp [stepConn, nobody hc hk' he]
      · exact hrest _ hk' he
  | internalErrorSent =>
    cases hs
    exact same (triv fun cl hc => by simp [stepConn, hc]) hk'
  | newVirtual mem =>
    simp only [step] at hs
    split at hs
    · rename_i hc
      rw [(alloc_none hc hl).1] at hs
      cases hs
      exact same (triv fun cl hc => by simp [stepConn, hc]) hk'
    · rename_i hc
      obtain ⟨-, -, hr, hd⟩ := alloc_some hc hl
      simp only [Option.some.injEq, Prod.mk.injEq] at hs
      rw [← hs.1, hd] at hk'
      simp only [List.mem_append, List.mem_singleton] at hk'
      rcases hk' with hk' | rfl
      · exact same (triv fun cl hc => by simp [stepConn, hc]) hk'
      · refine Or.inr ⟨by rw [hr], ?_, Or.inl rfl⟩
        rw [← hs.2, hr]
        exact List.mem_cons_self ..
  | freeVirtual ref =>
    simp only [step] at hs
    split at hs
    · simp only [Option.some.injEq] at hs
      have hc' : c' = (destroy c ref).1 := by rw [hs]
      rw [hc'] at hk'
      exact same (triv fun cl hc => by simp [stepConn, hc]) (mem_destroy hk').1
    · cases hs
      exact same (triv fun cl hc => by simp [stepConn, hc]) hk'
  | setMax n =>
    cases hs
    exact same (triv fun cl hc => by simp [stepConn, hc]) hk'
  | close cb sync =>
    simp only [step, Option.some.injEq] at hs
    unfold asyncClose at hs
    dsimp only at hs
    have hk : k' ∈ (closeLoop sync c.conns { c with closing := true }).1.conns := by
      split at hs
      all_goals
        simp only [Prod.mk.injEq] at hs
        rw [← hs.1] at hk'
        exact hk'
    exact same (triv fun cl hc => by simp [stepConn, hc]) (mem_closeLoop (c := { c with closing := true }) _ hk)

end Verif.Core.Conn
