import Verif.Core.Dispatch

/-!
# UDP dispatch — property theorems (C41)
-/

namespace Verif.Core.Dispatch

namespace Spec

/-- Which protocol a first byte belongs to. -/
inductive Belongs : Nat → Handler → Prop
  | stun {n} : n ≤ 1 → Belongs n .stun
  | dtls {n} : 20 ≤ n → n ≤ 64 → Belongs n .attacher
  | client : Belongs 240 .clientConnection
  | rendezvous : Belongs 241 .rendezvous

/-- The handler is registered. -/
def Registered (c : Ctx) : Handler → Prop
  | .stun => c.stun = true
  | .attacher => c.attacher = true
  | .clientConnection => c.cliConn = true
  | .rendezvous => c.rendezvous = true

/-- The datagrams that arrived and could be received, as the application sees them. -/
def arrived : List Ev → List (List UInt8)
  | [] => []
  | .waitOk true (.datagram d) :: es => d :: arrived es
  | _ :: es => arrived es

end Spec

open Spec

/-- C41: a datagram is given to a handler exactly if its first byte belongs to that protocol and the handler is
registered; empty datagrams are dropped. -/
theorem C41_dispatch (c : Ctx) (d : List UInt8) (h : Handler) :
    handlePacket c d = some h ↔ ∃ b rest, d = b :: rest ∧ Belongs b.toNat h ∧ Registered c h := by
  cases d with
  | nil => simp [handlePacket]
  | cons b rest =>
    have key : handlePacket c (b :: rest) = some h ↔ Belongs b.toNat h ∧ Registered c h := by
      have h0 : b = 0 ↔ b.toNat = 0 := by rw [← UInt8.toNat_inj]; rfl
      have h1 : b = 1 ↔ b.toNat = 1 := by rw [← UInt8.toNat_inj]; rfl
      have h2 : b = 240 ↔ b.toNat = 240 := by rw [← UInt8.toNat_inj]; rfl
      have h3 : b = 241 ↔ b.toNat = 241 := by rw [← UInt8.toNat_inj]; rfl
      have h4 : b ≥ 20 ↔ 20 ≤ b.toNat := by rw [ge_iff_le, UInt8.le_iff_toNat_le]; rfl
      have h5 : b ≤ 64 ↔ b.toNat ≤ 64 := by rw [UInt8.le_iff_toNat_le]; rfl
      simp only [handlePacket, h0, h1, h2, h3, h4, h5]
      constructor
      · intro hh
        split at hh
        · rename_i hc; cases hh; exact ⟨.stun (by omega), hc.1⟩
        split at hh
        · rename_i hc; cases hh; exact ⟨.dtls hc.2.1 hc.2.2, hc.1⟩
        split at hh
        · rename_i hc; cases hh; rw [hc.2]; exact ⟨.client, hc.1⟩
        split at hh
        · rename_i hc; cases hh; rw [hc.2]; exact ⟨.rendezvous, hc.1⟩
        · cases hh
      · rintro ⟨hb, hr⟩
        generalize hn : b.toNat = n at hb
        cases hb with
        | stun hx =>
          have hr : c.stun = true := hr
          rw [if_pos ⟨hr, by omega⟩]
        | dtls hx hy =>
          have hr : c.attacher = true := hr
          rw [if_neg (fun hc => by omega), if_pos ⟨hr, hx, hy⟩]
        | client =>
          have hr : c.cliConn = true := hr
          rw [if_neg (fun hc => by omega), if_neg (fun hc => by omega), if_pos ⟨hr, rfl⟩]
        | rendezvous =>
          have hr : c.rendezvous = true := hr
          rw [if_neg (fun hc => by omega), if_neg (fun hc => by omega), if_neg (fun hc => by omega), if_pos ⟨hr, rfl⟩]
    rw [key]
    constructor
    · intro h; exact ⟨b, rest, rfl, h⟩
    · rintro ⟨b', rest', he, h⟩
      injection he with e1 e2
      subst e1 e2; exact h

/-- C41: no first byte belongs to two protocols. -/
theorem C41_one_protocol (n : Nat) (h1 h2 : Handler) (a : Belongs n h1) (b : Belongs n h2) : h1 = h2 := by
  cases a <;> cases b <;> first | rfl | omega

/-- C41: the receive loop does not stop silently: after any history the device is still waiting for packets,
or the socket was aborted, or a platform failure was reported. -/
theorem C41_keeps_receiving (c : Ctx) (es : List Ev) :
    let s := run (started c) es
    s.waiting = true ∨ s.aborted = true ∨ s.failed = true := by
  have key : ∀ (es : List Ev) (s : St), (s.waiting = true ∨ s.aborted = true ∨ s.failed = true) →
      ((run s es).waiting = true ∨ (run s es).aborted = true ∨ (run s es).failed = true) := by
    intro es
    induction es with
    | nil => intro s h; exact h
    | cons e es ih =>
      intro s h
      refine ih (step s e) ?_
      cases e with
      | setCtx c => exact h
      | waitFailed => simp only [step]; split <;> simp_all
      | waitOk memory r =>
        simp only [step]
        split
        · exact h
        split
        · exact .inl rfl
        · cases r with
          | datagram d => simp only; split <;> exact .inl rfl
          | again => exact .inl rfl
          | aborted => exact .inr (.inl rfl)
          | error => exact .inr (.inr rfl)
  exact key es (started c) (.inl rfl)

/-- C41: while the socket keeps working, the handlers get, in order of arrival and once each, exactly the
datagrams (cut to the buffer size) whose first byte belongs to a registered handler. -/
theorem C41_delivered_in_order (c : Ctx) (es : List Ev)
    (hctx : ∀ e ∈ es, ∀ c', e ≠ .setCtx c')
    (hok : ∀ e ∈ es, e ≠ .waitFailed ∧ ∀ m, e ≠ .waitOk m .aborted ∧ e ≠ .waitOk m .error) :
    (run (started c) es).delivered =
      (arrived es).filterMap (fun d => (handlePacket c (d.take 1500)).map (fun h => (h, d.take 1500))) := by
  have key : ∀ (es : List Ev) (s : St), s.waiting = true → s.ctx = c →
      (∀ e ∈ es, ∀ c', e ≠ .setCtx c') →
      (∀ e ∈ es, e ≠ .waitFailed ∧ ∀ m, e ≠ .waitOk m .aborted ∧ e ≠ .waitOk m .error) →
      (run s es).delivered = s.delivered ++
        (arrived es).filterMap (fun d => (handlePacket c (d.take 1500)).map (fun h => (h, d.take 1500))) := by
    intro es
    induction es with
    | nil => intro s _ _ _ _; simp [run, arrived]
    | cons e es ih =>
      intro s hw hc h1 h2
      have h1' : ∀ e ∈ es, ∀ c', e ≠ .setCtx c' := fun e he => h1 e (List.mem_cons_of_mem _ he)
      have h2' := fun e he => h2 e (List.mem_cons_of_mem _ he)
      obtain ⟨h3, h4⟩ := h2 e (List.mem_cons_self ..)
      have hrun : run s (e :: es) = run (step s e) es := rfl
      rw [hrun]
      cases e with
      | setCtx c' => exact absurd rfl (h1 _ (List.mem_cons_self ..) c')
      | waitFailed => exact absurd rfl h3
      | waitOk memory r =>
        cases memory with
        | false =>
          have hs : step s (.waitOk false r) = { s with waiting := true } := by simp [step, hw]
          rw [hs, ih { s with waiting := true } rfl hc h1' h2']
          rfl
        | true =>
          cases r with
          | again =>
            have hs : step s (.waitOk true .again) = { s with waiting := true } := by simp [step, hw]
            rw [hs, ih { s with waiting := true } rfl hc h1' h2']
            rfl
          | aborted => exact absurd rfl (h4 true).1
          | error => exact absurd rfl (h4 true).2
          | datagram d =>
            cases hp : handlePacket c (d.take 1500) with
            | none =>
              have hs : step s (.waitOk true (.datagram d)) = { s with waiting := true } := by
                simp [step, hw, hc, bufferLength, hp]
              rw [hs, ih { s with waiting := true } rfl hc h1' h2']
              simp [arrived, hp]
            | some h =>
              have hs : step s (.waitOk true (.datagram d)) =
                  { s with waiting := true, delivered := s.delivered ++ [(h, d.take 1500)] } := by
                simp [step, hw, hc, bufferLength, hp]
              rw [hs, ih { s with waiting := true, delivered := s.delivered ++ [(h, d.take 1500)] } rfl hc h1' h2']
              simp [arrived, hp]
  have := key es (started c) rfl rfl hctx hok
  rw [this]
  simp [started]

example : (run (started ⟨true, true, true, true⟩) [.waitOk true (.datagram [0, 1]), .waitOk true .again,
    .waitOk false (.datagram [240]), .waitOk true (.datagram []), .waitOk true (.datagram [241, 7])]).delivered =
    [(.stun, [0, 1]), (.rendezvous, [241, 7])] := by decide +kernel

end Verif.Core.Dispatch
