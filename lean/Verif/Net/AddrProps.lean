import Verif.Net.AddrLemmas

/-!
# C128: packets and connections go to the host which is meant, answers go back to the sender, and a passing error does not end reception

Violated in two ways: the link of an IPv6 sender is forgotten, and memory or interruption errors of `recvfrom` end reception for
good.
-/

namespace Verif.Net.Addr

/-- A packet is given to the system with the host and the port which the endpoint means, in an address of the family of the socket. -/
theorem C128_send (impl : Impl) (sock : Family) (ep : Endpoint) (sys : Option Errno) (a : Sockaddr) (ec : SendEc)
    (h : send impl sock ep sys = (some a, ec)) : Spec.sockaddr a = Spec.endpoint ep ∧ a.family = sock := by
  unfold send at h
  cases hs : sendTo sock ep with
  | none => rw [hs] at h; cases h
  | some b =>
    rw [hs] at h
    cases h
    unfold sendTo at hs
    cases hi : sendIp sock ep.ip with
    | none => rw [hi] at hs; cases hs
    | some ip =>
      rw [hi] at hs
      cases hs
      have := sendIp_means hi ep.port
      refine ⟨(sockaddr_means ip ep.port).trans this.1, ?_⟩
      rw [← this.2]
      cases ip <;> rfl

/-- The packet is not given to the system exactly when the socket is for IPv4 only and the endpoint does not mean an IPv4 host; the
sender is then told that it failed. -/
theorem C128_refused (impl : Impl) (sock : Family) (ep : Endpoint) (sys : Option Errno) :
    ((send impl sock ep sys).1 = none ↔ sock = .v4 ∧ (Spec.endpoint ep).1.isV4 = false) ∧
      ((send impl sock ep sys).1 = none → (send impl sock ep sys).2 ≠ .ok) := by
  have hn : (send impl sock ep sys).1 = none ↔ sendIp sock ep.ip = none := by
    unfold send sendTo
    cases sendIp sock ep.ip <;> simp
  refine ⟨?_, ?_⟩
  · rw [hn, sendIp_none]
    obtain ⟨ip, port⟩ := ep
    refine ⟨fun h => ⟨h.1, h.2 port⟩, fun h => ⟨h.1, fun p => ?_⟩⟩
    have h2 := h.2
    cases ip <;> exact h2
  · rw [hn]
    intro h
    unfold send sendTo
    rw [h]
    cases impl <;> exact nofun

/-- The sender is told that a packet was sent exactly when the system took it, or dropped it for want of room (`EAGAIN`, libevent
only). -/
theorem C128_told (impl : Impl) (sock : Family) (ep : Endpoint) (sys : Option Errno) :
    (send impl sock ep sys).2 = .ok ↔
      (send impl sock ep sys).1.isSome = true ∧ (sys = none ∨ impl = .libevent ∧ sys = some .again) := by
  unfold send
  cases sendTo sock ep with
  | none => cases impl <;> simp
  | some a =>
    cases sys with
    | none => simp
    | some e => cases impl <;> simp <;> split <;> simp_all

example : (send .libevent .v6 { ip := .v4 10 0 0 1, port := 5 } (some .again)).2 = .ok ∧
    (send .libevent .v6 { ip := .v4 10 0 0 1, port := 5 } (some .noBufs)).2 = .failedToSend := by decide

/-- A TCP connection is made to the host and port which are asked for. -/
theorem C128_connect (ip : Ip) (port : UInt16) : Spec.sockaddr (connectTo ip port) = Spec.endpoint { ip, port } :=
  sockaddr_means ip port

/-- The endpoint which is reported for a packet means its sender, and an answer to it goes to the sender, if the sender is not
reached by way of a link of its own (scope 0). -/
theorem C128_reply_partial (impl : Impl) (a : Sockaddr) (sys : Option Errno) (h : (Spec.sockaddr a).1.link = 0) :
    Spec.endpoint (recvFrom a) = Spec.sockaddr a ∧
      ∃ b, (send impl a.family (recvFrom a) sys).1 = some b ∧ Spec.sockaddr b = Spec.sockaddr a := by
  have he : Spec.endpoint (recvFrom a) = Spec.sockaddr a := by
    cases a with
    | in4 p v =>
      show (Spec.Host.ipv4 _, (ntohs p).toNat) = (Spec.Host.ipv4 _, _)
      rw [ntohs_num]
      have : v.toList = [v[0], v[1], v[2], v[3]] := congrArg Vector.toList (four v).symm
      rw [this]; rfl
    | in6 p v s =>
      show (Spec.hostOf6 _ 0, (ntohs p).toNat) = (Spec.hostOf6 _ _, _)
      rw [ntohs_num]
      cases hm : isMapped v
      · have hl : s.toNat = 0 := by
          have h' : (Spec.hostOf6 (v.toList.map UInt8.toNat) s.toNat).link = 0 := h
          rw [host_of_not_mapped hm] at h'
          exact h'
        rw [hl]
      · rw [host_of_mapped hm, host_of_mapped hm]
  refine ⟨he, ?_⟩
  have hs : sendTo a.family (recvFrom a) ≠ none := by
    cases a <;> simp [Sockaddr.family, recvFrom, sendTo, sendIp, Ip.family]
  cases hb : sendTo a.family (recvFrom a) with
  | none => exact absurd hb hs
  | some b =>
    have hsend : send impl a.family (recvFrom a) sys = (some b, (send impl a.family (recvFrom a) sys).2) := by
      refine Prod.ext ?_ rfl
      unfold send
      rw [hb]
    exact ⟨b, by rw [hsend], (C128_send impl _ _ sys b _ hsend).1.trans he⟩

/-- Violated: for a sender with a link-local IPv6 address, which has a link, no socket sends the answer to the sender. -/
theorem C128_reply_violated (impl : Impl) (a : Sockaddr) (h : (Spec.sockaddr a).1.link ≠ 0) :
    ∀ sock sys b ec, send impl sock (recvFrom a) sys = (some b, ec) → Spec.sockaddr b ≠ Spec.sockaddr a := by
  intro sock sys b ec hs
  have hb := (C128_send impl sock _ sys b ec hs).1
  rw [hb]
  intro hc
  apply h
  rw [← hc]
  cases a with
  | in4 p v => rfl
  | in6 p v s =>
    show (Spec.hostOf6 _ 0).link = 0
    cases hm : isMapped v
    · rw [host_of_not_mapped hm]; rfl
    · rw [host_of_mapped hm]; rfl

/-- Violated: two hosts with the same link-local address on two links are one peer for the device. -/
theorem C128_peers_violated (p : UInt8 × UInt8) (v : Vector UInt8 16) (s t : UInt32) (hv : isMapped v = false) (hst : s ≠ t) :
    Spec.sockaddr (.in6 p v s) ≠ Spec.sockaddr (.in6 p v t) ∧ recvFrom (.in6 p v s) = recvFrom (.in6 p v t) := by
  refine ⟨?_, rfl⟩
  intro hc
  have h1 : Spec.hostOf6 (v.toList.map UInt8.toNat) s.toNat = Spec.hostOf6 (v.toList.map UInt8.toNat) t.toNat :=
    congrArg Prod.fst hc
  rw [host_of_not_mapped hv, host_of_not_mapped hv] at h1
  injection h1 with _ h2
  exact hst (UInt32.toNat_inj.mp h2)

/-- A socket which has nothing to give, or on libevent has a connectivity error, goes on to wait for packets. -/
theorem C128_transient_partial (impl : Impl) (s : Verif.Core.Dispatch.St) (e : Errno) (m : Bool) (hw : s.waiting = true)
    (he : e = .again ∨ impl = .libevent ∧ Spec.transient e = true ∧ e ≠ .intr ∧ e ≠ .noBufs ∧ e ≠ .noMem) :
    Verif.Core.Dispatch.step s (.waitOk m (recvResult impl (.failed e))) = s := by
  obtain ⟨c, w, f, a, d⟩ := s
  have hw : w = true := hw
  subst hw
  rcases he with rfl | ⟨rfl, ht, h1, h2, h3⟩
  · cases impl <;> cases m <;> rfl
  · cases m
    · rfl
    · cases e <;> first | rfl | exact absurd rfl h1 | exact absurd rfl h2 | exact absurd rfl h3 | exact nomatch ht

/-- Violated: when `recvfrom` fails once for lack of memory or because it is interrupted, the device receives no packet any more,
whatever happens afterwards. On select this holds for connectivity errors as well. -/
theorem C128_transient_violated (impl : Impl) (s : Verif.Core.Dispatch.St) (hw : s.waiting = true) (e : Errno)
    (he : e = .intr ∨ e = .noBufs ∨ e = .noMem ∨ impl = .select ∧ e ≠ .again) (es : List Verif.Core.Dispatch.Ev) :
    let t := Verif.Core.Dispatch.run (Verif.Core.Dispatch.step s (.waitOk true (recvResult impl (.failed e)))) es
    t.waiting = false ∧ t.failed = true ∧ t.delivered = s.delivered := by
  have hr : recvResult impl (.failed e) = .error := by
    rcases he with rfl | rfl | rfl | ⟨rfl, h⟩
    · cases impl <;> rfl
    · cases impl <;> rfl
    · cases impl <;> rfl
    · exact if_neg h
  rw [hr]
  have h0 : Verif.Core.Dispatch.step s (.waitOk true .error) = { s with waiting := false, failed := true } := by
    simp [Verif.Core.Dispatch.step, hw]
  rw [h0]
  have : ∀ (es : List Verif.Core.Dispatch.Ev) (t : Verif.Core.Dispatch.St), t.waiting = false → t.failed = true →
      (Verif.Core.Dispatch.run t es).waiting = false ∧ (Verif.Core.Dispatch.run t es).failed = true ∧
        (Verif.Core.Dispatch.run t es).delivered = t.delivered := by
    intro es
    induction es with
    | nil => exact fun t h1 h2 => ⟨h1, h2, rfl⟩
    | cons e es ih =>
      intro t h1 h2
      show (Verif.Core.Dispatch.run (Verif.Core.Dispatch.step t e) es).waiting = false ∧ _ ∧ _
      have hs : Verif.Core.Dispatch.step t e = t ∨ ∃ c, Verif.Core.Dispatch.step t e = { t with ctx := c } := by
        cases e with
        | setCtx c => exact Or.inr ⟨c, rfl⟩
        | waitFailed => exact Or.inl (by simp [Verif.Core.Dispatch.step, h1])
        | waitOk m r => exact Or.inl (by simp [Verif.Core.Dispatch.step, h1])
      rcases hs with hs | ⟨c, hs⟩
      · have := ih t h1 h2
        rw [← hs] at this
        simpa [Verif.Core.Dispatch.run, hs] using this
      · have := ih { t with ctx := c } h1 h2
        simpa [Verif.Core.Dispatch.run, hs] using this
  exact this es _ rfl rfl

/-! Cases which meet the hypotheses. -/

/-- 192.168.1.7:5592 on a socket for both families. -/
example : send .libevent .v6 { ip := .v4 192 168 1 7, port := 5592 } none =
    (some (.in6 (21, 216) #v[0, 0, 0, 0, 0, 0, 0, 0, 0, 0, 255, 255, 192, 168, 1, 7] 0), .ok) := by decide

/-- A mapped address on a socket for IPv4, and an IPv6 address there. -/
example : send .select .v4 { ip := .v6 #v[0, 0, 0, 0, 0, 0, 0, 0, 0, 0, 255, 255, 10, 0, 0, 1], port := 443 } (some .again) =
      (some (.in4 (1, 187) #v[10, 0, 0, 1]), .failedToSend) ∧
    send .select .v4 { ip := .v6 #v[32, 1, 13, 184, 0, 0, 0, 0, 0, 0, 0, 0, 0, 0, 0, 1], port := 443 } none =
      (none, .failed) := by decide

/-- A sender without a link and a sender fe80::1 on link 2. -/
example : (Spec.sockaddr (.in6 (1, 187) #v[0, 0, 0, 0, 0, 0, 0, 0, 0, 0, 255, 255, 10, 0, 0, 1] 0)).1.link = 0 ∧
    (Spec.sockaddr (.in6 (1, 187) #v[254, 128, 0, 0, 0, 0, 0, 0, 0, 0, 0, 0, 0, 0, 0, 1] 2)).1.link ≠ 0 ∧
    isMapped #v[254, 128, 0, 0, 0, 0, 0, 0, 0, 0, 0, 0, 0, 0, 0, 1] = false := by decide

example : (Verif.Core.Dispatch.started { cliConn := true }).waiting = true := rfl

end Verif.Net.Addr
