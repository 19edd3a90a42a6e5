import Verif.Dtls.WolfClientLemmas

/-!
# The secure session with the basestation, with wolfSSL — properties

What `Dtls/ClientProps` says about the session with mbed TLS.
-/

namespace Verif.Dtls.WolfClient

open Spec

/-- C121: every message which the session accepted is reported at most once, in the order in which they were accepted; the
messages which are not reported wait. -/
theorem C121_client_once (ops : List Op) :
    (∀ m, reports ops m ≤ 1) ∧ (∀ m e, Reported ops m e → m ∈ accepted ops) ∧
    ∃ waiting, (run ops).s.answers.map (·.1) ++ waiting = accepted ops := by
  obtain ⟨k, e⟩ := run_s ops
  have h := Client.C95_once (trs ops)
  unfold Client.Spec.reports Client.Spec.Reported Client.Spec.accepted at h
  unfold reports Reported accepted
  rw [e]; exact h

/-- C121: as long as a message waits, something is to come: the event which writes the next message, or the completion of a
packet which is on its way. -/
theorem C121_client_pending (ops : List Op) (m : Nat) (hm : m ∈ accepted ops) (hn : reports ops m = 0) :
    (run ops).s.ev = true ∨ OnItsWay ops := by
  obtain ⟨k, e⟩ := run_s ops
  have h := Client.C95_pending (trs ops) m
  unfold Client.Spec.reports Client.Spec.OnItsWay Client.Spec.accepted at h
  unfold reports at hn
  unfold accepted at hm
  unfold OnItsWay
  rw [e] at hm hn ⊢
  exact h hm hn

/-- C121: after finitely many rounds of the socket and the event queue every message is reported, whatever happened to the
session. -/
theorem C121_client_all (ops : List Op) (snd : List Bool) (ret : WriteRet) :
    ∃ n, ∀ m ∈ accepted ops, ∃ e, Reported (ops ++ (List.replicate n (round snd ret)).flatten) m e := by
  obtain ⟨n, h⟩ := Client.C95_all (trs ops) (wr snd ret)
  refine ⟨n, ?_⟩
  obtain ⟨k, e⟩ := run_s ops
  obtain ⟨k', e'⟩ := run_s (ops ++ (List.replicate n (round snd ret)).flatten)
  rw [trs_append, trFrom_rounds] at e'
  unfold accepted Reported
  rw [e, e']
  exact h

/-- C121: the session is freed once, as soon as the attacher has given it up and no packet of it is on its way, and it is never
used afterwards. -/
theorem C121_client_freed_once (ops : List Op) :
    (run ops).s.bad = false ∧ (run ops).s.freed = if Held ops ∨ OnItsWay ops then 0 else 1 := by
  obtain ⟨k, e⟩ := run_s ops
  have h := Client.C95_freed_once (trs ops)
  refine ⟨by rw [e]; exact h.1, ?_⟩
  have hh : Held ops ↔ Client.Spec.Held (trs ops) := by unfold Held Client.Spec.Held; rw [e]
  have ho : OnItsWay ops ↔ Client.Spec.OnItsWay (trs ops) := by unfold OnItsWay Client.Spec.OnItsWay; rw [e]
  have hf : (run ops).s.freed = (Client.run (trs ops)).freed := by rw [e]
  rw [hf, h.2]
  simp only [hh, ho]

/-- C121: a session which was closed, or which the attacher gave up, is gone as soon as the packet which may be on its way is
completed. -/
theorem C121_client_ends (ops : List Op) (h : (∃ l, .close l ∈ ops) ∨ ¬ Held ops) (r : Tls) :
    ¬ Held (ops ++ [.udpDone, .sent r]) ∧ (run (ops ++ [.udpDone, .sent r])).s.freed = 1 := by
  have h' : (∃ l, .close l ∈ trs ops) ∨ ¬ Client.Spec.Held (trs ops) := by
    rcases h with ⟨l, hm⟩ | h
    · left
      refine ⟨l, ?_⟩
      obtain ⟨a, b, he⟩ := List.append_of_mem hm
      rw [he, trs_append]
      refine List.mem_append_right _ ?_
      show _ ∈ tr _ _ ++ _
      exact List.mem_append_left _ (by simp [tr])
    · right
      obtain ⟨k, e⟩ := run_s ops
      unfold Held at h
      rw [e] at h
      exact h
  obtain ⟨k, e⟩ := run_s (ops ++ [.udpDone, .sent r])
  have ht : trs (ops ++ [.udpDone, .sent r]) = trs ops ++ [.udpDone, .sent (tls r)] := by rw [trs_append]; rfl
  rw [ht] at e
  unfold Held
  rw [e]
  exact Client.C95_ends (trs ops) h' (tls r)

/-- C121: the messages which wolfSSL took were reported with success, and it took them in the order in which they were
accepted. If `wolfSSL_write` never returns zero then all messages which were reported with success were taken. Missing: that
this holds when it does. -/
theorem C121_client_order_partial (ops : List Op) :
    (∀ m ∈ (run ops).taken, Reported ops m .ok) ∧ (run ops).taken.Pairwise (· < ·) ∧
    ((∀ snd, Op.runSend snd .zero ∉ ops) → ∀ m, Reported ops m .ok → m ∈ (run ops).taken) := by
  obtain ⟨k, e⟩ := run_s ops
  have h := Client.C95_order (trs ops)
  obtain ⟨h1, h2⟩ := taken_run ops
  have hw : (run ops).s.wire = (Client.run (trs ops)).wire := by rw [e]
  have ha : (run ops).s.answers = (Client.run (trs ops)).answers := by rw [e]
  unfold Client.Spec.Reported at h
  unfold Reported
  rw [hw] at h1 h2
  rw [ha]
  exact ⟨fun m hm => (h.1 m).1 (h1.subset hm), h.2.sublist h1, fun hz m hm => by rw [h2 hz]; exact (h.1 m).2 hm⟩

/-- C121 is violated: a message for which `wolfSSL_write` returned zero is reported with success, although wolfSSL did not take
it, and no later event brings it to wolfSSL. -/
theorem C121_client_zero_violated (more : List Op) :
    let ops : List Op := [.connect ⟨[], .ok []⟩, .send, .runSend [] .zero]
    Reported ops 0 .ok ∧ 0 ∉ (run (ops ++ more)).taken := by
  intro ops
  refine ⟨by decide, ?_⟩
  induction more using Client.snoc_ind with
  | h0 => decide
  | hs more op ih =>
    have e : run (ops ++ (more ++ [op])) = step (run (ops ++ more)) op := by
      unfold run; rw [← List.append_assoc, List.foldl_append]; rfl
    rw [e]
    by_cases hx : ∃ snd r, op = .runSend snd r
    · obtain ⟨snd, r, rfl⟩ := hx
      obtain ⟨k', he'⟩ := run_s (ops ++ (more ++ [.runSend snd r]))
      obtain ⟨l, t1, t2⟩ := runSend_taken (run (ops ++ more)) snd r
      intro hm
      rw [t1] at hm
      rcases List.mem_append.1 hm with hm | hm
      · exact ih hm
      · -- message 0 is on the wire already
        have hr : r = .positive := Decidable.byContradiction fun hr => by
          rw [if_neg hr] at hm; cases hm
        rw [hr] at hm t2
        have hp := (Client.C95_order (trs (ops ++ (more ++ [.runSend snd r])))).2
        have hw : (run (ops ++ (more ++ [.runSend snd r]))).s.wire =
            (Client.run (trs (ops ++ (more ++ [.runSend snd r])))).wire := by rw [he']
        rw [← hw, e, hr, t2] at hp
        have h0 : 0 ∈ (run (ops ++ more)).s.wire := wire_keep ops more (by decide)
        have := (List.pairwise_append.1 hp).2.2 0 h0 0 (by
          rw [if_neg (by simp)]; rw [if_pos rfl] at hm; exact hm)
        exact absurd this (Nat.lt_irrefl 0)
    · rw [(step_taken _ op (fun snd r he => hx ⟨snd, r, he⟩)).1]; exact ih

/-- C121: as long as the attacher is there, it hears of no end while it has the session, and of one when it lost it; it may hear
of it twice. Missing: that it hears of it once. -/
theorem C121_client_heard_partial (ops : List Op) (h : .kill ∉ ops) :
    (Held ops → (run ops).s.ends = 0) ∧ (¬ Held ops → 1 ≤ (run ops).s.ends ∧ (run ops).s.ends ≤ 2) := by
  have hh := (hear_run ops h).1
  refine ⟨hh.quiet, fun hx => ?_⟩
  have hx' : (run ops).s.held = false := by
    unfold Held at hx
    cases he : (run ops).s.held
    · rfl
    · exact absurd he hx
  refine ⟨hh.some hx', ?_⟩
  have := hh.most
  have hf := (C121_client_freed_once ops).2
  have : (run ops).s.freed ≤ 1 := by rw [hf]; split <;> omega
  omega

/-- C121 is violated: if the handshake fails while a packet is on its way, the attacher hears of it twice. -/
theorem C121_client_twice_violated (t : Bool) (r r' : Tls) (h : r.ret = .ended) (hs : r.snd = []) :
    let ops : List Op := [.connect ⟨[true], .wantRead t⟩, .packet r, .udpDone, .sent r']
    (run ops).s.ends = 2 := by
  obtain ⟨snd, ret⟩ := r
  dsimp only at h hs
  subst h hs
  cases t <;> rfl

/-- C121 is violated: the timer of the handshake survives the end of the attacher while a packet is on its way, and the attacher
is told of an end after it was freed. -/
theorem C121_client_dead_violated (snd : List Bool) :
    let ops : List Op := [.connect ⟨[true], .wantRead true⟩, .kill, .timer snd .failed]
    ¬ Held (ops.take 2) ∧ (run (ops.take 2)).s.ends = 0 ∧ (run ops).s.ends = 1 := by
  intro ops
  refine ⟨fun h => Bool.noConfusion h, rfl, ?_⟩
  have e : run ops = step (run (ops.take 2)) (.timer snd .failed) := rfl
  rw [e, step_late _ snd .failed (top_run _) (by rfl) (by rfl) (by rfl)]
  rfl

/-! The hypotheses are met by histories in which something happens. -/

/-- A handshake with a retransmission, two messages, and a close while a packet is on its way. -/
def ordinary : List Op :=
  [.connect ⟨[true], .wantRead true⟩, .udpDone, .sent ⟨[], .wantRead true⟩, .timer [true] (.again true), .udpDone,
   .sent ⟨[], .wantRead true⟩, .packet ⟨[], .ok [.send]⟩, .send, .runSend [true] .positive, .close [true]]

example : .kill ∉ ordinary ∧ (∀ snd, Op.runSend snd .zero ∉ ordinary) := by unfold ordinary; simp
example : accepted ordinary = [0, 1] ∧ reports ordinary 1 = 0 ∧ OnItsWay ordinary ∧ (run ordinary).taken = [0] ∧
    Held ordinary := by decide
example : Op.close [true] ∈ ordinary := by decide
example : Reported (ordinary ++ [.udpDone, .sent ⟨[], .wantRead false⟩]) 1 .closing ∧
    (run (ordinary ++ [.udpDone, .sent ⟨[], .wantRead false⟩])).s.ends = 1 := by decide
/-- The timer is set during the handshake and not afterwards. -/
example : (run (ordinary.take 4)).timer = true ∧ (run (ordinary.take 7)).timer = false := by decide

end Verif.Dtls.WolfClient
