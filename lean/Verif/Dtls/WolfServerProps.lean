import Verif.Dtls.WolfServerLemmas

/-!
# The secure session of a client connection, with wolfSSL — properties

What `Dtls/ServerProps` says about the session with mbed TLS.
-/

namespace Verif.Dtls.WolfServer

open Spec

/-- C121: every message which the session accepted is reported at most once, in the order in which they were accepted; the
messages which are not reported wait. -/
theorem C121_server_once (ops : List Op) :
    (∀ m, reports ops m ≤ 1) ∧ (∀ m e, Reported ops m e → m ∈ accepted ops) ∧
    ∃ waiting, (run ops).s.answers.map (·.1) ++ waiting = accepted ops := by
  have h := Server.C93_once (trs ops)
  unfold Server.Spec.reports Server.Spec.Reported Server.Spec.accepted at h
  unfold reports Reported accepted
  rw [run_s]; exact h

/-- C121: the messages which TLS took are those which were reported with success, in the order in which they were
accepted. -/
theorem C121_server_order (ops : List Op) :
    (∀ m, m ∈ (run ops).s.wire ↔ Reported ops m .ok) ∧ (run ops).s.wire.Pairwise (· < ·) := by
  have h := Server.C93_order (trs ops)
  unfold Server.Spec.Reported at h
  unfold Reported
  rw [run_s]; exact h

/-- C121: if every message makes a packet and the session does not end under way, then after finitely many rounds of the socket
and the event queue every message is reported. -/
theorem C121_server_all_partial (ops : List Op) (hc : Calm ops) (hl : Lossless ops) (snd : List Server.Snd) (ok : Bool)
    (hw : .sent ∈ snd) :
    ∃ n, ∀ m ∈ accepted ops, ∃ e, Reported (ops ++ (List.replicate n (round snd ok)).flatten) m e := by
  obtain ⟨n, h⟩ := Server.C93_all_partial (trs ops) (calm_trs hc) (lossless_trs hl) (wr snd ok) hw
  refine ⟨n, ?_⟩
  unfold accepted Reported
  rw [run_s, run_rounds]
  exact h

/-- C121: if the session does not end while a packet is on its way, then it is freed exactly when the connection ends, once,
and neither is used afterwards; in any case it is not freed while a packet is with the socket. -/
theorem C121_server_freed_partial (ops : List Op) :
    (run ops).s.early = false ∧
    (Calm ops → (run ops).s.bad = false ∧ (run ops).s.freed = (if (run ops).s.owner then 0 else 1)) := by
  rw [run_s]
  exact ⟨Server.C94_not_early _, fun h => Server.C94_freed_once_partial _ (calm_trs h)⟩

/-- C121: after the connection was closed, it ends after finitely many rounds of the socket and the event queue. -/
theorem C121_server_close_partial (ops : List Op) (hc : Calm ops) (hl : Lossless ops) (l : List Server.Snd)
    (hm : .close l ∈ ops) (snd : List Server.Snd) (ok : Bool) (hw : .sent ∈ snd) :
    ∃ n, (run (ops ++ (List.replicate n (round snd ok)).flatten)).s.owner = false ∧
      (run (ops ++ (List.replicate n (round snd ok)).flatten)).s.freed = 1 := by
  have hm' : Server.Op.close l ∈ trs ops := by
    obtain ⟨a, b, he⟩ := List.append_of_mem hm
    rw [he, trs_append]
    refine List.mem_append_right _ ?_
    show _ ∈ tr _ _ ++ _
    exact List.mem_append_left _ (by simp [tr])
  obtain ⟨n, h⟩ := Server.C94_close_ends_partial (trs ops) (calm_trs hc) (lossless_trs hl) l hm' (wr snd ok) hw
  refine ⟨n, ?_⟩
  rw [run_rounds]
  exact h

/-- C121 is violated: a client whose handshake is refused with an alert leaves a session which is never freed. -/
theorem C121_server_leak_violated (more : List Op) :
    (run ([.packet ⟨[.sent], .ended⟩] ++ more)).s.owner = false ∧
    (run ([.packet ⟨[.sent], .ended⟩] ++ more)).s.freed = 0 := by
  rw [run_s, trs_append]
  exact Server.C94_leak_violated _

/-- C121 is violated: if the handshake fails when it goes on after a packet was sent, the session is used after it was
freed. -/
theorem C121_server_send_callback_violated (t : Bool) (l : List Server.Snd) (h : .sent ∉ l) :
    let ops : List Op := [.packet ⟨[.sent], .wantRead t⟩, .udpDone, .sent ⟨l, .ended⟩]
    (run ops).s.freed = 1 ∧ (run ops).s.bad = true := by
  intro ops
  rw [run_s]
  exact Server.C94_send_callback_violated l h

/-- C121: the timer of the handshake is never set while the session is closing. -/
theorem C121_server_timer (ops : List Op) (h : (run ops).timer = true) : (run ops).s.phase ≠ .closing :=
  (run_from ops St.init (fun h => (by cases h))).1 h

/-! The hypotheses are met by histories in which something happens. -/

/-- A handshake with a retransmission, two messages, and a close while a packet is on its way. -/
def ordinary : List Op :=
  [.packet ⟨[.sent], .wantRead true⟩, .udpDone, .sent ⟨[], .wantRead true⟩, .timer [.sent] (.again true), .udpDone,
   .sent ⟨[], .wantRead true⟩, .packet ⟨[], .ok [.send]⟩, .send, .runSend [.sent] true, .close [.sent]]

theorem calm_of_no_end (ops : List Op)
    (h : ∀ op ∈ ops, match op with
      | .kill => False
      | .packet r => r.ret ≠ .ended
      | .timer _ t => t ≠ .failed
      | .sent r => r.ret = .wantRead true
      | _ => True) : Calm ops := by
  intro b op a he
  have hm : op ∈ ops := by rw [he]; simp
  have := h op hm
  cases op with
  | kill => exact this.elim
  | packet r => exact fun hx => absurd hx this
  | timer snd t => exact fun hx => absurd hx this
  | sent r =>
    have hr : r.ret = .wantRead true := this
    exact ⟨fun hx => (by rw [hr] at hx; cases hx), fun _ _ hx => (by rw [hr] at hx; cases hx)⟩
  | _ => trivial

example : Calm ordinary := calm_of_no_end _ (by unfold ordinary; simp)
example : Lossless ordinary := by unfold Lossless ordinary; simp
example : Op.close [.sent] ∈ ordinary ∧ accepted ordinary = [0, 1] ∧ reports ordinary 1 = 0 ∧ OnItsWay ordinary := by decide
example : (run (ordinary ++ round [.sent] true ++ round [.sent] true)).s.freed = 1 := by decide
/-- The timer is set during the handshake and not afterwards. -/
example : (run (ordinary.take 4)).timer = true ∧ (run (ordinary.take 7)).timer = false := by decide

end Verif.Dtls.WolfServer
