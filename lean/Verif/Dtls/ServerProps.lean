import Verif.Dtls.ServerLemmas

/-!
# The secure session of a client connection — properties
-/

namespace Verif.Dtls.Server

open Spec

/-- C93: every message which the session accepted is reported at most once, in the order in which they were accepted; the
messages which are not reported wait, and come after those which were reported. -/
theorem C93_once (ops : List Op) :
    (∀ m, reports ops m ≤ 1) ∧ (∀ m e, Reported ops m e → m ∈ accepted ops) ∧
    ∃ waiting, (run ops).answers.map (·.1) ++ waiting = accepted ops := by
  have h := (msgs_run ops).all
  have hn : ((run ops).answers.map (·.1)).Nodup := by
    have : ((run ops).answers.map (·.1) ++ (run ops).queue).Nodup := by rw [h]; exact List.nodup_range
    exact (List.nodup_append.1 this).1
  refine ⟨?_, ?_, _, h⟩
  · intro m
    have := List.nodup_iff_count.1 hn m
    unfold reports
    rw [List.count_eq_countP, List.countP_map] at this
    exact this
  · intro m e he
    unfold accepted
    rw [← h]
    exact List.mem_append_left _ (List.mem_map.2 ⟨_, he, rfl⟩)

/-- C93: the messages which TLS took are those which were reported with success, in the order in which they were
accepted. -/
theorem C93_order (ops : List Op) :
    (∀ m, m ∈ (run ops).wire ↔ Reported ops m .ok) ∧ (run ops).wire.Pairwise (· < ·) := by
  have h := msgs_run ops
  refine ⟨?_, ?_⟩
  · intro m
    rw [h.wire]
    constructor
    · intro hm
      obtain ⟨o, ho, rfl⟩ := List.mem_map.1 hm
      obtain ⟨h1, h2⟩ := List.mem_filter.1 ho
      have : o.2 = .ok := by simpa using h2
      unfold Reported
      rw [← this]; exact h1
    · intro hm
      exact List.mem_map.2 ⟨(m, .ok), List.mem_filter.2 ⟨hm, by simp⟩, rfl⟩
  · rw [h.wire]
    have h1 : ((run ops).answers.map (·.1) ++ (run ops).queue).Pairwise (· < ·) := by
      rw [h.all]; exact List.pairwise_lt_range
    have h2 := (List.pairwise_append.1 h1).1
    exact h2.sublist (List.Sublist.map _ List.filter_sublist)

/-- C93: if every message makes a packet and the session does not end under way, then after finitely many rounds of the socket
and the event queue every message is reported. -/
theorem C93_all_partial (ops : List Op) (hc : Calm ops) (hl : Lossless ops) (w : Write) (hw : .sent ∈ w.snd) :
    ∃ n, ∀ m ∈ accepted ops, ∃ e, Reported (ops ++ (List.replicate n (round w)).flatten) m e := by
  have key : ∀ n ops, Calm ops → Lossless ops → (run ops).queue.length = n →
      ∃ n, (run (ops ++ (List.replicate n (round w)).flatten)).queue = [] ∧
        (run (ops ++ (List.replicate n (round w)).flatten)).next = (run ops).next := by
    intro n
    induction n with
    | zero => intro ops _ _ hq; exact ⟨0, by simpa using hq, by simp⟩
    | succ n ih =>
      intro ops hc hl hq
      have ht := top_run ops hc
      have hlv := live_run ops hc hl
      obtain ⟨m, q, hmq⟩ : ∃ m q, (run ops).queue = m :: q := by
        cases h : (run ops).queue with
        | nil => rw [h] at hq; cases hq
        | cons m q => exact ⟨m, q, rfl⟩
      have ho : (run ops).owner = true := by
        rcases Bool.eq_false_or_eq_true (run ops).owner with h | h
        · exact h
        · have hd : (run ops).destroyed = true := by
            have := ht.1.dead; rw [h] at this; simpa using this.symm
          have hf := ht.1.once; rw [hd, ht.2] at hf
          have := (ht.1.rest hf).2; rw [hmq] at this; cases this
      have hp := round_pop w ht hlv ho hmq
      rw [← run_append] at hp
      obtain ⟨k, hk⟩ := ih (ops ++ round w) (calm_round hc w) (lossless_round hl w hw) (by
        rw [hp.1]; rw [hmq] at hq; simpa using hq)
      refine ⟨k + 1, ?_⟩
      rw [List.replicate_succ, List.flatten_cons, ← List.append_assoc]
      exact ⟨hk.1, hk.2.trans hp.2.1⟩
  obtain ⟨n, h1, h2⟩ := key _ ops hc hl rfl
  refine ⟨n, ?_⟩
  intro m hm
  have h := (msgs_run (ops ++ (List.replicate n (round w)).flatten)).all
  rw [h1, List.append_nil, h2] at h
  unfold accepted at hm
  rw [← h] at hm
  obtain ⟨o, ho, rfl⟩ := List.mem_map.1 hm
  exact ⟨o.2, ho⟩

/-- C93: as long as a message waits, something is to come: the event which writes the next message, or the completion of a
packet which is on its way. -/
theorem C93_pending_partial (ops : List Op) (hc : Calm ops) (hl : Lossless ops) (m : Nat) (hm : m ∈ accepted ops)
    (hn : reports ops m = 0) : (run ops).ev = true ∨ (run ops).net = .flying ∨ (run ops).net = .done := by
  have ht := top_run ops hc
  have hlv := live_run ops hc hl
  have hq : m ∈ (run ops).queue := by
    unfold accepted at hm
    rw [← (msgs_run ops).all] at hm
    rcases List.mem_append.1 hm with h | h
    · obtain ⟨o, ho, rfl⟩ := List.mem_map.1 h
      exfalso
      unfold reports at hn
      exact List.countP_eq_zero.1 hn o ho (by simp)
    · exact h
  have hne : (run ops).queue ≠ [] := fun h => by rw [h] at hq; cases hq
  have ho : (run ops).owner = true := by
    rcases Bool.eq_false_or_eq_true (run ops).owner with h | h
    · exact h
    · have hd : (run ops).destroyed = true := by
        have := ht.1.dead; rw [h] at this; simpa using this.symm
      have hf := ht.1.once; rw [hd, ht.2] at hf
      exact absurd (ht.1.rest hf).2 hne
  rcases hlv.msgs ho hne with h | h
  · exact Or.inl h
  · exact Or.inr (ht.1.way h).1

/-- A packet was dropped while two messages waited. -/
def dropped : List Op := [.packet ⟨[], .ok []⟩, .send, .send, .runSend ⟨[.noBuffer], .ok⟩]

/-- C93 is violated: if there is no buffer for the packet of a message, the message is reported as sent, and the next one is
left waiting with nothing to come: no event and no packet on its way. -/
theorem C93_stall_violated :
    accepted dropped = [0, 1] ∧ Reported dropped 0 .ok ∧ reports dropped 1 = 0 ∧ (run dropped).ev = false ∧
    (run dropped).net = .idle := by decide

/-- C93 is violated: if the connection is then closed and there is no buffer for the close notify either, neither the message is ever
reported nor is the connection ever closed, until the device is freed. -/
theorem C93_close_violated (more : List Op) (h : .kill ∉ more) :
    reports (dropped ++ [.close [.noBuffer]] ++ more) 1 = 0 ∧ (run (dropped ++ [.close [.noBuffer]] ++ more)).owner = true := by
  have key : run (dropped ++ [.close [.noBuffer]] ++ more) = run (dropped ++ [.close [.noBuffer]]) := by
    induction more using snoc_ind with
    | h0 => rw [List.append_nil]
    | hs more op ih =>
      rw [← List.append_assoc, run_snoc, ih (fun hx => h (by simp [hx]))]
      cases op with
      | kill => exact absurd (by simp) h
      | send => rfl
      | close l => rfl
      | packet r => rfl
      | udpDone => rfl
      | sent r => rfl
      | runSend w => rfl
      | timer r => rfl
  unfold reports
  rw [key]
  decide

/-- C94: if the session does not end while a packet is on its way, then it is freed exactly when the connection ends, once,
and neither is used afterwards. -/
theorem C94_freed_once_partial (ops : List Op) (h : Calm ops) :
    (run ops).bad = false ∧ (run ops).freed = (if (run ops).owner then 0 else 1) := by
  have ht := top_run ops h
  refine ⟨ht.1.good, ?_⟩
  rw [ht.1.once, ht.2, ht.1.dead]
  cases (run ops).destroyed <;> rfl

/-- C94: whatever happens, a session is never freed while a packet of it is with the socket. -/
theorem C94_not_early (ops : List Op) : (run ops).early = false := early_run ops

/-- A session which is destroyed with its connection while a packet is on its way is not freed. -/
example : (run [.packet ⟨[.sent], .want⟩, .kill]).owner = false ∧ (run [.packet ⟨[.sent], .want⟩, .kill]).buf = true ∧
    (run [.packet ⟨[.sent], .want⟩, .kill]).freed = 0 := by decide

/-- C94: after the connection was closed, it ends after finitely many rounds of the socket and the event queue. -/
theorem C94_close_ends_partial (ops : List Op) (hc : Calm ops) (hl : Lossless ops) (l : List Snd) (hm : .close l ∈ ops)
    (w : Write) (hw : .sent ∈ w.snd) :
    ∃ n, (run (ops ++ (List.replicate n (round w)).flatten)).owner = false ∧
      (run (ops ++ (List.replicate n (round w)).flatten)).freed = 1 := by
  have key : ∀ n ops, Calm ops → Lossless ops → .close l ∈ ops → (run ops).queue.length = n →
      ∃ n, (run (ops ++ (List.replicate n (round w)).flatten)).owner = false ∧
        Calm (ops ++ (List.replicate n (round w)).flatten) := by
    intro n
    induction n with
    | zero =>
      intro ops hc hl hm hq
      have hq' : (run ops).queue = [] := List.length_eq_zero_iff.1 hq
      rcases Bool.eq_false_or_eq_true (run ops).owner with ho | ho
      · rcases closing_run ops l hm with hp | hp
        · refine ⟨1, ?_⟩
          rw [List.replicate_one, List.flatten_singleton]
          refine ⟨?_, calm_round hc w⟩
          rw [run_append]
          exact round_end w (top_run ops hc) (live_run ops hc hl) ho hq' hp
        · rw [ho] at hp; cases hp
      · exact ⟨0, by simpa using ho, by simpa using hc⟩
    | succ n ih =>
      intro ops hc hl hm hq
      rcases Bool.eq_false_or_eq_true (run ops).owner with ho | ho
      · obtain ⟨m, q, hmq⟩ : ∃ m q, (run ops).queue = m :: q := by
          cases h : (run ops).queue with
          | nil => rw [h] at hq; cases hq
          | cons m q => exact ⟨m, q, rfl⟩
        have hp := round_pop w (top_run ops hc) (live_run ops hc hl) ho hmq
        rw [← run_append] at hp
        obtain ⟨k, hk⟩ := ih (ops ++ round w) (calm_round hc w) (lossless_round hl w hw) (by simp [hm]) (by
          rw [hp.1]; rw [hmq] at hq; simpa using hq)
        refine ⟨k + 1, ?_⟩
        rw [List.replicate_succ, List.flatten_cons, ← List.append_assoc]
        exact hk
      · exact ⟨0, by simpa using ho, by simpa using hc⟩
  obtain ⟨n, h1, h2⟩ := key _ ops hc hl hm rfl
  refine ⟨n, h1, ?_⟩
  rw [(C94_freed_once_partial _ h2).2, h1]
  rfl

/-- The session was left with a packet whose completion never comes. -/
structure Lost (s : St) : Prop where
  owner : s.owner = false
  buf : s.buf = true
  net : s.net = .lost
  freed : s.freed = 0

theorem lost_step {s : St} (op : Op) (h : Lost s) :
    Lost (step s op) ∧ (step s op).answers = s.answers ∧ (step s op).queue = s.queue := by
  have ho : ¬ s.owner = true := by rw [h.owner]; simp
  have em : ∀ l : List Snd, s.emits l = s := by
    intro l
    induction l with
    | nil => rfl
    | cons r l ih =>
      show (s.emit r).emits l = s
      have : s.emit r = s := by unfold St.emit; rw [if_pos h.buf]
      rw [this]; exact ih
  cases op with
  | send => unfold step; dsimp only; rw [if_neg ho]; exact ⟨h, rfl, rfl⟩
  | close l => unfold step; dsimp only; rw [if_neg ho]; exact ⟨h, rfl, rfl⟩
  | kill => unfold step; dsimp only; rw [if_neg ho]; exact ⟨h, rfl, rfl⟩
  | packet r => unfold step; dsimp only; rw [if_neg ho]; exact ⟨h, rfl, rfl⟩
  | udpDone => unfold step; dsimp only; rw [if_neg (by rw [h.net]; simp)]; exact ⟨h, rfl, rfl⟩
  | sent r => unfold step; dsimp only; rw [if_neg (by rw [h.net]; simp)]; exact ⟨h, rfl, rfl⟩
  | runSend w =>
    unfold step; dsimp only; split
    · unfold St.runSend; dsimp only; rw [if_pos h.buf]; exact ⟨⟨h.owner, h.buf, h.net, h.freed⟩, rfl, rfl⟩
    · exact ⟨h, rfl, rfl⟩
  | timer r =>
    unfold step; dsimp only; rw [if_pos h.freed]
    unfold St.doOne
    split
    · exact ⟨h, rfl, rfl⟩
    · rw [em]
      dsimp only
      split
      · exact ⟨h, rfl, rfl⟩
      · rw [if_neg ho]; exact ⟨⟨h.owner, h.buf, h.net, h.freed⟩, rfl, rfl⟩
      · unfold St.closedEvent; rw [if_neg ho]; exact ⟨⟨h.owner, h.buf, h.net, h.freed⟩, rfl, rfl⟩

theorem lost_run (ops more : List Op) (h : Lost (run ops)) :
    Lost (run (ops ++ more)) ∧ (run (ops ++ more)).answers = (run ops).answers ∧
    (run (ops ++ more)).queue = (run ops).queue := by
  induction more using snoc_ind with
  | h0 => rw [List.append_nil]; exact ⟨h, rfl, rfl⟩
  | hs more op ih =>
    rw [← List.append_assoc, run_snoc]
    obtain ⟨h1, h2, h3⟩ := lost_step op ih.1
    exact ⟨h1, h2.trans ih.2.1, h3.trans ih.2.2⟩

/-- C94 is violated: a client whose handshake is refused with an alert leaves a session which is never freed, whatever comes
after. -/
theorem C94_leak_violated (more : List Op) :
    (run ([.packet ⟨[.sent], .ended⟩] ++ more)).owner = false ∧ (run ([.packet ⟨[.sent], .ended⟩] ++ more)).freed = 0 := by
  have h := lost_run [.packet ⟨[.sent], .ended⟩] more ⟨rfl, rfl, rfl, rfl⟩
  exact ⟨h.1.owner, h.1.freed⟩

/-- C93 and C94 are violated: if the client closes the connection while a packet is on its way, the messages which wait are
never reported and the session is never freed. -/
theorem C94_close_notify_violated (more : List Op) :
    let ops : List Op := [.packet ⟨[], .ok []⟩, .send, .runSend ⟨[.sent], .ok⟩, .send, .packet ⟨[], .ended⟩]
    accepted ops = [0, 1] ∧ reports (ops ++ more) 1 = 0 ∧ (run (ops ++ more)).freed = 0 := by
  intro ops
  have h := lost_run ops more ⟨rfl, rfl, rfl, rfl⟩
  refine ⟨rfl, ?_, h.1.freed⟩
  unfold reports
  rw [h.2.1]
  rfl

/-- C94 is violated: if the socket completed the packet just before the client closes the connection, the connection is used
after it was freed: the next message is sent on it. -/
theorem C94_use_after_free_violated :
    (run [.packet ⟨[], .ok []⟩, .send, .runSend ⟨[.sent], .ok⟩, .send, .udpDone, .packet ⟨[], .ended⟩]).bad = false ∧
    (run [.packet ⟨[], .ok []⟩, .send, .runSend ⟨[.sent], .ok⟩, .send, .udpDone, .packet ⟨[], .ended⟩,
      .sent ⟨[], .want⟩, .runSend ⟨[.sent], .ok⟩]).bad = true := by decide

/-- C94 is violated: if the handshake fails when it goes on after a packet was sent, the session is used after it was
freed. -/
theorem C94_send_callback_violated (l : List Snd) (h : .sent ∉ l) :
    let ops : List Op := [.packet ⟨[.sent], .want⟩, .udpDone, .sent ⟨l, .ended⟩]
    (run ops).freed = 1 ∧ (run ops).bad = true := by
  intro ops
  have em : ∀ l : List Snd, .sent ∉ l → ∀ s : St, s.owner = true → s.buf = false → s.emits l = s := by
    intro l
    induction l with
    | nil => intro _ s _ _; rfl
    | cons r l ih =>
      intro hl s ho hb
      show (s.emit r).emits l = s
      have : s.emit r = s := by
        unfold St.emit
        rw [if_neg (by rw [hb]; simp)]
        cases r with
        | noBuffer => rfl
        | refused => exact if_pos ho
        | sent => exact absurd (by simp) hl
      rw [this]
      exact ih (fun hx => hl (by simp [hx])) s ho hb
  have e : run ops = (St.closedEvent (St.emits { St.init with buf := false, net := .idle } l)).startSend := rfl
  rw [e, em l h _ rfl rfl]
  decide

/-! The hypotheses are met by histories in which something happens. -/

/-- A handshake, two messages, and a close while a packet is on its way. -/
def ordinary : List Op :=
  [.packet ⟨[.sent], .want⟩, .udpDone, .sent ⟨[], .want⟩, .packet ⟨[], .ok [.send]⟩, .send, .runSend ⟨[.sent], .ok⟩,
   .close [.sent]]

instance (r : Tls) : Decidable (Ends r) := inferInstanceAs (Decidable (r.ret = .ended))

theorem calm_of_no_end (ops : List Op)
    (h : ∀ op ∈ ops, match op with
      | .kill => False
      | .packet r | .timer r => ¬ Ends r
      | .sent r => r.ret = .want
      | _ => True) : Calm ops := by
  intro b op a he
  have hm : op ∈ ops := by rw [he]; simp
  have := h op hm
  cases op with
  | kill => exact this.elim
  | packet r => exact fun hx => absurd hx this
  | timer r => exact fun hx => absurd hx this
  | sent r =>
    have hr : r.ret = .want := this
    exact ⟨fun hx => (by unfold Ends at hx; rw [hr] at hx; cases hx), fun ⟨_, _, hx, _⟩ => (by rw [hr] at hx; cases hx)⟩
  | _ => trivial

example : Calm ordinary := calm_of_no_end _ (by unfold ordinary; simp [Ends])
example : Lossless ordinary := by unfold Lossless ordinary; simp
example : Op.close [.sent] ∈ ordinary ∧ accepted ordinary = [0, 1] ∧ reports ordinary 1 = 0 ∧ OnItsWay ordinary := by decide
example : (run (ordinary ++ round ⟨[.sent], .ok⟩ ++ round ⟨[.sent], .ok⟩)).freed = 1 := by decide

end Verif.Dtls.Server
