import Verif.Dtls.ClientLemmas

/-!
# The secure session with the basestation — properties
-/

namespace Verif.Dtls.Client

open Spec

/-- C95: every message which the session accepted is reported at most once, in the order in which they were accepted; the
messages which are not reported wait, and come after those which were reported. -/
theorem C95_once (ops : List Op) :
    (∀ m, reports ops m ≤ 1) ∧ (∀ m e, Reported ops m e → m ∈ accepted ops) ∧
    ∃ waiting, (run ops).answers.map (·.1) ++ waiting = accepted ops := by
  have h := (top_run ops).1.all
  have hn : ((run ops).answers.map (·.1)).Nodup := by
    have : ((run ops).answers.map (·.1) ++ (run ops).queue).Nodup := by rw [h]; exact List.nodup_range
    exact (List.nodup_append.1 this).1
  refine ⟨?_, ?_, _, h⟩
  · intro m
    have := List.nodup_iff_count.1 hn m
    unfold reports
    rw [List.count_eq_countP, List.countP_map] at this
    exact this
  · intro m e he
    unfold accepted
    rw [← h]
    exact List.mem_append_left _ (List.mem_map.2 ⟨_, he, rfl⟩)

/-- C95: the messages which TLS took are those which were reported with success, in the order in which they were
accepted. -/
theorem C95_order (ops : List Op) :
    (∀ m, m ∈ (run ops).wire ↔ Reported ops m .ok) ∧ (run ops).wire.Pairwise (· < ·) := by
  have h := (top_run ops).1
  refine ⟨?_, ?_⟩
  · intro m
    rw [h.wire]
    constructor
    · intro hm
      obtain ⟨o, ho, rfl⟩ := List.mem_map.1 hm
      obtain ⟨h1, h2⟩ := List.mem_filter.1 ho
      have : o.2 = .ok := by simpa using h2
      unfold Reported
      rw [← this]; exact h1
    · intro hm
      exact List.mem_map.2 ⟨(m, .ok), List.mem_filter.2 ⟨hm, by simp⟩, rfl⟩
  · rw [h.wire]
    have h1 : ((run ops).answers.map (·.1) ++ (run ops).queue).Pairwise (· < ·) := by
      rw [h.all]; exact List.pairwise_lt_range
    have h2 := (List.pairwise_append.1 h1).1
    exact h2.sublist (List.Sublist.map _ List.filter_sublist)

theorem waiting {ops : List Op} {m : Nat} (hm : m ∈ accepted ops) (hn : reports ops m = 0) : m ∈ (run ops).queue := by
  unfold accepted at hm
  rw [← (top_run ops).1.all] at hm
  rcases List.mem_append.1 hm with h | h
  · obtain ⟨o, ho, rfl⟩ := List.mem_map.1 h
    exfalso
    unfold reports at hn
    exact List.countP_eq_zero.1 hn o ho (by simp)
  · exact h

theorem queue_alive {s : St} (h : Top s) (hq : s.queue ≠ []) :
    s.freed = 0 ∧ (s.ev = true ∨ s.buf = true) ∧ (s.phase ≠ .data → s.phase = .closing ∧ s.buf = true) := by
  have hf : s.freed = 0 := by
    have := h.1.once
    by_cases hx : (s.destroyed && !s.buf && !s.receiving) = true
    · rw [if_pos hx] at this
      exact absurd (h.1.rest this).2 hq
    · rw [if_neg hx] at this; exact this
  have hc : s.phase ≠ .data → s.phase = .closing ∧ s.buf = true := by
    intro hp
    have hc : s.phase = .closing := by
      cases hx : s.phase
      · exact absurd (h.1.early hx) hq
      · exact absurd hx hp
      · rfl
    refine ⟨hc, ?_⟩
    rcases Bool.eq_false_or_eq_true s.held with hh | hh
    · exact h.1.wait hc hh
    · have hd := h.1.dead
      rw [hh] at hd
      have ho := h.1.once
      rw [hf, h.2] at ho
      cases hd' : s.destroyed
      · rw [hd'] at hd; cases hd
      · rw [hd'] at ho
        cases hb : s.buf
        · rw [hb] at ho; cases ho
        · rfl
  refine ⟨hf, ?_, hc⟩
  by_cases hp : s.phase = .data
  · exact h.1.live hp hq
  · exact Or.inr (hc hp).2

/-- C95: as long as a message waits, something is to come: the event which writes the next message, or the completion of a
packet which is on its way. -/
theorem C95_pending (ops : List Op) (m : Nat) (hm : m ∈ accepted ops) (hn : reports ops m = 0) :
    (run ops).ev = true ∨ OnItsWay ops := by
  have hq := waiting hm hn
  rcases (queue_alive (top_run ops) (fun h => by rw [h] at hq; cases hq)).2.1 with h | h
  · exact Or.inl h
  · exact Or.inr ((top_run ops).1.net.1 h)

/-- The packet which is on its way is completed. -/
theorem complete {s : St} (h : Top s) (r : Tls) (hb : s.buf = true) :
    step (step s .udpDone) (.sent r) = s.sent r := by
  have hn := h.1.net.1 hb
  obtain ⟨phase, buf, net, queue, ev, receiving, destroyed, freed, held, ends, bad, next, answers, wire⟩ := s
  cases net with
  | idle => exact absurd rfl hn
  | flying => rfl
  | done => rfl

theorem no_complete {s : St} (h : Top s) (r : Tls) (hb : s.buf = false) :
    step (step s .udpDone) (.sent r) = s := by
  have hn : s.net = .idle := by
    by_cases hx : s.net = .idle
    · exact hx
    · rw [h.1.net.2 hx] at hb; cases hb
  have e : step s .udpDone = s := by unfold step; dsimp only; rw [if_neg (by rw [hn]; simp)]
  rw [e]
  unfold step; dsimp only; rw [if_neg (by rw [hn]; simp)]

/-- A round reports a message which waits. -/
theorem round_pop {s : St} (w : Write) (h : Top s) (hq : s.queue ≠ []) :
    ((round w).foldl step s).queue.length < s.queue.length ∧ ((round w).foldl step s).next = s.next := by
  obtain ⟨hf, hl, hc⟩ := queue_alive h hq
  have e : (round w).foldl step s = step (step (step s .udpDone) (.sent ⟨[], .want⟩)) (.runSend w) := rfl
  rw [e]
  have pop : ∀ t : St, t.freed = 0 → t.ev = true → t.phase = .data → t.buf = false → t.queue = s.queue → t.next = s.next →
      (step t (.runSend w)).queue.length < s.queue.length ∧ (step t (.runSend w)).next = s.next := by
    intro t tf te tp tb tq tn
    have : step t (.runSend w) = t.runSend w := by unfold step; dsimp only; rw [if_pos te]
    rw [this]
    rcases runSend_eq w tf with ⟨-, hx⟩ | ⟨-, -, m, q, b, n, hmq, -, e⟩
    · rcases hx with hx | hx | hx
      · rw [tp] at hx; cases hx
      · rw [tb] at hx; cases hx
      · rw [tq] at hx; exact absurd hx hq
    · rw [e]
      refine ⟨?_, tn⟩
      show q.length < _
      rw [← tq, hmq]; simp
  rcases Bool.eq_false_or_eq_true s.buf with hb | hb
  · rw [complete h _ hb]
    by_cases hp : s.phase = .data
    · rw [sent_open _ hf (by rw [hp]; simp), if_pos hp]
      have hd : St.doOne { s with buf := false, net := .idle, ev := true } ⟨[], .want⟩ =
          { s with buf := false, net := .idle, ev := true } := by
        unfold St.doOne; rw [if_neg (by show ¬ s.phase = .closing; rw [hp]; simp)]; rfl
      rw [hd]
      exact pop _ hf rfl hp rfl rfl rfl
    · rw [sent_closing _ hf hb (hc hp).1 h.1.dead]
      refine ⟨?_, rfl⟩
      show ([] : List Nat).length < _
      exact List.length_pos_iff.2 hq
  · rw [no_complete h _ hb]
    have hp : s.phase = .data := by
      by_cases hp : s.phase = .data
      · exact hp
      · rw [(hc hp).2] at hb; cases hb
    have he : s.ev = true := by
      rcases hl with h1 | h1
      · exact h1
      · rw [hb] at h1; cases h1
    exact pop s hf he hp hb rfl rfl

/-- C95: after finitely many rounds of the socket and the event queue every message is reported, whatever happened to the
session. -/
theorem C95_all (ops : List Op) (w : Write) :
    ∃ n, ∀ m ∈ accepted ops, ∃ e, Reported (ops ++ (List.replicate n (round w)).flatten) m e := by
  have key : ∀ n ops, (run ops).queue.length ≤ n →
      ∃ n, (run (ops ++ (List.replicate n (round w)).flatten)).queue = [] ∧
        (run (ops ++ (List.replicate n (round w)).flatten)).next = (run ops).next := by
    intro n
    induction n with
    | zero => intro ops hq; exact ⟨0, by simpa using hq, by simp⟩
    | succ n ih =>
      intro ops hq
      by_cases h0 : (run ops).queue = []
      · exact ⟨0, by simpa using h0, by simp⟩
      · have hp := round_pop w (top_run ops) h0
        rw [← run_append] at hp
        obtain ⟨k, hk⟩ := ih (ops ++ round w) (by omega)
        refine ⟨k + 1, ?_⟩
        rw [List.replicate_succ, List.flatten_cons, ← List.append_assoc]
        exact ⟨hk.1, hk.2.trans hp.2⟩
  obtain ⟨n, h1, h2⟩ := key _ ops (Nat.le_refl _)
  refine ⟨n, ?_⟩
  intro m hm
  have h := (top_run (ops ++ (List.replicate n (round w)).flatten)).1.all
  rw [h1, List.append_nil, h2] at h
  unfold accepted at hm
  rw [← h] at hm
  obtain ⟨o, ho, rfl⟩ := List.mem_map.1 hm
  exact ⟨o.2, ho⟩

/-- C95: the session is freed once, as soon as the attacher has given it up and no packet of it is on its way, and it is never
used afterwards. -/
theorem C95_freed_once (ops : List Op) :
    (run ops).bad = false ∧ (run ops).freed = if Held ops ∨ OnItsWay ops then 0 else 1 := by
  have h := top_run ops
  refine ⟨h.1.good, ?_⟩
  have ho := h.1.once
  rw [h.2] at ho
  rw [ho]
  rcases Bool.eq_false_or_eq_true (run ops).held with hh | hh
  · have hd := (inv_alive h.1 hh).1
    rw [hd, if_pos (c := Held ops ∨ OnItsWay ops) (Or.inl hh)]; rfl
  · have hd : (run ops).destroyed = true := by
      have := h.1.dead; rw [hh] at this; cases hx : (run ops).destroyed
      · rw [hx] at this; cases this
      · rfl
    rcases Bool.eq_false_or_eq_true (run ops).buf with hb | hb
    · rw [if_pos (c := Held ops ∨ OnItsWay ops) (Or.inr (h.1.net.1 hb)), hb, hd]; rfl
    · have hn : ¬ (Held ops ∨ OnItsWay ops) := by
        rintro (hx | hx)
        · unfold Held at hx; rw [hh] at hx; cases hx
        · rw [h.1.net.2 hx] at hb; cases hb
      rw [if_neg hn, hb, hd]; rfl

/-! ### The end -/

theorem closing_or_gone {ops : List Op} (hh : Held ops) : (run ops).destroyed = false := (inv_alive (top_run ops).1 hh).1

/-- Once a session is closing it stays so. -/
def Shut (s : St) : Prop := s.phase = .closing

theorem shut_touch {s : St} (h : Shut s) : Shut s.touch := by unfold St.touch; split <;> exact h

theorem shut_emit {s : St} (m : Bool) (h : Shut s) : Shut (s.emit m) := by
  unfold St.emit
  split
  · exact shut_touch h
  · split <;> exact shut_touch h

theorem shut_emits (l : List Bool) : ∀ {s : St}, Shut s → Shut (s.emits l) := by
  induction l with
  | nil => intro s h; exact h
  | cons m l ih => intro s h; exact ih (shut_emit m h)

theorem shut_destroy (s : St) : Shut s.destroy := by
  unfold St.destroy
  dsimp only
  split
  · exact shut_touch rfl
  · rfl

theorem shut_endEvent {s : St} (h : Shut s) : Shut s.endEvent := by
  unfold St.endEvent
  dsimp only
  split
  · exact shut_destroy _
  · exact h

theorem shut_close (s : St) (l : List Bool) : Shut (s.close l) := by
  unfold St.close
  split
  · next h => exact h
  · have h1 : Shut ({ s with phase := .closing }.emits l).touch :=
      shut_touch (shut_emits l (s := { s with phase := .closing }) rfl)
    dsimp only
    split
    · exact h1
    · exact shut_endEvent h1

theorem shut_step {s : St} (op : Op) (h : Shut s) : Shut (step s op) := by
  have hp : s.phase = .closing := h
  have hd : ∀ r, s.doOne r = s := by intro r; unfold St.doOne; rw [if_pos hp]
  cases op <;> (unfold step; dsimp only; split)
  · rw [hd]; exact h
  · exact h
  · unfold St.send; rw [if_pos (by rw [hp]; simp)]; exact h
  · exact h
  · exact shut_close s _
  · exact h
  · exact shut_destroy s
  · exact h
  · next r _ =>
    unfold St.packet
    have hd' : St.doOne { s with receiving := true } r = { s with receiving := true } := by
      unfold St.doOne; rw [if_pos hp]
    rw [hd']
    have h1 : Shut { ({ s with receiving := true } : St).touch with receiving := false } :=
      shut_touch (s := { s with receiving := true }) h
    dsimp only
    split
    · exact shut_touch h1
    · exact h1
  · exact h
  · exact h
  · exact h
  · unfold St.sent
    rw [if_pos hp]
    have h1 : Shut { ({ s with net := .idle } : St).endEvent.touch with buf := false } :=
      shut_touch (shut_endEvent (s := { s with net := .idle }) h)
    dsimp only
    split
    · exact shut_touch h1
    · exact h1
  · exact h
  · unfold St.runSend; rw [if_pos hp]; exact h
  · exact h
  · rw [hd]; exact h
  · exact h

theorem shut_of_gone {ops : List Op} (h : ¬ Held ops) : Shut (run ops) := by
  have ht := top_run ops
  refine ht.1.closing ?_
  have := ht.1.dead
  cases hd : (run ops).destroyed
  · rw [hd] at this; exact absurd this h
  · rfl

theorem shut_run (ops : List Op) (l : List Bool) (h : .close l ∈ ops) : Shut (run ops) := by
  induction ops using snoc_ind with
  | h0 => cases h
  | hs ops op ih =>
    rcases List.mem_append.1 h with h | h
    · rw [run_snoc]; exact shut_step op (ih h)
    · have : .close l = op := by simpa using h
      rw [← this, run_snoc]
      by_cases hh : Held ops
      · have e : step (run ops) (.close l) = (run ops).close l := by exact if_pos hh
        rw [e]; exact shut_close _ l
      · exact shut_step _ (shut_of_gone hh)

/-- C95: a session which was closed, or which the attacher gave up, is gone as soon as the packet which may be on its way is
completed. -/
theorem C95_ends (ops : List Op) (h : (∃ l, .close l ∈ ops) ∨ ¬ Held ops) (r : Tls) :
    ¬ Held (ops ++ [.udpDone, .sent r]) ∧ (run (ops ++ [.udpDone, .sent r])).freed = 1 := by
  have ht := top_run ops
  have hs : (run ops).phase = .closing := by
    rcases h with ⟨l, h⟩ | h
    · exact shut_run ops l h
    · exact shut_of_gone h
  have e : run (ops ++ [.udpDone, .sent r]) = step (step (run ops) .udpDone) (.sent r) := by rw [run_append]; rfl
  have key : (run (ops ++ [.udpDone, .sent r])).held = false ∧ (run (ops ++ [.udpDone, .sent r])).net = .idle := by
    rw [e]
    rcases Bool.eq_false_or_eq_true (run ops).buf with hb | hb
    · rw [complete ht _ hb, sent_closing _ (inv_way ht.1 (ht.1.net.1 hb)).2 hb hs ht.1.dead]
      exact ⟨rfl, rfl⟩
    · rw [no_complete ht _ hb]
      refine ⟨?_, ?_⟩
      · rcases Bool.eq_false_or_eq_true (run ops).held with hh | hh
        · rw [ht.1.wait hs hh] at hb; cases hb
        · exact hh
      · by_cases hx : (run ops).net = .idle
        · exact hx
        · rw [ht.1.net.2 hx] at hb; cases hb
  have hh : ¬ Held (ops ++ [.udpDone, .sent r]) := by unfold Held; rw [key.1]; simp
  refine ⟨hh, ?_⟩
  rw [(C95_freed_once _).2, if_neg]
  rintro (hx | hx)
  · exact hh hx
  · exact hx key.2

/-! ### What the attacher hears -/

/-- The attacher hears nothing while it has the session, then once, and perhaps once more when the session is freed. -/
structure Hear (s : St) : Prop where
  quiet : s.held = true → s.ends = 0
  some : s.held = false → 1 ≤ s.ends
  most : s.ends ≤ 1 + s.freed

theorem hear_endEvent {s : St} (hh : s.held = true) (hf : s.freed = 0) (h : s.ends = 0) : Hear s.endEvent := by
  rw [endEvent_eq hf hh]
  split
  · exact ⟨fun hx => (by cases hx), fun _ => (by show 1 ≤ s.ends + 1; omega), by show s.ends + 1 ≤ 1 + 1; omega⟩
  · exact ⟨fun hx => (by cases hx), fun _ => (by show 1 ≤ s.ends + 1; omega), by show s.ends + 1 ≤ 1 + s.freed; omega⟩

theorem hear_close {s : St} (l : List Bool) (hh : s.held = true) (hf : s.freed = 0) (h : Hear s) : Hear (s.close l) := by
  unfold St.close
  split
  · exact h
  · dsimp only
    rcases emits_alive (s := { s with phase := .closing }) l hf with e | ⟨-, e⟩
    · rw [e, touch_alive (s := { s with phase := .closing }) hf]
      split
      · exact ⟨h.quiet, h.some, h.most⟩
      · exact hear_endEvent (s := { s with phase := .closing }) hh hf (h.quiet hh)
    · rw [e, touch_alive (s := { s with phase := .closing, buf := true, net := .flying }) hf, if_pos rfl]
      exact ⟨h.quiet, h.some, h.most⟩

theorem hear_send {s : St} (hf : s.freed = 0) (h : Hear s) : Hear s.send := by
  unfold St.send
  split
  · exact h
  · unfold St.startSend
    rw [touch_alive (s := { s with queue := s.queue ++ [s.next], next := s.next + 1 }) hf]
    exact ⟨h.quiet, h.some, h.most⟩

theorem hear_acts (l : List Act) : ∀ {s : St}, Inv s → Hear s → Hear (s.acts l) := by
  induction l with
  | nil => intro s _ h; exact h
  | cons a l ih =>
    intro s hi h
    refine ih (inv_act a hi) ?_
    cases a <;> (unfold St.act; dsimp only; split)
    · next hh => exact hear_send (inv_alive hi hh).2 h
    · exact h
    · next hh => exact hear_close _ hh (inv_alive hi hh).2 h
    · exact h

theorem hear_doOne {s : St} (r : Tls) (hi : Inv s) (h : Hear s) : Hear (s.doOne r) := by
  unfold St.doOne
  split
  · exact h
  · next hp =>
    have hh : s.held = true := by
      rw [hi.dead]
      cases hd : s.destroyed
      · rfl
      · exact absurd (hi.closing hd) hp
    have hf := (inv_alive hi hh).2
    have h1 : Hear (s.emits r.snd) ∧ (s.emits r.snd).freed = 0 := by
      rcases emits_alive r.snd hf with e | ⟨-, e⟩
      · rw [e]; exact ⟨h, hf⟩
      · rw [e]; exact ⟨⟨h.quiet, h.some, h.most⟩, hf⟩
    obtain ⟨i1, i2, i3⟩ := inv_emits r.snd hi hh
    dsimp only
    split
    · exact h1.1
    · refine hear_acts _ ?_ ⟨h1.1.quiet, h1.1.some, h1.1.most⟩
      have hd := (inv_alive i1 i2).1
      refine ⟨i1.good, i1.dead, i1.once, i1.net, fun hx => ?_, fun hx => ?_, fun hx => ?_, i1.rest, fun _ hq => ?_, i1.all,
        i1.wire⟩
      · have : (s.emits r.snd).destroyed = true := hx
        rw [hd] at this; cases this
      · cases hx
      · cases hx
      · by_cases hc : (s.emits r.snd).phase = .connecting
        · exact absurd (i1.early hc) hq
        · refine i1.live ?_ hq
          rw [i3] at hc ⊢
          cases hx : s.phase
          · exact absurd hx hc
          · rfl
          · exact absurd hx hp
    · exact hear_endEvent (s := { s.emits r.snd with phase := .closing }) i2 h1.2 (h1.1.quiet i2)

theorem hear_step {s : St} (op : Op) (hk : op ≠ .kill) (ht : Top s) (h : Hear s) : Hear (step s op) := by
  cases op with
  | kill => exact absurd rfl hk
  | connect r =>
    unfold step; dsimp only; split
    · exact hear_doOne r ht.1 h
    · exact h
  | send =>
    unfold step; dsimp only; split
    · next hh => exact hear_send (inv_alive ht.1 hh).2 h
    · exact h
  | close l =>
    unfold step; dsimp only; split
    · next hh => exact hear_close l hh (inv_alive ht.1 hh).2 h
    · exact h
  | packet r =>
    unfold step; dsimp only; split
    · next hh =>
      obtain ⟨hd, hf⟩ := inv_alive ht.1 hh
      have h0 : Inv { s with receiving := true } :=
        ⟨ht.1.good, ht.1.dead, by show s.freed = _; rw [hf, hd]; rfl, ht.1.net, ht.1.closing, ht.1.wait, ht.1.early,
          ht.1.rest, ht.1.live, ht.1.all, ht.1.wire⟩
      have h1 := hear_doOne r h0 ⟨h.quiet, h.some, h.most⟩
      have hr : (St.doOne { s with receiving := true } r).receiving = true := doOne_receiving _ r
      have i1 := inv_doOne r h0
      unfold St.packet
      generalize St.doOne { s with receiving := true } r = t at h1 hr i1 ⊢
      have hf1 : t.freed = 0 := by rw [i1.once, hr]; simp
      rw [touch_alive hf1]
      dsimp only
      split
      · unfold St.free
        rw [touch_alive (s := { t with receiving := false }) hf1]
        exact ⟨h1.quiet, h1.some, by have := h1.most; show t.ends ≤ 1 + (t.freed + 1); omega⟩
      · exact ⟨h1.quiet, h1.some, h1.most⟩
    · exact h
  | udpDone =>
    unfold step; dsimp only; split
    · exact ⟨h.quiet, h.some, h.most⟩
    · exact h
  | sent r =>
    unfold step; dsimp only; split
    · next hn =>
      obtain ⟨hb, hf⟩ := inv_way ht.1 (by rw [hn]; simp)
      by_cases hp : s.phase = .closing
      · rw [sent_closing r hf hb hp ht.1.dead]
        refine ⟨fun hx => (by cases hx), fun _ => ?_, ?_⟩
        · show 1 ≤ s.ends + 1; omega
        · have := h.most
          show s.ends + 1 ≤ 1 + 1; omega
      · rw [sent_open r hf hp]
        refine hear_doOne r (inv_sent_open ht.1 hf hp) ?_
        split <;> exact ⟨h.quiet, h.some, h.most⟩
    · exact h
  | runSend w =>
    unfold step; dsimp only; split
    · next he =>
      rcases runSend_eq w (ev_alive ht.1 he) with ⟨e, -⟩ | ⟨-, -, m, q, b, n, -, -, e⟩ <;>
        (rw [e]; exact ⟨h.quiet, h.some, h.most⟩)
    · exact h
  | timer r =>
    unfold step; dsimp only; split
    · exact hear_doOne r ht.1 h
    · exact h

theorem hear_run (ops : List Op) (hk : .kill ∉ ops) : Hear (run ops) := by
  induction ops using snoc_ind with
  | h0 => exact ⟨fun _ => rfl, fun h => (by cases h), Nat.zero_le _⟩
  | hs ops op ih =>
    rw [run_snoc]
    exact hear_step op (fun h => hk (by simp [h])) (top_run ops) (ih (fun h => hk (by simp [h])))

/-- C96, without "once": while the attacher has the session it heard nothing of an end; if it does not have it, it heard of
the end, at most twice, and only once as long as the session is not freed. -/
theorem C96_heard_partial (ops : List Op) (hk : .kill ∉ ops) :
    (Held ops → (run ops).ends = 0) ∧ (¬ Held ops → 1 ≤ (run ops).ends ∧ (run ops).ends ≤ 2) ∧
    (¬ Held ops → OnItsWay ops → (run ops).ends = 1) := by
  have h := hear_run ops hk
  have hf := (C95_freed_once ops).2
  refine ⟨h.quiet, fun hh => ?_, fun hh ho => ?_⟩
  · have h1 := h.some (by unfold Held at hh; simpa using hh)
    have h2 := h.most
    have : (run ops).freed ≤ 1 := by rw [hf]; split <;> omega
    exact ⟨h1, by omega⟩
  · have h1 := h.some (by unfold Held at hh; simpa using hh)
    have h2 := h.most
    rw [if_pos (Or.inr ho)] at hf
    omega

/-- C96 is violated: when a session ended while a packet was on its way, the attacher hears of the end a second time when the
packet is completed, although it has given up the session long ago. -/
theorem C96_twice_violated (r : Tls) :
    let ops : List Op := [.connect ⟨[true], .want⟩, .packet ⟨[], .ended⟩]
    ¬ Held ops ∧ (run ops).ends = 1 ∧ (run (ops ++ [.udpDone, .sent r])).ends = 2 :=
  ⟨by decide, rfl, rfl⟩

/-- C96 is violated: a session which was destroyed with the attacher while a packet was on its way tells the attacher of its
end when the packet is completed. -/
theorem C96_dead_violated (r : Tls) :
    let ops : List Op := [.connect ⟨[true], .want⟩, .kill]
    ¬ Held ops ∧ (run ops).ends = 0 ∧ (run (ops ++ [.udpDone, .sent r])).ends = 1 :=
  ⟨by decide, rfl, rfl⟩

/-! The statements are about histories in which something happens. -/

/-- A handshake, three messages of which the first is being sent, and the basestation ends the session. -/
def ordinary : List Op :=
  [.connect ⟨[true], .want⟩, .udpDone, .sent ⟨[], .want⟩, .packet ⟨[], .ok [.send]⟩, .send, .send, .runSend ⟨[true], .ok⟩,
   .packet ⟨[], .ended⟩]

example : accepted ordinary = [0, 1, 2] ∧ Reported ordinary 0 .ok ∧ reports ordinary 1 = 0 ∧ OnItsWay ordinary ∧
    ¬ Held ordinary ∧ (run ordinary).freed = 0 := by decide
example : Reported (ordinary ++ round ⟨[], .ok⟩) 2 .closing ∧ (run (ordinary ++ round ⟨[], .ok⟩)).freed = 1 := by decide
example : Op.close [true] ∈ [Op.connect ⟨[], .ok []⟩, .send, .close [true]] ∧
    Held [Op.connect ⟨[], .ok []⟩, .send, .close [true]] := by decide
example : Held [Op.connect ⟨[], .ok []⟩, .send, .runSend ⟨[false], .ok⟩, .send] ∧
    reports [Op.connect ⟨[], .ok []⟩, .send, .runSend ⟨[false], .ok⟩, .send] 1 = 0 := by decide
example : .kill ∉ ordinary ∧ (run ordinary).ends = 1 := by decide

end Verif.Dtls.Client
