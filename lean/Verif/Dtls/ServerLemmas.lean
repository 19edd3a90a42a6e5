import Verif.Dtls.ServerSpec

/-!
# The secure session of a client connection — lemmas
-/

namespace Verif.Dtls.Server

open Spec

theorem snoc_ind {α : Type} {P : List α → Prop} (h0 : P []) (hs : ∀ l x, P l → P (l ++ [x])) : ∀ l, P l := by
  intro l
  rw [← List.reverse_reverse l]
  induction l.reverse with
  | nil => exact h0
  | cons x r ih => rw [List.reverse_cons]; exact hs _ _ ih

theorem run_snoc (ops : List Op) (op : Op) : run (ops ++ [op]) = step (run ops) op := by
  unfold run; rw [List.foldl_append]; rfl

theorem run_append (a b : List Op) : run (a ++ b) = b.foldl step (run a) := by
  unfold run; rw [List.foldl_append]

theorem calm_left {ops : List Op} {op : Op} (h : Calm (ops ++ [op])) : Calm ops := by
  intro b x a he
  exact h b x (a ++ [op]) (by rw [he]; simp)

theorem calm_last {ops : List Op} {op : Op} (h : Calm (ops ++ [op])) : CalmOp ops op := h ops op [] rfl

/-! ## The messages -/

/-- What the messages are: those which were reported, in their order, then those which wait. -/
structure Msgs (s : St) : Prop where
  all : s.answers.map (·.1) ++ s.queue = List.range s.next
  wire : s.wire = (s.answers.filter fun o => o.2 = .ok).map (·.1)

theorem Msgs.of_eq {s t : St} (h : Msgs s) (h1 : t.answers = s.answers) (h2 : t.queue = s.queue) (h3 : t.next = s.next)
    (h4 : t.wire = s.wire) : Msgs t := ⟨by rw [h1, h2, h3]; exact h.all, by rw [h4, h1]; exact h.wire⟩

theorem msgs_touch {s : St} (h : Msgs s) : Msgs s.touch := by
  unfold St.touch; split
  · exact h
  · exact h.of_eq rfl rfl rfl rfl

theorem msgs_emit {s : St} (r : Snd) (h : Msgs s) : Msgs (s.emit r) := by
  unfold St.emit
  split
  · exact h
  · split
    · exact h
    · split
      · exact h
      · exact h.of_eq rfl rfl rfl rfl
    · split <;> exact h.of_eq rfl rfl rfl rfl

theorem msgs_emits (l : List Snd) : ∀ {s : St}, Msgs s → Msgs (s.emits l) := by
  induction l with
  | nil => intro s h; exact h
  | cons r l ih => intro s h; exact ih (msgs_emit r h)

theorem touch_eq (s : St) : s.touch.answers = s.answers ∧ s.touch.queue = s.queue ∧ s.touch.next = s.next ∧
    s.touch.wire = s.wire ∧ s.touch.freed = s.freed ∧ s.touch.receiving = s.receiving ∧ s.touch.buf = s.buf ∧
    s.touch.owner = s.owner ∧ s.touch.destroyed = s.destroyed ∧ s.touch.net = s.net ∧ s.touch.phase = s.phase ∧
    s.touch.ev = s.ev := by
  unfold St.touch; split <;> exact ⟨rfl, rfl, rfl, rfl, rfl, rfl, rfl, rfl, rfl, rfl, rfl, rfl⟩

theorem touch_alive {s : St} (h : s.freed = 0) : s.touch = s := by unfold St.touch; rw [if_pos h]

theorem msgs_free {s : St} (h : Msgs s) : Msgs s.free := by
  obtain ⟨-, -, h3, h4, -⟩ := touch_eq s
  have e : s.free.answers = s.answers ++ s.queue.map (fun m => (m, Ec.closing)) := rfl
  refine ⟨?_, ?_⟩
  · show s.free.answers.map _ ++ [] = List.range s.touch.next
    rw [e, List.append_nil, List.map_append, List.map_map, h3]
    have : (s.queue.map ((·.1) ∘ fun m => (m, Ec.closing))) = s.queue := by
      have : ((·.1) ∘ fun m => (m, Ec.closing)) = (id : Nat → Nat) := rfl
      rw [this, List.map_id]
    rw [this]; exact h.all
  · show s.touch.wire = _
    rw [e, List.filter_append, List.map_append, h4, h.wire]
    have : (s.queue.map fun m => (m, Ec.closing)).filter (fun o => decide (o.2 = Ec.ok)) = [] := by
      rw [List.filter_eq_nil_iff]
      intro o ho
      obtain ⟨m, -, rfl⟩ := List.mem_map.1 ho
      simp
    rw [this]; simp

theorem msgs_destroy {s : St} (h : Msgs s) : Msgs s.destroy := by
  unfold St.destroy
  have h1 : Msgs { s.touch with destroyed := true } := (msgs_touch h).of_eq rfl rfl rfl rfl
  dsimp only
  split
  · exact msgs_free h1
  · exact h1

theorem msgs_destroyOwner {s : St} (h : Msgs s) : Msgs s.destroyOwner :=
  (msgs_destroy h).of_eq rfl rfl rfl rfl

theorem msgs_closedEvent {s : St} (h : Msgs s) : Msgs s.closedEvent := by
  unfold St.closedEvent; split
  · exact msgs_destroyOwner h
  · exact h.of_eq rfl rfl rfl rfl

theorem msgs_isClosed {s : St} (h : Msgs s) : Msgs s.isClosed := by
  unfold St.isClosed
  split
  · exact h
  · split
    · exact h
    · split
      · exact h
      · exact msgs_closedEvent h

theorem msgs_startSend {s : St} (h : Msgs s) : Msgs s.startSend := (msgs_touch h).of_eq rfl rfl rfl rfl

theorem msgs_send {s : St} (h : Msgs s) : Msgs s.send := by
  unfold St.send
  split
  · exact h
  · apply msgs_startSend
    refine ⟨?_, h.wire⟩
    show s.answers.map (·.1) ++ (s.queue ++ [s.next]) = List.range (s.next + 1)
    rw [← List.append_assoc, h.all, List.range_succ]

theorem msgs_close {s : St} (l : List Snd) (h : Msgs s) : Msgs (s.close l) := by
  unfold St.close
  split
  · exact h
  · exact msgs_isClosed (msgs_emits l (h.of_eq rfl rfl rfl rfl))

theorem msgs_act {s : St} (a : Act) (h : Msgs s) : Msgs (s.act a) := by
  cases a <;> (unfold St.act; dsimp only; split)
  · exact msgs_send h
  · exact h
  · exact msgs_close _ h
  · exact h

theorem msgs_acts (l : List Act) : ∀ {s : St}, Msgs s → Msgs (s.acts l) := by
  induction l with
  | nil => intro s h; exact h
  | cons r l ih => intro s h; exact ih (msgs_act r h)

theorem msgs_doOne {s : St} (r : Tls) (h : Msgs s) : Msgs (s.doOne r) := by
  unfold St.doOne
  split
  · exact h
  · have h1 := msgs_emits r.snd h
    dsimp only
    split
    · exact h1
    · have h2 : Msgs { s.emits r.snd with phase := .data } := h1.of_eq rfl rfl rfl rfl
      split
      · exact msgs_acts _ h2
      · exact h2.of_eq rfl rfl rfl rfl
    · exact msgs_closedEvent h1

theorem msgs_packet {s : St} (r : Tls) (h : Msgs s) : Msgs (s.packet r) := by
  unfold St.packet
  have h1 : Msgs { ({ s with receiving := true }.doOne r).touch with receiving := false } :=
    (msgs_touch (msgs_doOne r (s := { s with receiving := true }) (h.of_eq rfl rfl rfl rfl))).of_eq rfl rfl rfl rfl
  dsimp only
  split
  · exact msgs_free h1
  · exact h1

theorem msgs_sent {s : St} (r : Tls) (h : Msgs s) : Msgs (s.sent r) := by
  unfold St.sent
  have h1 : Msgs { s with buf := false, net := .idle } := h.of_eq rfl rfl rfl rfl
  dsimp only
  split
  · exact msgs_free h1
  · exact msgs_startSend (msgs_doOne r h1)

theorem emit_eq (s : St) (r : Snd) : (s.emit r).answers = s.answers ∧ (s.emit r).queue = s.queue ∧
    (s.emit r).next = s.next ∧ (s.emit r).wire = s.wire ∧ (s.emit r).freed = s.freed ∧
    (s.emit r).receiving = s.receiving ∧ (s.emit r).owner = s.owner ∧ (s.emit r).destroyed = s.destroyed ∧
    (s.emit r).phase = s.phase ∧ (s.emit r).ev = s.ev := by
  unfold St.emit
  split
  · simp
  · split
    · simp
    · split <;> simp
    · split <;> simp

theorem emits_eq (l : List Snd) : ∀ s : St, (s.emits l).answers = s.answers ∧ (s.emits l).queue = s.queue ∧
    (s.emits l).next = s.next ∧ (s.emits l).wire = s.wire ∧ (s.emits l).freed = s.freed ∧
    (s.emits l).receiving = s.receiving ∧ (s.emits l).owner = s.owner ∧ (s.emits l).destroyed = s.destroyed ∧
    (s.emits l).phase = s.phase ∧ (s.emits l).ev = s.ev := by
  induction l with
  | nil => intro s; exact ⟨rfl, rfl, rfl, rfl, rfl, rfl, rfl, rfl, rfl, rfl⟩
  | cons r l ih =>
    intro s
    obtain ⟨a1, a2, a3, a4, a5, a6, a7, a8, a9, a10⟩ := ih (s.emit r)
    obtain ⟨b1, b2, b3, b4, b5, b6, b7, b8, b9, b10⟩ := emit_eq s r
    exact ⟨a1.trans b1, a2.trans b2, a3.trans b3, a4.trans b4, a5.trans b5, a6.trans b6, a7.trans b7, a8.trans b8,
      a9.trans b9, a10.trans b10⟩

theorem msgs_runSend {s : St} (w : Write) (h : Msgs s) : Msgs (s.runSend w) := by
  unfold St.runSend
  have h1 : Msgs { s with ev := false } := h.of_eq rfl rfl rfl rfl
  dsimp only
  split
  · exact h1
  · split
    · exact msgs_isClosed h1
    · next m q hq =>
      have hall : s.answers.map (·.1) ++ (m :: q) = List.range s.next := by rw [← hq]; exact h.all
      obtain ⟨e1, e2, e3, e4, -⟩ := emits_eq w.snd { s with ev := false, queue := q }
      have key : ∀ (t : St) (e : Ec), t.answers = s.answers ++ [(m, e)] → t.queue = q → t.next = s.next →
          t.wire = s.wire ++ (if e = .ok then [m] else []) → Msgs t := by
        intro t e g1 g2 g3 g4
        refine ⟨?_, ?_⟩
        · rw [g1, g2, g3, List.map_append, List.append_assoc]; exact hall
        · rw [g1, g4, List.filter_append, List.map_append, h.wire]
          congr 1
          by_cases he : e = .ok
          · simp [he]
          · simp [he]
      split
      · refine key _ .malformed ?_ ?_ ?_ ?_
        · show (St.emits _ _).answers ++ _ = _; rw [e1]
        · exact e2
        · exact e3
        · simp only [e4]; simp
      · refine key _ .unknown ?_ ?_ ?_ ?_
        · show (St.emits _ _).answers ++ _ = _; rw [e1]
        · exact e2
        · exact e3
        · simp only [e4]; simp
      · refine key _ .ok ?_ ?_ ?_ ?_
        · show (St.emits _ _).answers ++ _ = _; rw [e1]
        · exact e2
        · exact e3
        · simp only [e4]; simp

theorem msgs_step {s : St} (op : Op) (h : Msgs s) : Msgs (step s op) := by
  cases op <;> (unfold step; dsimp only; split)
  · exact msgs_send h
  · exact h
  · exact msgs_close _ h
  · exact h
  · exact msgs_destroyOwner h
  · exact h
  · exact msgs_packet _ h
  · exact h
  · exact h.of_eq rfl rfl rfl rfl
  · exact h
  · exact msgs_sent _ h
  · exact h
  · exact msgs_runSend _ h
  · exact h
  · exact msgs_doOne _ h
  · exact h

theorem msgs_run (ops : List Op) : Msgs (run ops) := by
  induction ops using snoc_ind with
  | h0 => exact ⟨rfl, rfl⟩
  | hs ops op ih => rw [run_snoc]; exact msgs_step op ih

/-! ## The life of the session -/

/-- The session is there exactly as long as the connection, or until the end of the call which handles a packet. -/
structure Inv (s : St) : Prop where
  good : s.bad = false
  dead : s.owner = !s.destroyed
  once : s.freed = if s.destroyed && !s.receiving then 1 else 0
  net : s.net = .idle ∨ s.buf = true
  way : s.buf = true → (s.net = .flying ∨ s.net = .done) ∧ s.destroyed = false
  rest : s.freed = 1 → s.ev = false ∧ s.queue = []

theorem inv_alive {s : St} (h : Inv s) (ho : s.owner = true) : s.destroyed = false ∧ s.freed = 0 := by
  have hd : s.destroyed = false := by
    have := h.dead; rw [ho] at this; cases hd : s.destroyed
    · rfl
    · rw [hd] at this; cases this
  exact ⟨hd, by have := h.once; rw [hd] at this; exact this⟩

theorem inv_emit {s : St} (r : Snd) (h : Inv s) (ho : s.owner = true) : Inv (s.emit r) := by
  unfold St.emit
  simp only [ho, if_true]
  split
  · exact h
  · split
    · exact h
    · exact h
    · exact ⟨h.good, ho.symm.trans h.dead, h.once, Or.inr rfl, fun _ => ⟨Or.inl rfl, (inv_alive h ho).1⟩, h.rest⟩

theorem inv_emits (l : List Snd) : ∀ {s : St}, Inv s → s.owner = true → Inv (s.emits l) := by
  induction l with
  | nil => intro s h _; exact h
  | cons r l ih => intro s h ho; exact ih (inv_emit r h ho) ((emit_eq s r).2.2.2.2.2.2.1.trans ho)

theorem destroyOwner_eq {s : St} (hf : s.freed = 0) (hb : s.buf = false) (hn : s.net = .idle) :
    s.destroyOwner = if s.receiving then { s with destroyed := true, owner := false }
      else { s with
        destroyed := true, owner := false, freed := 1, queue := [],
        answers := s.answers ++ s.queue.map (fun m => (m, .closing)), ev := false } := by
  obtain ⟨phase, buf, net, queue, ev, receiving, destroyed, freed, owner, bad, early, next, answers, wire⟩ := s
  cases hf; cases hb; cases hn
  cases receiving <;> cases early <;> rfl

theorem inv_idle {s : St} (h : Inv s) (hb : s.buf = false) : s.net = .idle := by
  rcases h.net with h1 | h1
  · exact h1
  · rw [hb] at h1; cases h1

theorem inv_destroyOwner {s : St} (h : Inv s) (ho : s.owner = true) (hb : s.buf = false) : Inv s.destroyOwner := by
  obtain ⟨hd, hf⟩ := inv_alive h ho
  have hn := inv_idle h hb
  have hb' : s.buf ≠ true := by rw [hb]; simp
  rw [destroyOwner_eq hf hb hn]
  split
  · next hr =>
    exact ⟨h.good, rfl, by show s.freed = _; rw [hf]; simp [hr], h.net, fun hx => absurd hx hb',
      fun h1 => absurd h1 (by show s.freed ≠ 1; rw [hf]; simp)⟩
  · next hr =>
    exact ⟨h.good, rfl, by simp [hr], h.net, fun hx => absurd hx hb', fun _ => ⟨rfl, rfl⟩⟩

theorem inv_closedEvent {s : St} (h : Inv s) (ho : s.owner = true) (hb : s.buf = false) : Inv s.closedEvent := by
  unfold St.closedEvent; rw [if_pos ho]; exact inv_destroyOwner h ho hb

theorem inv_isClosed {s : St} (h : Inv s) (ho : s.owner = true) : Inv s.isClosed := by
  unfold St.isClosed
  split
  · exact h
  · split
    · exact h
    · next hb =>
      split
      · exact h
      · exact inv_closedEvent h ho (by simpa using hb)

theorem inv_startSend {s : St} (h : Inv s) (ho : s.owner = true) : Inv s.startSend := by
  unfold St.startSend
  rw [touch_alive (inv_alive h ho).2]
  exact ⟨h.good, h.dead, h.once, h.net, h.way, fun h1 => absurd h1 (by
    show s.freed ≠ 1; rw [(inv_alive h ho).2]; simp)⟩

theorem inv_send {s : St} (h : Inv s) (ho : s.owner = true) : Inv s.send := by
  unfold St.send
  split
  · exact h
  · exact inv_startSend (s := { s with queue := s.queue ++ [s.next], next := s.next + 1 })
      ⟨h.good, h.dead, h.once, h.net, h.way, fun h1 => absurd h1 (by
        show s.freed ≠ 1; rw [(inv_alive h ho).2]; simp)⟩ ho

theorem inv_close {s : St} (l : List Snd) (h : Inv s) (ho : s.owner = true) : Inv (s.close l) := by
  unfold St.close
  split
  · exact h
  · refine inv_isClosed (inv_emits l ⟨h.good, h.dead, h.once, h.net, h.way, h.rest⟩ ho) ?_
    rw [(emits_eq l _).2.2.2.2.2.2.1]; exact ho

theorem inv_act {s : St} (a : Act) (h : Inv s) : Inv (s.act a) := by
  cases a <;> (unfold St.act; dsimp only; split)
  · next ho => exact inv_send h ho
  · exact h
  · next ho => exact inv_close _ h ho
  · exact h

theorem inv_acts (l : List Act) : ∀ {s : St}, Inv s → Inv (s.acts l) := by
  induction l with
  | nil => intro s h; exact h
  | cons r l ih => intro s h; exact ih (inv_act r h)

theorem startSend_owner (s : St) : s.startSend.owner = s.owner := (touch_eq s).2.2.2.2.2.2.2.1

theorem send_owner (s : St) : s.send.owner = s.owner := by
  unfold St.send; split
  · rfl
  · exact startSend_owner _

theorem acts_owner (l : List Act) (hl : ∀ a ∈ l, a = .send) : ∀ s : St, (s.acts l).owner = s.owner := by
  induction l with
  | nil => intro s; rfl
  | cons a l ih =>
    intro s
    have ha : a = .send := hl a (by simp)
    have : (s.act a).owner = s.owner := by
      rw [ha]; unfold St.act; dsimp only; split
      · exact send_owner s
      · rfl
    exact (ih (fun x hx => hl x (by simp [hx])) (s.act a)).trans this

theorem emit_buf (s : St) (r : Snd) (hb : s.buf = false) (hr : r ≠ .sent) : (s.emit r).buf = false := by
  unfold St.emit
  rw [if_neg (by rw [hb]; simp)]
  cases r with
  | noBuffer => exact hb
  | refused => dsimp only; split <;> exact hb
  | sent => exact absurd rfl hr

theorem emits_buf (l : List Snd) (hl : Snd.sent ∉ l) : ∀ s : St, s.buf = false → (s.emits l).buf = false := by
  induction l with
  | nil => intro s h; exact h
  | cons r l ih =>
    intro s h
    exact ih (fun hx => hl (by simp [hx])) (s.emit r) (emit_buf s r h (fun hr => hl (by simp [hr])))

theorem doOne_ok {s : St} {r : Tls} {acts : List Act} (hp : s.phase ≠ .closing) (hr : r.ret = .ok acts)
    (ho : s.owner = true) : ∃ t, Inv s → Inv t ∧ t.owner = true ∧ s.doOne r = t.acts acts := by
  refine ⟨{ s.emits r.snd with phase := .data }, ?_⟩
  intro h
  have h1 := inv_emits r.snd h ho
  have o1 : (s.emits r.snd).owner = true := (emits_eq r.snd s).2.2.2.2.2.2.1.trans ho
  refine ⟨⟨h1.good, h1.dead, h1.once, h1.net, h1.way, h1.rest⟩, o1, ?_⟩
  unfold St.doOne
  rw [if_neg hp, hr]
  dsimp only
  rw [if_pos o1]

theorem inv_doOne {s : St} (r : Tls) (h : Inv s) (ho : s.owner = true)
    (hc : Ends r → s.phase ≠ .closing → s.buf = false ∧ .sent ∉ r.snd) : Inv (s.doOne r) := by
  by_cases hp : s.phase = .closing
  · unfold St.doOne; rw [if_pos hp]; exact h
  · cases hr : r.ret with
    | want => unfold St.doOne; rw [if_neg hp, hr]; exact inv_emits r.snd h ho
    | ok acts =>
      obtain ⟨t, ht⟩ := doOne_ok hp hr ho
      obtain ⟨h1, -, h3⟩ := ht h
      rw [h3]; exact inv_acts acts h1
    | ended =>
      unfold St.doOne; rw [if_neg hp, hr]
      obtain ⟨hb, hs⟩ := hc hr hp
      exact inv_closedEvent (inv_emits r.snd h ho) ((emits_eq r.snd s).2.2.2.2.2.2.1.trans ho) (emits_buf _ hs s hb)

/-- A result which neither ends nor closes the session leaves the connection. -/
theorem doOne_owner {s : St} (r : Tls) (h : Inv s) (ho : s.owner = true) (he : ¬ Ends r) (hc : ¬ Closes r) :
    (s.doOne r).owner = true := by
  by_cases hp : s.phase = .closing
  · unfold St.doOne; rw [if_pos hp]; exact ho
  · cases hr : r.ret with
    | want => unfold St.doOne; rw [if_neg hp, hr]; exact (emits_eq r.snd s).2.2.2.2.2.2.1.trans ho
    | ok acts =>
      obtain ⟨t, ht⟩ := doOne_ok hp hr ho
      obtain ⟨-, h2, h3⟩ := ht h
      rw [h3, acts_owner acts ?_ t]; · exact h2
      intro a ha
      cases a with
      | send => rfl
      | close l => exact absurd ⟨acts, l, hr, ha⟩ hc
    | ended => exact absurd hr he

/-- The receiving flag is not changed by anything the session does while it handles a packet. -/
theorem destroyOwner_recv (s : St) : s.destroyOwner.receiving = s.receiving := by
  unfold St.destroyOwner St.destroy
  dsimp only
  split
  · show (St.touch { s.touch with destroyed := true }).receiving = _
    rw [(touch_eq _).2.2.2.2.2.1]; exact (touch_eq s).2.2.2.2.2.1
  · exact (touch_eq s).2.2.2.2.2.1

theorem closedEvent_recv (s : St) : s.closedEvent.receiving = s.receiving := by
  unfold St.closedEvent; split
  · exact destroyOwner_recv s
  · rfl

theorem isClosed_recv (s : St) : s.isClosed.receiving = s.receiving := by
  unfold St.isClosed; split
  · rfl
  · split
    · rfl
    · split
      · rfl
      · exact closedEvent_recv s

theorem act_recv (s : St) (a : Act) : (s.act a).receiving = s.receiving := by
  cases a <;> (unfold St.act; dsimp only; split)
  · unfold St.send; split
    · rfl
    · exact (touch_eq _).2.2.2.2.2.1
  · rfl
  · unfold St.close; split
    · rfl
    · rw [isClosed_recv, (emits_eq _ _).2.2.2.2.2.1]
  · rfl

theorem act_owner {s : St} (a : Act) (ho : s.owner = true) :
    s.act a = match a with | .send => s.send | .close l => s.close l := by
  cases a <;> (unfold St.act; dsimp only; rw [if_pos ho])

theorem acts_recv (l : List Act) : ∀ s : St, (s.acts l).receiving = s.receiving := by
  induction l with
  | nil => intro s; rfl
  | cons a l ih => intro s; exact (ih (s.act a)).trans (act_recv s a)

theorem doOne_recv (s : St) (r : Tls) : (s.doOne r).receiving = s.receiving := by
  unfold St.doOne
  split
  · rfl
  · have h1 := (emits_eq r.snd s).2.2.2.2.2.1
    dsimp only
    split
    · exact h1
    · split
      · rw [acts_recv]; exact h1
      · exact h1
    · rw [closedEvent_recv]; exact h1

theorem inv_packet {s : St} (r : Tls) (h : Inv s) (ho : s.owner = true)
    (hc : Ends r → s.phase ≠ .closing → s.buf = false ∧ .sent ∉ r.snd) :
    Inv (s.packet r) ∧ (s.packet r).receiving = false := by
  obtain ⟨hd, hf⟩ := inv_alive h ho
  have h0 : Inv { s with receiving := true } :=
    ⟨h.good, h.dead, by show s.freed = if s.destroyed && !true then 1 else 0; rw [hf]; simp, h.net, h.way, h.rest⟩
  have h1 := inv_doOne r h0 ho hc
  have hr : ({ s with receiving := true }.doOne r).receiving = true := doOne_recv _ r
  have hf1 : ({ s with receiving := true }.doOne r).freed = 0 := by rw [h1.once, hr]; simp
  unfold St.packet
  rw [touch_alive hf1]
  generalize { s with receiving := true }.doOne r = t at h1 hr hf1
  dsimp only
  rcases Bool.eq_false_or_eq_true t.destroyed with hd1 | hd1
  · have hb : t.buf = false := by
      rcases Bool.eq_false_or_eq_true t.buf with hb | hb
      · have := (h1.way hb).2; rw [hd1] at this; cases this
      · exact hb
    rw [if_pos (by rw [hd1, hb]; rfl)]
    have ht : St.touch { t with receiving := false } = { t with receiving := false } := touch_alive hf1
    have hfree : St.free { t with receiving := false } = { t with
        receiving := false, freed := t.freed + 1, queue := [],
        answers := t.answers ++ t.queue.map fun m => (m, .closing), ev := false, net := .idle,
        early := t.early || t.buf } := by
      unfold St.free; rw [ht]
    rw [hfree]
    refine ⟨⟨h1.good, h1.dead, ?_, Or.inl rfl, ?_, fun _ => ⟨rfl, rfl⟩⟩, rfl⟩
    · show t.freed + 1 = if t.destroyed && !false then 1 else 0
      rw [hf1, hd1]; rfl
    · intro hb'; have : t.buf = true := hb'; rw [hb] at this; cases this
  · rw [if_neg (by rw [hd1]; simp)]
    exact ⟨⟨h1.good, h1.dead, by show t.freed = if t.destroyed && !false then 1 else 0; rw [hd1, hf1]; simp, h1.net,
      h1.way, h1.rest⟩, rfl⟩

/-- The invariant between the operations. -/
def Top (s : St) : Prop := Inv s ∧ s.receiving = false

theorem inv_calm {ops : List Op} {r : Tls} (hc : Ends r → ¬ OnItsWay ops ∧ .sent ∉ r.snd) :
    Ends r → (run ops).phase ≠ .closing → (run ops).buf = false ∧ .sent ∉ r.snd := by
  intro he _
  obtain ⟨h1, h2⟩ := hc he
  exact ⟨by unfold OnItsWay at h1; simpa using h1, h2⟩

theorem sent_inv {s : St} (h : Top s) (r : Tls) (hn : s.net = .done) (hc : ¬ Ends r ∧ ¬ Closes r) :
    Top (s.sent r) ∧ (s.sent r).owner = true := by
  have hb : s.buf = true := by
    rcases h.1.net with h1 | h1
    · rw [hn] at h1; cases h1
    · exact h1
  have hd := (h.1.way hb).2
  have ho : s.owner = true := by rw [h.1.dead, hd]; rfl
  have h1 : Inv { s with buf := false, net := .idle } :=
    ⟨h.1.good, h.1.dead, h.1.once, Or.inl rfl, fun hx => (by cases hx), h.1.rest⟩
  unfold St.sent
  dsimp only
  rw [if_neg (by rw [hd]; simp)]
  have h2 : Inv ({ s with buf := false, net := .idle }.doOne r) := inv_doOne r h1 ho (fun he => absurd he hc.1)
  have ho2 := doOne_owner r h1 ho hc.1 hc.2
  have hr : ({ s with buf := false, net := .idle }.doOne r).receiving = s.receiving := doOne_recv _ r
  refine ⟨⟨inv_startSend h2 ho2, ?_⟩, (startSend_owner _).trans ho2⟩
  show (St.touch _).receiving = false
  rw [(touch_eq _).2.2.2.2.2.1, hr]; exact h.2

theorem inv_runSend {s : St} (w : Write) (h : Top s) (he : s.ev = true) : Top (s.runSend w) := by
  have hf : s.freed = 0 := by
    by_cases hd : s.destroyed = true
    · have h1 := h.1.once; rw [hd, h.2] at h1
      have := (h.1.rest h1).1; rw [he] at this; cases this
    · have h1 := h.1.once; rw [show s.destroyed = false by simpa using hd] at h1; exact h1
  have hd : s.destroyed = false := by
    cases hd : s.destroyed
    · rfl
    · have h1 := h.1.once; rw [hd, h.2, hf] at h1; cases h1
  have ho : s.owner = true := by rw [h.1.dead, hd]; rfl
  have h1 : Inv { s with ev := false } := ⟨h.1.good, h.1.dead, h.1.once, h.1.net, h.1.way, fun h1 => ⟨rfl, (h.1.rest h1).2⟩⟩
  unfold St.runSend
  dsimp only
  split
  · exact ⟨h1, h.2⟩
  · split
    · exact ⟨inv_isClosed h1 ho, (isClosed_recv _).trans h.2⟩
    · next m q hq =>
      have h2 : Inv ({ s with ev := false, queue := q }.emits w.snd) :=
        inv_emits w.snd ⟨h1.good, h1.dead, h1.once, h1.net, h1.way, fun h1 => absurd h1 (by
          show s.freed ≠ 1; rw [hf]; simp)⟩ ho
      have hr : ({ s with ev := false, queue := q }.emits w.snd).receiving = false :=
        (emits_eq w.snd _).2.2.2.2.2.1.trans h.2
      split <;> exact ⟨⟨h2.good, h2.dead, h2.once, h2.net, h2.way, h2.rest⟩, hr⟩

theorem top_step {ops : List Op} (op : Op) (h : Top (run ops)) (hc : CalmOp ops op) : Top (step (run ops) op) := by
  cases op with
  | send =>
    unfold step; dsimp only; split
    · next ho =>
      refine ⟨inv_send h.1 ho, ?_⟩
      have := act_recv (run ops) .send
      rw [act_owner _ ho] at this; exact this.trans h.2
    · exact h
  | close l =>
    unfold step; dsimp only; split
    · next ho =>
      refine ⟨inv_close l h.1 ho, ?_⟩
      have := act_recv (run ops) (.close l)
      rw [act_owner _ ho] at this; exact this.trans h.2
    · exact h
  | kill =>
    unfold step; dsimp only; split
    · next ho =>
      have hb : ¬ OnItsWay ops := hc
      exact ⟨inv_destroyOwner h.1 ho (by unfold OnItsWay at hb; simpa using hb), (destroyOwner_recv _).trans h.2⟩
    · exact h
  | packet r =>
    unfold step; dsimp only; split
    · next ho => exact inv_packet r h.1 ho (inv_calm hc)
    · exact h
  | udpDone =>
    unfold step; dsimp only; split
    · next hn =>
      refine ⟨⟨h.1.good, h.1.dead, h.1.once, ?_, ?_, h.1.rest⟩, h.2⟩
      · right; rcases h.1.net with h1 | h1
        · rw [hn] at h1; cases h1
        · exact h1
      · intro hb; exact ⟨Or.inr rfl, (h.1.way hb).2⟩
    · exact h
  | sent r =>
    unfold step; dsimp only; split
    · next hn => exact (sent_inv h r hn hc).1
    · exact h
  | runSend w =>
    unfold step; dsimp only; split
    · next he => exact inv_runSend w h he
    · exact h
  | timer r =>
    unfold step; dsimp only; split
    · next hf =>
      have hd : (run ops).destroyed = false := by
        cases hd : (run ops).destroyed
        · rfl
        · have h1 := h.1.once; rw [hd, h.2, hf] at h1; cases h1
      exact ⟨inv_doOne r h.1 (by rw [h.1.dead, hd]; rfl) (inv_calm hc), (doOne_recv _ r).trans h.2⟩
    · exact h

theorem top_run (ops : List Op) (h : Calm ops) : Top (run ops) := by
  induction ops using snoc_ind with
  | h0 => exact ⟨⟨rfl, rfl, rfl, Or.inl rfl, fun hx => (by cases hx), fun _ => ⟨rfl, rfl⟩⟩, rfl⟩
  | hs ops op ih => rw [run_snoc]; exact top_step op (ih (calm_left h)) (calm_last h)

/-! ## Progress -/

/-- As long as messages wait, or the session is closing, there is something to come: the event which sends, or the completion
of a packet. -/
structure Live (s : St) : Prop where
  msgs : s.owner = true → s.queue ≠ [] → s.ev = true ∨ s.buf = true
  clo : s.owner = true → s.phase = .closing → s.ev = true ∨ s.buf = true

theorem emit_mono (s : St) (r : Snd) (h : s.buf = true) : (s.emit r).buf = true := by
  unfold St.emit; rw [if_pos h]; exact h

theorem emits_mono (l : List Snd) : ∀ s : St, s.buf = true → (s.emits l).buf = true := by
  induction l with
  | nil => intro s h; exact h
  | cons r l ih => intro s h; exact ih _ (emit_mono s r h)

theorem emits_sent (l : List Snd) (hl : Snd.sent ∈ l) : ∀ s : St, s.owner = true → (s.emits l).buf = true := by
  induction l with
  | nil => cases hl
  | cons r l ih =>
    intro s ho
    by_cases hr : r = .sent
    · refine emits_mono l _ ?_
      rw [hr]; unfold St.emit
      split
      · next hb => exact hb
      · rfl
    · refine ih ?_ _ ((emit_eq s r).2.2.2.2.2.2.1.trans ho)
      rcases List.mem_cons.1 hl with h | h
      · exact absurd h.symm hr
      · exact h

theorem live_emits (l : List Snd) {s : St} (h : Live s) : Live (s.emits l) := by
  obtain ⟨-, e2, -, -, -, -, e7, -, e9, e10⟩ := emits_eq l s
  refine ⟨?_, ?_⟩
  · intro ho hq
    rw [e7] at ho; rw [e2] at hq
    rcases h.msgs ho hq with h1 | h1
    · left; rw [e10]; exact h1
    · right; exact emits_mono l s h1
  · intro ho hp
    rw [e7] at ho; rw [e9] at hp
    rcases h.clo ho hp with h1 | h1
    · left; rw [e10]; exact h1
    · right; exact emits_mono l s h1

theorem live_gone {s : St} (h : s.owner = false) : Live s :=
  ⟨fun ho => (by rw [h] at ho; cases ho), fun ho => (by rw [h] at ho; cases ho)⟩

theorem live_isClosed {s : St} (h : s.owner = true → s.queue ≠ [] → s.ev = true ∨ s.buf = true)
    : Live s.isClosed := by
  unfold St.isClosed
  split
  · next hp => exact ⟨h, fun _ hx => absurd hx hp⟩
  · split
    · next hb => exact ⟨fun _ _ => Or.inr hb, fun _ _ => Or.inr hb⟩
    · split
      · next hq => exact ⟨h, fun ho _ => h ho hq⟩
      · unfold St.closedEvent; split
        · exact live_gone rfl
        · next ho => exact live_gone (by simpa using ho)

theorem live_startSend (s : St) : Live s.startSend := ⟨fun _ _ => Or.inl rfl, fun _ _ => Or.inl rfl⟩

theorem live_send {s : St} (h : Live s) : Live s.send := by
  unfold St.send; split
  · exact h
  · exact live_startSend _

theorem live_close (l : List Snd) {s : St} (h : Live s) : Live (s.close l) := by
  unfold St.close
  split
  · exact h
  · apply live_isClosed
    obtain ⟨-, e2, -, -, -, -, e7, -, e9, e10⟩ := emits_eq l { s with phase := .closing }
    intro ho hq
    rw [e7] at ho; rw [e2] at hq
    rcases h.msgs ho hq with h1 | h1
    · left; rw [e10]; exact h1
    · right; exact emits_mono l _ h1

theorem live_acts (l : List Act) : ∀ {s : St}, Live s → Live (s.acts l) := by
  induction l with
  | nil => intro s h; exact h
  | cons a l ih =>
    intro s h
    refine ih (s := s.act a) ?_
    cases a <;> (unfold St.act; dsimp only; split)
    · exact live_send h
    · exact h
    · exact live_close _ h
    · exact h

theorem live_doOne (r : Tls) {s : St} (h : Live s) : Live (s.doOne r) := by
  unfold St.doOne
  split
  · exact h
  · have h1 := live_emits r.snd h
    dsimp only
    split
    · exact h1
    · have h2 : Live { s.emits r.snd with phase := .data } := ⟨h1.msgs, fun _ hx => by cases hx⟩
      split
      · exact live_acts _ h2
      · exact ⟨h2.msgs, h2.clo⟩
    · unfold St.closedEvent; split
      · exact live_gone rfl
      · next ho => exact live_gone (by simpa using ho)

theorem live_packet (r : Tls) {s : St} (h : Live s) (hi : Inv (s.packet r)) : Live (s.packet r) := by
  have h1 : Live ({ s with receiving := true }.doOne r) := live_doOne r ⟨h.msgs, h.clo⟩
  by_cases hd : (s.packet r).destroyed = true
  · exact live_gone (by rw [hi.dead, hd]; rfl)
  · unfold St.packet at hd ⊢
    dsimp only at hd ⊢
    split
    · next hc =>
      rw [if_pos hc] at hd
      exfalso; apply hd
      show (St.touch _).destroyed = true
      rw [(touch_eq _).2.2.2.2.2.2.2.2.1]
      exact (Bool.and_eq_true_iff.1 hc).1
    · obtain ⟨-, e2, -, -, -, -, e7, e8, -, -, e11, e12⟩ := touch_eq ({ s with receiving := true }.doOne r)
      refine ⟨?_, ?_⟩
      · intro ho hq
        have := h1.msgs (e8.symm.trans ho) (by rw [← e2]; exact hq)
        rw [← e12, ← e7] at this; exact this
      · intro ho hq
        have := h1.clo (e8.symm.trans ho) (e11.symm.trans hq)
        rw [← e12, ← e7] at this; exact this

theorem live_runSend (w : Write) {s : St} (hw : .sent ∈ w.snd) : Live (s.runSend w) := by
  unfold St.runSend
  dsimp only
  split
  · next hb => exact ⟨fun _ _ => Or.inr hb, fun _ _ => Or.inr hb⟩
  · split
    · next hq => exact live_isClosed (fun _ hx => absurd hq hx)
    · next m q hq =>
      have hb : s.owner = true → ({ s with ev := false, queue := q }.emits w.snd).buf = true :=
        fun ho => emits_sent w.snd hw _ ho
      have e7 : ({ s with ev := false, queue := q }.emits w.snd).owner = s.owner := (emits_eq w.snd _).2.2.2.2.2.2.1
      split <;> exact ⟨fun ho _ => Or.inr (hb (e7.symm.trans ho)), fun ho _ => Or.inr (hb (e7.symm.trans ho))⟩

theorem live_step {ops : List Op} (op : Op) (h : Live (run ops)) (ht : Top (run ops)) (hc : CalmOp ops op)
    (hl : ∀ w, op = .runSend w → .sent ∈ w.snd) : Live (step (run ops) op) := by
  cases op with
  | send => unfold step; dsimp only; split
            · exact live_send h
            · exact h
  | close l => unfold step; dsimp only; split
               · exact live_close l h
               · exact h
  | kill => unfold step; dsimp only; split
            · exact live_gone rfl
            · exact h
  | packet r =>
    unfold step; dsimp only; split
    · next ho => exact live_packet r h (inv_packet r ht.1 ho (inv_calm hc)).1
    · exact h
  | udpDone => unfold step; dsimp only; split
               · exact ⟨h.msgs, h.clo⟩
               · exact h
  | sent r =>
    unfold step; dsimp only; split
    · next hn =>
      unfold St.sent; dsimp only; split
      · next hd =>
        apply live_gone
        have hd' : (run ops).destroyed = true := (Bool.and_eq_true_iff.1 hd).2
        show (St.touch _).owner = false
        rw [(touch_eq _).2.2.2.2.2.2.2.1]
        show (run ops).owner = false
        rw [ht.1.dead, hd']; rfl
      · exact live_startSend _
    · exact h
  | runSend w => unfold step; dsimp only; split
                 · exact live_runSend w (hl w rfl)
                 · exact h
  | timer r => unfold step; dsimp only; split
               · exact live_doOne r h
               · exact h

theorem live_run (ops : List Op) (hc : Calm ops) (hl : Lossless ops) : Live (run ops) := by
  induction ops using snoc_ind with
  | h0 => exact ⟨fun _ hx => absurd rfl hx, fun _ hx => by cases hx⟩
  | hs ops op ih =>
    rw [run_snoc]
    refine live_step op (ih (calm_left hc) (fun w hw => hl w (by simp [hw]))) (top_run ops (calm_left hc)) (calm_last hc) ?_
    intro w hw; exact hl w (by simp [hw])

/-! ## Rounds -/

theorem closedEvent_phase (s : St) : s.closedEvent.phase = s.phase := by
  unfold St.closedEvent St.destroyOwner St.destroy
  split
  · dsimp only
    split
    · show (St.touch _).phase = _
      rw [(touch_eq _).2.2.2.2.2.2.2.2.2.2.1]; exact (touch_eq s).2.2.2.2.2.2.2.2.2.2.1
    · exact (touch_eq s).2.2.2.2.2.2.2.2.2.2.1
  · rfl

theorem isClosed_phase (s : St) : s.isClosed.phase = s.phase := by
  unfold St.isClosed
  split
  · rfl
  · split
    · rfl
    · split
      · rfl
      · exact closedEvent_phase s

theorem doOne_closing {s : St} (r : Tls) (h : s.phase = .closing) : s.doOne r = s := by
  unfold St.doOne; rw [if_pos h]

theorem closing_step {s : St} (op : Op) (h : s.phase = .closing) : (step s op).phase = .closing := by
  cases op with
  | send => unfold step; dsimp only; split
            · unfold St.send; rw [if_pos h]; exact h
            · exact h
  | close l => unfold step; dsimp only; split
               · unfold St.close; rw [if_pos h]; exact h
               · exact h
  | kill =>
    unfold step; dsimp only; split
    · next ho =>
      have := closedEvent_phase s
      unfold St.closedEvent at this; rw [if_pos ho] at this
      exact this.trans h
    · exact h
  | packet r =>
    unfold step; dsimp only; split
    · unfold St.packet
      rw [doOne_closing r (s := { s with receiving := true }) h]
      have h1 : (St.touch { s with receiving := true }).phase = .closing :=
        (touch_eq _).2.2.2.2.2.2.2.2.2.2.1.trans h
      dsimp only
      split
      · show (St.touch _).phase = _
        rw [(touch_eq _).2.2.2.2.2.2.2.2.2.2.1]; exact h1
      · exact h1
    · exact h
  | udpDone => unfold step; dsimp only; split <;> exact h
  | sent r =>
    unfold step; dsimp only; split
    · unfold St.sent
      dsimp only
      rw [doOne_closing r (s := { s with buf := false, net := .idle }) h]
      split
      · show (St.touch _).phase = _
        rw [(touch_eq _).2.2.2.2.2.2.2.2.2.2.1]; exact h
      · show (St.touch _).phase = _
        rw [(touch_eq _).2.2.2.2.2.2.2.2.2.2.1]; exact h
    · exact h
  | runSend w =>
    unfold step; dsimp only; split
    · unfold St.runSend
      dsimp only
      split
      · exact h
      · split
        · rw [isClosed_phase]; exact h
        · next m q hq =>
          have h1 : ({ s with ev := false, queue := q }.emits w.snd).phase = .closing :=
            (emits_eq w.snd _).2.2.2.2.2.2.2.2.1.trans h
          split <;> exact h1
    · exact h
  | timer r =>
    unfold step; dsimp only; split
    · rw [doOne_closing r h]; exact h
    · exact h

theorem closing_run (ops : List Op) (l : List Snd) (h : .close l ∈ ops) :
    (run ops).phase = .closing ∨ (run ops).owner = false := by
  have gone : ∀ (s : St) (op : Op), s.owner = false → (step s op).owner = false := by
    intro s op ho
    have em : ∀ (l : List Snd) (s : St), s.owner = false → (s.emits l).owner = false :=
      fun l s ho => (emits_eq l s).2.2.2.2.2.2.1.trans ho
    have ce : ∀ s : St, s.owner = false → s.closedEvent.owner = false := by
      intro s ho; unfold St.closedEvent; rw [if_neg (by rw [ho]; simp)]; exact ho
    have ic : ∀ s : St, s.owner = false → s.isClosed.owner = false := by
      intro s ho
      unfold St.isClosed
      split
      · exact ho
      · split
        · exact ho
        · split
          · exact ho
          · exact ce s ho
    have d1 : ∀ (s : St) (r : Tls), s.owner = false → (s.doOne r).owner = false := by
      intro s r ho
      unfold St.doOne
      split
      · exact ho
      · dsimp only
        split
        · exact em _ _ ho
        · rw [if_neg (by rw [em r.snd s ho]; simp)]; exact em _ _ ho
        · exact ce _ (em _ _ ho)
    cases op with
    | send => unfold step; dsimp only; rw [if_neg (by rw [ho]; simp)]; exact ho
    | close l => unfold step; dsimp only; rw [if_neg (by rw [ho]; simp)]; exact ho
    | kill => unfold step; dsimp only; rw [if_neg (by rw [ho]; simp)]; exact ho
    | packet r => unfold step; dsimp only; rw [if_neg (by rw [ho]; simp)]; exact ho
    | udpDone => unfold step; dsimp only; split <;> exact ho
    | sent r =>
      unfold step; dsimp only; split
      · unfold St.sent
        dsimp only
        split
        · show (St.touch _).owner = _
          rw [(touch_eq _).2.2.2.2.2.2.2.1]; exact ho
        · rw [startSend_owner]; exact d1 _ r ho
      · exact ho
    | runSend w =>
      unfold step; dsimp only; split
      · unfold St.runSend
        dsimp only
        split
        · exact ho
        · split
          · exact ic _ ho
          · next m q hq =>
            have h1 : ({ s with ev := false, queue := q }.emits w.snd).owner = false := em _ _ ho
            split <;> exact h1
      · exact ho
    | timer r =>
      unfold step; dsimp only; split
      · exact d1 s r ho
      · exact ho
  induction ops using snoc_ind with
  | h0 => cases h
  | hs ops op ih =>
    rw [run_snoc]
    by_cases hm : .close l ∈ ops
    · rcases ih hm with h1 | h1
      · exact Or.inl (closing_step op h1)
      · exact Or.inr (gone _ op h1)
    · have he : op = .close l := by simpa [hm, eq_comm] using h
      rw [he]
      unfold step; dsimp only; split
      · left
        unfold St.close
        split
        · next hp => exact hp
        · rw [isClosed_phase, (emits_eq l _).2.2.2.2.2.2.2.2.1]
      · next ho => right; simpa using ho

/-- What a round does to the state. -/
theorem round_run (s : St) (w : Write) (ht : Top s) (hl : Live s) (ho : s.owner = true)
    (hs : s.queue ≠ [] ∨ s.phase = .closing) :
    (round w).foldl step s = ({ s with buf := false, net := .idle, ev := true }).runSend w := by
  have hf := (inv_alive ht.1 ho).2
  have hd := (inv_alive ht.1 ho).1
  have hev : s.ev = true ∨ s.buf = true := by
    rcases hs with h | h
    · exact hl.msgs ho h
    · exact hl.clo ho h
  obtain ⟨phase, buf, net, queue, ev, receiving, destroyed, freed, owner, bad, early, next, answers, wire⟩ := s
  cases hf; cases ho; cases hd
  cases buf with
  | true =>
    rcases (ht.1.way rfl).1 with hn | hn <;> cases hn <;> cases phase <;> rfl
  | false =>
    have hn : net = .idle := inv_idle ht.1 rfl
    rcases hev with h | h
    · cases h; cases hn; rfl
    · cases h

theorem calm_round {ops : List Op} (h : Calm ops) (w : Write) : Calm (ops ++ round w) := by
  have snoc : ∀ (ops : List Op) (op : Op), Calm ops → CalmOp ops op → Calm (ops ++ [op]) := by
    intro ops op h hc b x a he
    rcases List.eq_nil_or_concat a with rfl | ⟨a', y, rfl⟩
    · rw [show b ++ [x] = b ++ [x] from rfl] at he
      obtain ⟨h1, h2⟩ := List.append_inj' he rfl
      cases h2; rw [← h1]; exact hc
    · rw [List.concat_eq_append] at he
      have he' : ops ++ [op] = (b ++ x :: a') ++ [y] := by rw [he]; simp
      obtain ⟨h1, -⟩ := List.append_inj' he' rfl
      exact h b x a' h1
  have h1 := snoc ops .udpDone h trivial
  have h2 := snoc _ (.sent ⟨[], .want⟩) h1 ⟨fun hx => (by cases hx), fun ⟨_, _, hx, _⟩ => (by cases hx)⟩
  have h3 := snoc _ (.runSend w) h2 trivial
  simpa [round] using h3

theorem lossless_round {ops : List Op} (h : Lossless ops) (w : Write) (hw : .sent ∈ w.snd) : Lossless (ops ++ round w) := by
  intro x hx
  rcases List.mem_append.1 hx with h1 | h1
  · exact h x h1
  · simp only [round, List.mem_cons, List.not_mem_nil, or_false, reduceCtorEq, false_or, Op.runSend.injEq] at h1
    rw [h1]; exact hw

/-- A round reports the first message which waits. -/
theorem round_pop {s : St} (w : Write) (ht : Top s) (hl : Live s) (ho : s.owner = true) {m : Nat} {q : List Nat}
    (hq : s.queue = m :: q) :
    ((round w).foldl step s).queue = q ∧ ((round w).foldl step s).next = s.next ∧
    ((round w).foldl step s).owner = true ∧ ((round w).foldl step s).phase = s.phase := by
  rw [round_run s w ht hl ho (Or.inl (by rw [hq]; simp))]
  obtain ⟨-, e2, e3, -, -, -, e7, -, e9, -⟩ := emits_eq w.snd { s with buf := false, net := .idle, ev := false, queue := q }
  unfold St.runSend
  dsimp only
  rw [if_neg (by simp), hq]
  dsimp only
  split <;> exact ⟨e2, e3, e7.trans ho, e9⟩

/-- A round ends a session which is closing and has nothing to send. -/
theorem round_end {s : St} (w : Write) (ht : Top s) (hl : Live s) (ho : s.owner = true) (hq : s.queue = [])
    (hp : s.phase = .closing) : ((round w).foldl step s).owner = false := by
  rw [round_run s w ht hl ho (Or.inr hp)]
  unfold St.runSend
  dsimp only
  rw [if_neg (by simp), hq]
  unfold St.isClosed
  rw [if_neg (by simp [hp]), if_neg (by simp), if_neg (by simp)]
  unfold St.closedEvent
  rw [if_pos ho]
  rfl

/-! ## Freeing and the packet on its way -/

theorem early_touch (s : St) : s.touch.early = s.early := by unfold St.touch; split <;> rfl

theorem early_emit (s : St) (r : Snd) : (s.emit r).early = s.early := by
  unfold St.emit
  split
  · rfl
  · split
    · rfl
    · split <;> rfl
    · split <;> rfl

theorem early_emits (l : List Snd) : ∀ s : St, (s.emits l).early = s.early := by
  induction l with
  | nil => intro s; rfl
  | cons r l ih => intro s; exact (ih (s.emit r)).trans (early_emit s r)

theorem early_free {s : St} (h : s.buf = false) : s.free.early = s.early := by
  show (s.early || s.buf) = s.early
  rw [h, Bool.or_false]

theorem early_destroy (s : St) : s.destroy.early = s.early := by
  unfold St.destroy
  dsimp only
  split
  · next hc =>
    have hb : s.buf = false := by
      cases hb : s.buf
      · rfl
      · rw [hb] at hc; simp at hc
    rw [early_free (by show s.touch.buf = false; rw [(touch_eq s).2.2.2.2.2.2.1]; exact hb)]
    exact early_touch s
  · exact early_touch s

theorem early_closedEvent (s : St) : s.closedEvent.early = s.early := by
  unfold St.closedEvent
  split
  · exact early_destroy s
  · rfl

theorem early_isClosed (s : St) : s.isClosed.early = s.early := by
  unfold St.isClosed
  split
  · rfl
  · split
    · rfl
    · split
      · rfl
      · exact early_closedEvent s

theorem early_send (s : St) : s.send.early = s.early := by
  unfold St.send
  split
  · rfl
  · exact early_touch _

theorem early_close (s : St) (l : List Snd) : (s.close l).early = s.early := by
  unfold St.close
  split
  · rfl
  · exact (early_isClosed _).trans (early_emits l _)

theorem early_acts (l : List Act) : ∀ s : St, (s.acts l).early = s.early := by
  induction l with
  | nil => intro s; rfl
  | cons a l ih =>
    intro s
    refine (ih (s.act a)).trans ?_
    cases a <;> (unfold St.act; dsimp only; split)
    · exact early_send s
    · rfl
    · exact early_close s _
    · rfl

theorem early_doOne (s : St) (r : Tls) : (s.doOne r).early = s.early := by
  unfold St.doOne
  split
  · rfl
  · dsimp only
    split
    · exact early_emits _ s
    · split
      · exact (early_acts _ _).trans (early_emits _ s)
      · exact early_emits _ s
    · exact (early_closedEvent _).trans (early_emits _ s)

theorem early_packet (s : St) (r : Tls) : (s.packet r).early = s.early := by
  unfold St.packet
  dsimp only
  have h1 : (St.touch (St.doOne { s with receiving := true } r)).early = s.early :=
    (early_touch _).trans (early_doOne _ r)
  split
  · next hc =>
    exact (early_free (by simpa using (Bool.and_eq_true_iff.1 hc).2)).trans h1
  · exact h1

theorem early_step (s : St) (op : Op) : (step s op).early = s.early := by
  cases op <;> unfold step <;> dsimp only <;> split
  · exact early_send s
  · rfl
  · exact early_close s _
  · rfl
  · exact early_destroy s
  · rfl
  · exact early_packet s _
  · rfl
  · rfl
  · rfl
  · unfold St.sent
    dsimp only
    split
    · exact early_free rfl
    · exact (early_touch _).trans (early_doOne _ _)
  · rfl
  · unfold St.runSend
    dsimp only
    split
    · rfl
    · split
      · exact early_isClosed _
      · split <;> exact early_emits _ _
  · rfl
  · exact early_doOne s _
  · rfl

theorem early_run (ops : List Op) : (run ops).early = false := by
  induction ops using snoc_ind with
  | h0 => rfl
  | hs ops op ih => rw [run_snoc, early_step]; exact ih

end Verif.Dtls.Server
