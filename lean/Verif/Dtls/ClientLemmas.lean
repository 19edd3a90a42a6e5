import Verif.Dtls.ClientSpec

/-!
# The secure session with the basestation — lemmas
-/

namespace Verif.Dtls.Client

open Spec

theorem snoc_ind {α : Type} {P : List α → Prop} (h0 : P []) (hs : ∀ l x, P l → P (l ++ [x])) : ∀ l, P l := by
  intro l
  rw [← List.reverse_reverse l]
  induction l.reverse with
  | nil => exact h0
  | cons x r ih => rw [List.reverse_cons]; exact hs _ _ ih

theorem run_snoc (ops : List Op) (op : Op) : run (ops ++ [op]) = step (run ops) op := by
  unfold run; rw [List.foldl_append]; rfl

theorem run_append (a b : List Op) : run (a ++ b) = b.foldl step (run a) := by
  unfold run; rw [List.foldl_append]

/-! ## What the steps are made of -/

theorem touch_alive {s : St} (h : s.freed = 0) : s.touch = s := by unfold St.touch; rw [if_pos h]

theorem emit_alive {s : St} (h : s.freed = 0) (m : Bool) :
    s.emit m = s ∨ (s.buf = false ∧ s.emit m = { s with buf := true, net := .flying }) := by
  unfold St.emit
  rw [touch_alive h]
  split
  · exact Or.inl rfl
  · next hb =>
    split
    · exact Or.inr ⟨by simpa using hb, rfl⟩
    · exact Or.inl rfl

theorem emits_buf {s : St} (h : s.freed = 0) (hb : s.buf = true) (l : List Bool) : s.emits l = s := by
  induction l with
  | nil => rfl
  | cons m l ih =>
    show (s.emit m).emits l = s
    rcases emit_alive h m with e | ⟨e, -⟩
    · rw [e]; exact ih
    · rw [hb] at e; cases e

theorem emits_alive (l : List Bool) : ∀ {s : St}, s.freed = 0 →
    s.emits l = s ∨ (s.buf = false ∧ s.emits l = { s with buf := true, net := .flying }) := by
  induction l with
  | nil => intro s _; exact Or.inl rfl
  | cons m l ih =>
    intro s h
    show (s.emit m).emits l = s ∨ (s.buf = false ∧ (s.emit m).emits l = _)
    rcases emit_alive h m with e | ⟨e, e'⟩
    · rw [e]; exact ih h
    · rw [e']; exact Or.inr ⟨e, emits_buf (s := { s with buf := true, net := .flying }) h rfl l⟩

/-- The session after it was freed at its end. -/
def St.over (s : St) : St :=
  { s with
      phase := .closing, destroyed := true, held := false, freed := 1, queue := [],
      answers := s.answers ++ s.queue.map (fun m => (m, Ec.closing)), ev := false, net := .idle }

/-- The session which was destroyed but is still needed. -/
def St.left (s : St) : St := { s with phase := .closing, destroyed := true, held := false }

theorem kill_eq {s : St} (hf : s.freed = 0) :
    { s.destroy with held := false } = if !s.buf && !s.receiving then s.over else s.left := by
  unfold St.destroy
  rw [touch_alive hf]
  dsimp only
  split
  · unfold St.free
    rw [touch_alive (s := { s with phase := .closing, destroyed := true }) hf]
    obtain ⟨phase, buf, net, queue, ev, receiving, destroyed, freed, held, ends, bad, next, answers, wire⟩ := s
    cases hf
    rfl
  · rfl

theorem endEvent_eq {s : St} (hf : s.freed = 0) (hh : s.held = true) :
    s.endEvent = if !s.buf && !s.receiving then { s with ends := s.ends + 1 }.over else { s with ends := s.ends + 1 }.left := by
  unfold St.endEvent
  dsimp only
  rw [if_pos hh]
  exact kill_eq (s := { s with ends := s.ends + 1 }) hf

/-! ## The invariant -/

/-- What holds between the steps, and between the calls of the attacher within them. -/
structure Inv (s : St) : Prop where
  good : s.bad = false
  dead : s.held = !s.destroyed
  once : s.freed = if s.destroyed && !s.buf && !s.receiving then 1 else 0
  net : s.buf = true ↔ s.net ≠ .idle
  closing : s.destroyed = true → s.phase = .closing
  wait : s.phase = .closing → s.held = true → s.buf = true
  early : s.phase = .connecting → s.queue = []
  rest : s.freed = 1 → s.ev = false ∧ s.queue = []
  live : s.phase = .data → s.queue ≠ [] → s.ev = true ∨ s.buf = true
  all : s.answers.map (·.1) ++ s.queue = List.range s.next
  wire : s.wire = (s.answers.filter fun o => o.2 = .ok).map (·.1)

theorem inv_alive {s : St} (h : Inv s) (hh : s.held = true) : s.destroyed = false ∧ s.freed = 0 := by
  have hd : s.destroyed = false := by
    have := h.dead; rw [hh] at this; cases hd : s.destroyed
    · rfl
    · rw [hd] at this; cases this
  exact ⟨hd, by have := h.once; rw [hd] at this; exact this⟩

theorem over_msgs (s : St) (h : s.answers.map (·.1) ++ s.queue = List.range s.next)
    (hw : s.wire = (s.answers.filter fun o => o.2 = .ok).map (·.1)) :
    s.over.answers.map (·.1) ++ s.over.queue = List.range s.over.next ∧
    s.over.wire = (s.over.answers.filter fun o => o.2 = .ok).map (·.1) := by
  have e : s.over.answers = s.answers ++ s.queue.map (fun m => (m, Ec.closing)) := rfl
  refine ⟨?_, ?_⟩
  · show s.over.answers.map _ ++ [] = List.range s.next
    rw [e, List.append_nil, List.map_append, List.map_map]
    have : (s.queue.map ((·.1) ∘ fun m => (m, Ec.closing))) = s.queue := by
      have : ((·.1) ∘ fun m => (m, Ec.closing)) = (id : Nat → Nat) := rfl
      rw [this, List.map_id]
    rw [this]; exact h
  · show s.wire = _
    rw [e, List.filter_append, List.map_append, hw]
    have : (s.queue.map fun m => (m, Ec.closing)).filter (fun o => decide (o.2 = Ec.ok)) = [] := by
      rw [List.filter_eq_nil_iff]
      intro o ho
      obtain ⟨m, -, rfl⟩ := List.mem_map.1 ho
      simp
    rw [this]; simp

/-- The end of a session for which the invariant holds, but for the rule about closing. -/
theorem inv_over {s : St} (hg : s.bad = false) (hb : s.buf = false) (hr : s.receiving = false)
    (h : s.answers.map (·.1) ++ s.queue = List.range s.next)
    (hw : s.wire = (s.answers.filter fun o => o.2 = .ok).map (·.1)) : Inv s.over := by
  obtain ⟨m1, m2⟩ := over_msgs s h hw
  refine ⟨hg, rfl, ?_, ?_, fun _ => rfl, fun _ hx => ?_, fun hx => ?_, fun _ => ⟨rfl, rfl⟩, fun hx => ?_, m1, m2⟩
  · show 1 = if true && !s.buf && !s.receiving then 1 else 0
    rw [hb, hr]; rfl
  · show s.buf = true ↔ Net.idle ≠ .idle
    rw [hb]; simp
  · cases hx
  · cases hx
  · cases hx

theorem inv_left {s : St} (hg : s.bad = false) (hf : s.freed = 0) (hn : s.buf = true ↔ s.net ≠ .idle)
    (hb : s.buf = true ∨ s.receiving = true) (h : s.answers.map (·.1) ++ s.queue = List.range s.next)
    (hw : s.wire = (s.answers.filter fun o => o.2 = .ok).map (·.1)) : Inv s.left := by
  refine ⟨hg, rfl, ?_, hn, fun _ => rfl, fun _ hx => ?_, fun hx => ?_, fun hx => ?_, fun hx => ?_, h, hw⟩
  · show s.freed = if true && !s.buf && !s.receiving then 1 else 0
    rw [hf]
    rcases hb with hb | hb <;> rw [hb] <;> simp
  · cases hx
  · cases hx
  · have : s.freed = 1 := hx
    rw [hf] at this; cases this
  · cases hx

theorem inv_kill {s : St} (hg : s.bad = false) (hf : s.freed = 0) (hn : s.buf = true ↔ s.net ≠ .idle)
    (h : s.answers.map (·.1) ++ s.queue = List.range s.next)
    (hw : s.wire = (s.answers.filter fun o => o.2 = .ok).map (·.1)) : Inv { s.destroy with held := false } := by
  rw [kill_eq hf]
  split
  · next hx =>
    have : s.buf = false ∧ s.receiving = false := by simpa using hx
    exact inv_over hg this.1 this.2 h hw
  · next hx =>
    refine inv_left hg hf hn ?_ h hw
    cases hb : s.buf
    · cases hr : s.receiving
      · rw [hb, hr] at hx; exact absurd rfl hx
      · exact Or.inr rfl
    · exact Or.inl rfl

theorem inv_endEvent {s : St} (hg : s.bad = false) (hf : s.freed = 0) (hh : s.held = true)
    (hn : s.buf = true ↔ s.net ≠ .idle) (h : s.answers.map (·.1) ++ s.queue = List.range s.next)
    (hw : s.wire = (s.answers.filter fun o => o.2 = .ok).map (·.1)) : Inv s.endEvent := by
  unfold St.endEvent
  dsimp only
  rw [if_pos hh]
  exact inv_kill (s := { s with ends := s.ends + 1 }) hg hf hn h hw

theorem inv_emits {s : St} (l : List Bool) (h : Inv s) (hh : s.held = true) :
    Inv (s.emits l) ∧ (s.emits l).held = true ∧ (s.emits l).phase = s.phase := by
  obtain ⟨hd, hf⟩ := inv_alive h hh
  rcases emits_alive l hf with e | ⟨hb, e⟩
  · rw [e]; exact ⟨h, hh, rfl⟩
  · rw [e]
    refine ⟨⟨h.good, h.dead, ?_, by simp, h.closing, fun _ _ => rfl, h.early, h.rest, fun _ _ => Or.inr rfl, h.all, h.wire⟩,
      hh, rfl⟩
    show s.freed = _
    rw [hf, hd]; rfl

theorem inv_send {s : St} (h : Inv s) (hh : s.held = true) : Inv s.send := by
  obtain ⟨hd, hf⟩ := inv_alive h hh
  unfold St.send
  split
  · exact h
  · next hp =>
    have hp : s.phase = .data := Classical.byContradiction hp
    unfold St.startSend
    rw [touch_alive (s := { s with queue := s.queue ++ [s.next], next := s.next + 1 }) hf]
    refine ⟨h.good, h.dead, h.once, h.net, h.closing, h.wait, fun hx => ?_, fun hx => ?_, fun _ _ => Or.inl rfl, ?_, h.wire⟩
    · have : s.phase = .connecting := hx
      rw [hp] at this; cases this
    · have : s.freed = 1 := hx
      rw [hf] at this; cases this
    · show s.answers.map (·.1) ++ (s.queue ++ [s.next]) = List.range (s.next + 1)
      rw [← List.append_assoc, h.all, List.range_succ]

theorem inv_close {s : St} (l : List Bool) (h : Inv s) (hh : s.held = true) : Inv (s.close l) := by
  obtain ⟨hd, hf⟩ := inv_alive h hh
  unfold St.close
  split
  · exact h
  · dsimp only
    rcases emits_alive (s := { s with phase := .closing }) l hf with e | ⟨hb, e⟩
    · rw [e, touch_alive (s := { s with phase := .closing }) hf]
      split
      · next hb =>
        refine ⟨h.good, h.dead, h.once, h.net, fun _ => rfl, fun _ _ => hb, fun hx => ?_, h.rest, fun hx => ?_, h.all, h.wire⟩
        · cases hx
        · cases hx
      · exact inv_endEvent (s := { s with phase := .closing }) h.good hf hh h.net h.all h.wire
    · rw [e, touch_alive (s := { s with phase := .closing, buf := true, net := .flying }) hf, if_pos rfl]
      refine ⟨h.good, h.dead, ?_, by simp, fun _ => rfl, fun _ _ => rfl, fun hx => ?_, h.rest, fun hx => ?_, h.all, h.wire⟩
      · show s.freed = _
        rw [hf, hd]; rfl
      · cases hx
      · cases hx

theorem inv_act {s : St} (a : Act) (h : Inv s) : Inv (s.act a) := by
  cases a <;> (unfold St.act; dsimp only; split)
  · next hh => exact inv_send h hh
  · exact h
  · next hh => exact inv_close _ h hh
  · exact h

theorem inv_acts (l : List Act) : ∀ {s : St}, Inv s → Inv (s.acts l) := by
  induction l with
  | nil => intro s h; exact h
  | cons r l ih => intro s h; exact ih (inv_act r h)

theorem inv_doOne {s : St} (r : Tls) (h : Inv s) : Inv (s.doOne r) := by
  unfold St.doOne
  split
  · exact h
  · next hp =>
    have hh : s.held = true := by
      rw [h.dead]
      cases hd : s.destroyed
      · rfl
      · exact absurd (h.closing hd) hp
    obtain ⟨h1, h2, h3⟩ := inv_emits r.snd h hh
    obtain ⟨hd, hf⟩ := inv_alive h1 h2
    dsimp only
    split
    · exact h1
    · apply inv_acts
      refine ⟨h1.good, h1.dead, h1.once, h1.net, fun hx => ?_, fun hx => ?_, fun hx => ?_, h1.rest, fun _ hq => ?_, h1.all,
        h1.wire⟩
      · have : (s.emits r.snd).destroyed = true := hx
        rw [hd] at this; cases this
      · cases hx
      · cases hx
      · by_cases hc : (s.emits r.snd).phase = .connecting
        · exact absurd (h1.early hc) hq
        · refine h1.live ?_ hq
          rw [h3] at hc ⊢
          cases hx : s.phase
          · exact absurd hx hc
          · rfl
          · exact absurd hx hp
    · exact inv_endEvent (s := { s.emits r.snd with phase := .closing }) h1.good hf h2 h1.net h1.all h1.wire

/-! ### A packet is being handled until the end of the call -/

theorem touch_receiving (s : St) : s.touch.receiving = s.receiving := by unfold St.touch; split <;> rfl

theorem emit_receiving (s : St) (m : Bool) : (s.emit m).receiving = s.receiving := by
  unfold St.emit
  split
  · exact touch_receiving s
  · split <;> exact touch_receiving s

theorem emits_receiving (l : List Bool) : ∀ s : St, (s.emits l).receiving = s.receiving := by
  induction l with
  | nil => intro s; rfl
  | cons m l ih => intro s; exact (ih (s.emit m)).trans (emit_receiving s m)

theorem destroy_receiving (s : St) : s.destroy.receiving = s.receiving := by
  unfold St.destroy
  dsimp only
  split
  · exact (touch_receiving _).trans (touch_receiving s)
  · exact touch_receiving s

theorem endEvent_receiving (s : St) : s.endEvent.receiving = s.receiving := by
  unfold St.endEvent
  dsimp only
  split
  · exact destroy_receiving _
  · rfl

theorem act_receiving (s : St) (a : Act) : (s.act a).receiving = s.receiving := by
  cases a with
  | send =>
    unfold St.act; dsimp only
    split
    · unfold St.send
      split
      · rfl
      · exact touch_receiving { s with queue := s.queue ++ [s.next], next := s.next + 1 }
    · rfl
  | close l =>
    unfold St.act; dsimp only
    split
    · unfold St.close
      split
      · rfl
      · have e : ({ s with phase := .closing }.emits l).touch.receiving = s.receiving :=
          (touch_receiving _).trans (emits_receiving l { s with phase := .closing })
        dsimp only
        split
        · exact e
        · exact (endEvent_receiving _).trans e
    · rfl

theorem acts_receiving (l : List Act) : ∀ s : St, (s.acts l).receiving = s.receiving := by
  induction l with
  | nil => intro s; rfl
  | cons m l ih => intro s; exact (ih (s.act m)).trans (act_receiving s m)

theorem doOne_receiving (s : St) (r : Tls) : (s.doOne r).receiving = s.receiving := by
  unfold St.doOne
  split
  · rfl
  · dsimp only
    split
    · exact emits_receiving _ s
    · exact (acts_receiving _ _).trans (emits_receiving r.snd s)
    · exact (endEvent_receiving _).trans (emits_receiving r.snd s)

/-! ### The steps -/

theorem free_eq {s : St} (hf : s.freed = 0) (hp : s.phase = .closing) (hd : s.destroyed = true) (hh : s.held = false) :
    s.free = s.over := by
  unfold St.free
  rw [touch_alive hf]
  obtain ⟨phase, buf, net, queue, ev, receiving, destroyed, freed, held, ends, bad, next, answers, wire⟩ := s
  cases hf; cases hp; cases hd; cases hh
  rfl

theorem inv_packet {s : St} (r : Tls) (h : Inv s) (hh : s.held = true) : Inv (s.packet r) := by
  obtain ⟨hd, hf⟩ := inv_alive h hh
  have h0 : Inv { s with receiving := true } :=
    ⟨h.good, h.dead, by show s.freed = _; rw [hf, hd]; rfl, h.net, h.closing, h.wait, h.early, h.rest, h.live, h.all, h.wire⟩
  have h1 := inv_doOne r h0
  have hr : (St.doOne { s with receiving := true } r).receiving = true := doOne_receiving _ r
  unfold St.packet
  generalize St.doOne { s with receiving := true } r = t at h1 hr ⊢
  have hf1 : t.freed = 0 := by rw [h1.once, hr]; simp
  rw [touch_alive hf1]
  dsimp only
  split
  · next hx =>
    have hx : t.destroyed = true ∧ t.buf = false := by simpa using hx
    have hhf : t.held = false := by rw [h1.dead, hx.1]; rfl
    rw [free_eq (s := { t with receiving := false }) hf1 (h1.closing hx.1) hx.1 hhf]
    exact inv_over (s := { t with receiving := false }) h1.good hx.2 rfl h1.all h1.wire
  · next hx =>
    refine ⟨h1.good, h1.dead, ?_, h1.net, h1.closing, h1.wait, h1.early, h1.rest, h1.live, h1.all, h1.wire⟩
    show t.freed = if t.destroyed && !t.buf && !false then 1 else 0
    rw [hf1]
    have hx : ¬ (t.destroyed && !t.buf) = true := hx
    rw [if_neg (by simpa using hx)]

theorem sent_closing {s : St} (r : Tls) (hf : s.freed = 0) (hb : s.buf = true) (hp : s.phase = .closing)
    (hd : s.held = !s.destroyed) :
    s.sent r = { s with ends := s.ends + 1, buf := false, net := .idle }.over := by
  obtain ⟨phase, buf, net, queue, ev, receiving, destroyed, freed, held, ends, bad, next, answers, wire⟩ := s
  cases hf; cases hb; cases hp
  cases hh : held
  · have hd : destroyed = true := by
      have hd : held = !destroyed := hd
      rw [hh] at hd; cases destroyed
      · cases hd
      · rfl
    cases hd
    rfl
  · rfl

theorem sent_open {s : St} (r : Tls) (hf : s.freed = 0) (hp : s.phase ≠ .closing) :
    s.sent r = St.doOne (if s.phase = .data then { s with buf := false, net := .idle, ev := true }
      else { s with buf := false, net := .idle }) r := by
  unfold St.sent
  rw [if_neg hp]
  dsimp only
  unfold St.startSend
  rw [touch_alive (s := { s with buf := false, net := .idle }) hf]

theorem inv_sent_open {s : St} (h : Inv s) (hf : s.freed = 0) (hp : s.phase ≠ .closing) :
    Inv (if s.phase = .data then { s with buf := false, net := .idle, ev := true }
      else { s with buf := false, net := .idle }) := by
  have hd : s.destroyed = false := by
    cases hd : s.destroyed
    · rfl
    · exact absurd (h.closing hd) hp
  split
  · next hx =>
    refine ⟨h.good, h.dead, ?_, by simp, h.closing, fun hy => absurd hy hp, h.early, fun hy => ?_, fun _ _ => Or.inl rfl,
      h.all, h.wire⟩
    · show s.freed = _
      rw [hf, hd]; rfl
    · have : s.freed = 1 := hy
      rw [hf] at this; cases this
  · next hx =>
    have hc : s.phase = .connecting := by
      cases hy : s.phase
      · rfl
      · exact absurd hy hx
      · exact absurd hy hp
    refine ⟨h.good, h.dead, ?_, by simp, h.closing, fun hy => absurd hy hp, h.early, h.rest, fun hy => absurd hy hx,
      h.all, h.wire⟩
    show s.freed = _
    rw [hf, hd]; rfl

theorem inv_way {s : St} (h : Inv s) (hn : s.net ≠ .idle) : s.buf = true ∧ s.freed = 0 := by
  have hb := h.net.2 hn
  refine ⟨hb, ?_⟩
  rw [h.once, hb]; simp

theorem inv_sent {s : St} (r : Tls) (h : Inv s) (hr : s.receiving = false) (hn : s.net = .done) : Inv (s.sent r) := by
  obtain ⟨hb, hf⟩ := inv_way h (by rw [hn]; simp)
  by_cases hp : s.phase = .closing
  · rw [sent_closing r hf hb hp h.dead]
    exact inv_over (s := { s with ends := s.ends + 1, buf := false, net := .idle }) h.good rfl hr h.all h.wire
  · rw [sent_open r hf hp]
    exact inv_doOne r (inv_sent_open h hf hp)

/-- The code with which a message is reported after it was written. -/
def WriteRet.ec : WriteRet → Ec
  | .ok => .ok
  | .tooLarge => .malformed
  | .error => .unknown

theorem ev_alive {s : St} (h : Inv s) (he : s.ev = true) : s.freed = 0 := by
  have := h.once
  by_cases hx : (s.destroyed && !s.buf && !s.receiving) = true
  · rw [if_pos hx] at this
    rw [(h.rest this).1] at he; cases he
  · rw [if_neg hx] at this; exact this

/-- What writing a message comes to. -/
theorem runSend_eq {s : St} (w : Write) (hf : s.freed = 0) :
    s.runSend w = { s with ev := false } ∧ (s.phase = .closing ∨ s.buf = true ∨ s.queue = []) ∨
    s.phase ≠ .closing ∧ s.buf = false ∧ ∃ m q b n, s.queue = m :: q ∧
      ((b = false ∧ n = s.net) ∨ (b = true ∧ n = .flying)) ∧
      s.runSend w = { s with
        ev := true, buf := b, net := n, queue := q, answers := s.answers ++ [(m, w.ret.ec)],
        wire := s.wire ++ (if w.ret = .ok then [m] else []) } := by
  unfold St.runSend
  dsimp only
  by_cases hp : s.phase = .closing
  · rw [if_pos hp]; exact Or.inl ⟨rfl, Or.inl hp⟩
  · rw [if_neg hp]
    rcases Bool.eq_false_or_eq_true s.buf with hb | hb
    · rw [if_pos hb]; exact Or.inl ⟨rfl, Or.inr (Or.inl hb)⟩
    · rw [if_neg (by rw [hb]; simp)]
      split
      · next hq => exact Or.inl ⟨rfl, Or.inr (Or.inr hq)⟩
      · next m q hq =>
        refine Or.inr ⟨hp, hb, m, q, ?_⟩
        have key : ∀ t : St, t.freed = 0 → t.startSend = { t with ev := true } := by
          intro t ht; unfold St.startSend; rw [touch_alive ht]
        rcases emits_alive (s := { s with ev := false, queue := q }) w.snd hf with e | ⟨-, e⟩
        · refine ⟨false, s.net, hq, Or.inl ⟨rfl, rfl⟩, ?_⟩
          rw [e]
          obtain ⟨snd, ret⟩ := w
          obtain ⟨phase, buf, net, queue, ev, receiving, destroyed, freed, held, ends, bad, next, answers, wire⟩ := s
          cases hf; cases hb
          cases ret
          · rfl
          · simp [WriteRet.ec, St.startSend, St.touch]
          · simp [WriteRet.ec, St.startSend, St.touch]
        · refine ⟨true, .flying, hq, Or.inr ⟨rfl, rfl⟩, ?_⟩
          rw [e]
          obtain ⟨snd, ret⟩ := w
          obtain ⟨phase, buf, net, queue, ev, receiving, destroyed, freed, held, ends, bad, next, answers, wire⟩ := s
          cases hf; cases hb
          cases ret
          · rfl
          · simp [WriteRet.ec, St.startSend, St.touch]
          · simp [WriteRet.ec, St.startSend, St.touch]

theorem inv_runSend {s : St} (w : Write) (h : Inv s) (he : s.ev = true) : Inv (s.runSend w) := by
  have hf := ev_alive h he
  rcases runSend_eq w hf with ⟨e, hc⟩ | ⟨hp, hb, m, q, b, n, hq, hbn, e⟩
  · rw [e]
    refine ⟨h.good, h.dead, h.once, h.net, h.closing, h.wait, h.early, fun hx => ⟨rfl, (h.rest hx).2⟩, fun hx hy => ?_, h.all,
      h.wire⟩
    rcases hc with hc | hc | hc
    · have : s.phase = .data := hx
      rw [hc] at this; cases this
    · exact Or.inr hc
    · exact absurd hc hy
  · rw [e]
    have hd : s.destroyed = false := by
      cases hd : s.destroyed
      · rfl
      · exact absurd (h.closing hd) hp
    have hni : s.net = .idle := by
      by_cases hn : s.net = .idle
      · exact hn
      · rw [h.net.2 hn] at hb; cases hb
    refine ⟨h.good, h.dead, ?_, ?_, h.closing, fun hx => absurd hx hp, fun hx => ?_, fun hx => ?_, fun _ _ => Or.inl rfl, ?_, ?_⟩
    · show s.freed = _
      rw [hf, hd]; rfl
    · show b = true ↔ n ≠ .idle
      rcases hbn with ⟨rfl, rfl⟩ | ⟨rfl, rfl⟩
      · rw [hni]; simp
      · simp
    · have : s.queue = [] := h.early hx
      rw [hq] at this; cases this
    · have : s.freed = 1 := hx
      rw [hf] at this; cases this
    · have := h.all
      rw [hq] at this
      show (s.answers ++ [(m, w.ret.ec)]).map (·.1) ++ q = List.range s.next
      rw [List.map_append, List.append_assoc]; exact this
    · show s.wire ++ _ = ((s.answers ++ [(m, w.ret.ec)]).filter _).map _
      rw [List.filter_append, List.map_append, h.wire]
      congr 1
      cases w.ret <;> simp [WriteRet.ec]

/-- The invariant between the steps. -/
def Top (s : St) : Prop := Inv s ∧ s.receiving = false

theorem runSend_receiving {s : St} (w : Write) (hf : s.freed = 0) : (s.runSend w).receiving = s.receiving := by
  rcases runSend_eq w hf with ⟨e, -⟩ | ⟨-, -, m, q, b, n, -, -, e⟩ <;> rw [e]

theorem top_step {s : St} (op : Op) (h : Top s) : Top (step s op) := by
  obtain ⟨h, hr⟩ := h
  cases op with
  | connect r =>
    unfold step; dsimp only; split
    · exact ⟨inv_doOne r h, (doOne_receiving s r).trans hr⟩
    · exact ⟨h, hr⟩
  | send =>
    unfold step; dsimp only; split
    · next hh => exact ⟨inv_send h hh, by have := act_receiving s .send; unfold St.act at this; dsimp only at this; rw [if_pos hh] at this; exact this.trans hr⟩
    · exact ⟨h, hr⟩
  | close l =>
    unfold step; dsimp only; split
    · next hh => exact ⟨inv_close l h hh, by have := act_receiving s (.close l); unfold St.act at this; dsimp only at this; rw [if_pos hh] at this; exact this.trans hr⟩
    · exact ⟨h, hr⟩
  | kill =>
    unfold step; dsimp only; split
    · next hh => exact ⟨inv_kill h.good (inv_alive h hh).2 h.net h.all h.wire, (destroy_receiving s).trans hr⟩
    · exact ⟨h, hr⟩
  | packet r =>
    unfold step; dsimp only; split
    · next hh =>
      refine ⟨inv_packet r h hh, ?_⟩
      unfold St.packet; dsimp only; split
      · exact touch_receiving _
      · rfl
    · exact ⟨h, hr⟩
  | udpDone =>
    unfold step; dsimp only; split
    · next hn =>
      refine ⟨⟨h.good, h.dead, h.once, ?_, h.closing, h.wait, h.early, h.rest, h.live, h.all, h.wire⟩, hr⟩
      have := h.net
      rw [hn] at this
      show s.buf = true ↔ _
      rw [this]; simp
    · exact ⟨h, hr⟩
  | sent r =>
    unfold step; dsimp only; split
    · next hn =>
      refine ⟨inv_sent r h hr hn, ?_⟩
      obtain ⟨hb, hf⟩ := inv_way h (by rw [hn]; simp)
      by_cases hp : s.phase = .closing
      · rw [sent_closing r hf hb hp h.dead]; exact hr
      · rw [sent_open r hf hp, doOne_receiving]
        split <;> exact hr
    · exact ⟨h, hr⟩
  | runSend w =>
    unfold step; dsimp only; split
    · next he => exact ⟨inv_runSend w h he, (runSend_receiving w (ev_alive h he)).trans hr⟩
    · exact ⟨h, hr⟩
  | timer r =>
    unfold step; dsimp only; split
    · exact ⟨inv_doOne r h, (doOne_receiving s r).trans hr⟩
    · exact ⟨h, hr⟩

theorem top_run (ops : List Op) : Top (run ops) := by
  induction ops using snoc_ind with
  | h0 =>
    exact ⟨⟨rfl, rfl, rfl, by decide, fun h => (by cases h), fun h => (by cases h), fun _ => rfl, fun h => (by cases h),
      fun h => (by cases h), rfl, rfl⟩, rfl⟩
  | hs ops op ih => rw [run_snoc]; exact top_step op ih

end Verif.Dtls.Client
