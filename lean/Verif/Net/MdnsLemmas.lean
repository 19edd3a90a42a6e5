import Verif.Net.MdnsSpec

/- Lemmas about the mDNS server. -/
namespace Verif.Net.Mdns

open Spec

theorem snoc_ind {P : List Op → Prop} (nil : P [])
    (snoc : ∀ ops op, P ops → P (ops ++ [op])) (ops : List Op) : P ops := by
  have h : ∀ l : List Op, P l.reverse := by
    intro l
    induction l with
    | nil => exact nil
    | cons a l ih => rw [List.reverse_cons]; exact snoc _ _ ih
  have := h ops.reverse
  rwa [List.reverse_reverse] at this

theorem Fam.both {P : Fam → Prop} (h4 : P .v4) (h6 : P .v6) (f : Fam) : P f := by
  cases f
  · exact h4
  · exact h6

section Set
variable (s : St) (f g : Fam) (i : Inst)
@[simp] theorem inst_set_self : (s.set f i).inst f = i := by cases f <;> rfl
theorem inst_set : (s.set f i).inst g = if g = f then i else s.inst g := by
  cases f <;> cases g <;> rfl
@[simp] theorem set_phase : (s.set f i).phase = s.phase := by cases f <;> rfl
@[simp] theorem set_port : (s.set f i).port = s.port := by cases f <;> rfl
@[simp] theorem set_info : (s.set f i).info = s.info := by cases f <;> rfl
@[simp] theorem set_closeEv : (s.set f i).closeEv = s.closeEv := by cases f <;> rfl
@[simp] theorem set_closeCb : (s.set f i).closeCb = s.closeCb := by cases f <;> rfl
@[simp] theorem set_closing : (s.set f i).closing = s.closing := by cases f <;> rfl
@[simp] theorem set_calls : (s.set f i).calls = s.calls := by cases f <;> rfl
@[simp] theorem set_answers : (s.set f i).answers = s.answers := by cases f <;> rfl
@[simp] theorem set_net : (s.set f i).net = s.net := by cases f <;> rfl
@[simp] theorem set_bad : (s.set f i).bad = s.bad := by cases f <;> rfl
@[simp] theorem set_leaked : (s.set f i).leaked = s.leaked := by cases f <;> rfl
@[simp] theorem set_gone : (s.set f i).gone = s.gone := by cases f <;> rfl
end Set

/-- What the steps keep, about one socket. -/
structure Good (ph : Phase) (i : Inst) : Prop where
  buf : i.buf = true ↔ i.sent ≠ .idle
  sentHeld : i.sent ≠ .held
  openHeld : i.opened ≠ .held
  one : ph = .running → i.recv ≠ .idle → i.sent = .idle
  first : ph = .running → i.opened ≠ .idle → i.recv = .idle ∧ i.sent = .idle
  bye : i.bye = true → ph ≠ .running ∧ ph ≠ .fresh
  fresh : ph = .fresh → i = {}
  aborted : i.aborted = true → ph = .stopped
  free : ph = .stopped → i.recv ≠ .held

/-- The instance is sending its goodbye. -/
def Inst.leaving (i : Inst) : Prop := i.bye = true ∧ i.sent ≠ .idle

/-- Where the closing is. -/
inductive Stage (s : St) : Prop
  | rest (h1 : s.closing = none) (h2 : s.closeEv = none) (h3 : ∀ f, ¬ (s.inst f).leaving)
  | toldV4 (k : Nat) (ec : Ec) (h1 : s.closing = some k) (h2 : s.closeEv = some (.v4, ec))
      (h3 : ∀ f, ¬ (s.inst f).leaving) (h4 : s.v6.bye = false)
  | sendV4 (k : Nat) (h1 : s.closing = some k) (h2 : s.closeEv = none) (h0 : s.closeCb = .v4)
      (h3 : s.v4.leaving) (h4 : s.v6.bye = false)
  | toldV6 (k : Nat) (ec : Ec) (h1 : s.closing = some k) (h2 : s.closeEv = some (.v6, ec))
      (h3 : ∀ f, ¬ (s.inst f).leaving)
  | sendV6 (k : Nat) (h1 : s.closing = some k) (h2 : s.closeEv = none) (h0 : s.closeCb = .v6)
      (h3 : s.v6.leaving) (h4 : ¬ s.v4.leaving)

structure Inv (s : St) : Prop where
  good : ∀ f, Good s.phase (s.inst f)
  stage : Stage s
  late : s.closing ≠ none → s.phase ≠ .running ∧ s.phase ≠ .fresh
  count : ∀ f, goodbyes f s.net ≤ (s.inst f).bye.toNat
  bad : s.bad = false

theorem Stage.same {s t : St} (h : Stage s) (h1 : t.closing = s.closing)
    (h2 : t.closeEv = s.closeEv) (h3 : t.closeCb = s.closeCb)
    (h4 : ∀ f, (t.inst f).leaving ↔ (s.inst f).leaving) (h5 : t.v6.bye = s.v6.bye) : Stage t := by
  have l4 := h4 .v4
  have l6 := h4 .v6
  cases h with
  | rest a b c => exact .rest (h1.trans a) (h2.trans b) (fun f => mt (h4 f).1 (c f))
  | toldV4 k ec a b c d =>
    exact .toldV4 k ec (h1.trans a) (h2.trans b) (fun f => mt (h4 f).1 (c f)) (h5.trans d)
  | sendV4 k a b e c d =>
    exact .sendV4 k (h1.trans a) (h2.trans b) (h3.trans e) (l4.2 c) (h5.trans d)
  | toldV6 k ec a b c => exact .toldV6 k ec (h1.trans a) (h2.trans b) (fun f => mt (h4 f).1 (c f))
  | sendV6 k a b e c d =>
    exact .sendV6 k (h1.trans a) (h2.trans b) (h3.trans e) (l6.2 c) (mt l4.1 d)

/-- One socket changes, the closing stays where it is. -/
theorem Inv.put {s : St} (h : Inv s) (f : Fam) (i : Inst) (g : Good s.phase i)
    (hl : i.leaving ↔ (s.inst f).leaving) (hb : i.bye = (s.inst f).bye) : Inv (s.set f i) := by
  refine ⟨?_, ?_, ?_, ?_, ?_⟩
  · intro x
    rw [inst_set, set_phase]
    split
    · exact g
    · exact h.good x
  · refine h.stage.same (by simp) (by simp) (by simp) ?_ ?_
    · intro x
      rw [inst_set]
      split
      · rename_i e; rw [e]; exact hl
      · exact Iff.rfl
    · cases f
      · rfl
      · exact hb
  · simpa using h.late
  · intro x
    rw [inst_set, set_net]
    have := h.count x
    split
    · rename_i e
      rw [hb]
      rw [e] at this ⊢
      exact this
    · exact this
  · simpa using h.bad

theorem Inv.net {s : St} (h : Inv s) (ps : List Packet)
    (hp : ∀ p ∈ ps, p.goodbye = false) : Inv { s with net := s.net ++ ps } := by
  refine ⟨h.good, h.stage.same rfl rfl rfl (fun f => by cases f <;> exact Iff.rfl) rfl, h.late, ?_, h.bad⟩
  intro f
  have e : goodbyes f (s.net ++ ps) = goodbyes f s.net := by
    unfold goodbyes
    rw [List.countP_append]
    have : ps.countP (fun p => p.goodbye && decide (p.fam = f)) = 0 := by
      rw [List.countP_eq_zero]
      intro p hm
      rw [hp p hm]
      simp
    omega
  show goodbyes f (s.net ++ ps) ≤ _
  rw [e]
  exact h.count f

theorem Inv.recvPacket {s : St} (h : Inv s) (f : Fam)
    (hr : s.phase = .running → (s.inst f).opened = .idle ∧ (s.inst f).recv = .idle ∧
      (s.inst f).sent = .idle) : Inv (s.recvPacket f) := by
  unfold St.recvPacket
  split
  · rename_i hp
    obtain ⟨h1, h2, h3⟩ := hr hp
    dsimp only
    rw [if_pos h2]
    have g := h.good f
    refine h.put f _ ⟨g.buf, g.sentHeld, g.openHeld, fun _ _ => h3, fun _ e => absurd h1 e, g.bye,
      ?_, g.aborted, ?_⟩ Iff.rfl rfl
    · intro e; rw [hp] at e; cases e
    · intro e; rw [hp] at e; cases e
  · exact h

/-- What sending an announcement or an answer comes to. -/
inductive Sent (s : St) (f : Fam) (id : Nat) (d : Dest) (l : Luck) (t : St) : Prop
  | out (hp : s.phase = .running) (hb : (s.inst f).buf = false) (ho : s.port > 0)
      (hl : l.mem = true ∧ l.build = true) (ps : List Packet) (r : Ec)
      (hps : ∀ p ∈ ps, p = ⟨f, false, d, id, s.port, s.info⟩) (hlen : ps.length ≤ 1)
      (e : t = ({ s with net := s.net ++ ps, bad := s.bad || decide ((s.inst f).sent ≠ .idle) } : St).set f
        { s.inst f with buf := true, sent := .posted r })
  | skip (hn : ¬ (s.phase = .running ∧ (s.inst f).buf = false ∧ s.port > 0 ∧ l.mem = true ∧
        l.build = true)) (e : t = s.recvPacket f)

theorem set_set (s : St) (f : Fam) (i j : Inst) : (s.set f i).set f j = s.set f j := by
  cases f <;> rfl

theorem udpSend_eq (s : St) (f : Fam) (i : Inst) (p : Packet) (r : Ec) :
    ∃ ps r', (s.set f i).udpSend f p r
      = ({ s with net := s.net ++ ps, bad := s.bad || decide (i.sent ≠ .idle) } : St).set f
          { i with sent := .posted r' } ∧ (∀ q ∈ ps, q = p) ∧ ps.length ≤ 1 ∧
      (i.aborted = false → r = .ok → ps = [p] ∧ r' = .ok) := by
  unfold St.udpSend
  dsimp only
  rw [inst_set_self]
  rcases Bool.eq_false_or_eq_true i.aborted with ha | ha
  · refine ⟨[], .aborted, ?_, by simp, by simp, by simp [ha]⟩
    rw [if_pos ha]
    by_cases hs : i.sent = .idle <;> cases f <;> simp [hs, St.set, ha]
  · by_cases hr : r = .ok
    · refine ⟨[p], .ok, ?_, by simp, by simp, by simp⟩
      by_cases hs : i.sent = .idle <;> cases f <;> simp [hs, St.set, ha, hr]
    · refine ⟨[], r, ?_, by simp, by simp, fun _ h => absurd h hr⟩
      by_cases hs : i.sent = .idle <;> cases f <;> simp [hs, St.set, ha, hr]

theorem sendPacket_sent (s : St) (f : Fam) (id : Nat) (d : Dest) (l : Luck) :
    Sent s f id d l (s.sendPacket f id d l) := by
  unfold St.sendPacket
  split
  · rename_i h
    obtain ⟨h1, h2, h3⟩ := h
    split
    · rename_i hl
      dsimp only
      obtain ⟨ps, r, e, hq, hn, -⟩ := udpSend_eq s f { s.inst f with buf := true }
        ⟨f, false, d, id, s.port, s.info⟩ l.send
      rw [set_port, set_info, e]
      exact .out h1 h2 h3 hl ps r hq hn rfl
    · rename_i hl
      exact .skip (fun x => hl x.2.2.2) rfl
  · rename_i h
    exact .skip (fun x => h ⟨x.1, x.2.1, x.2.2.1⟩) rfl

theorem Inv.sendPacket {s : St} (h : Inv s) (f : Fam) (id : Nat) (d : Dest) (l : Luck)
    (hr : s.phase = .running → (s.inst f).opened = .idle ∧ (s.inst f).recv = .idle ∧
      (s.inst f).sent = .idle) : Inv (s.sendPacket f id d l) := by
  have hs := sendPacket_sent s f id d l
  generalize s.sendPacket f id d l = t at hs
  cases hs with
  | skip hn e => rw [e]; exact h.recvPacket f hr
  | out hp hb ho hl ps r hps hlen e =>
    obtain ⟨h1, h2, h3⟩ := hr hp
    have hi := h.net ps (fun p hm => by rw [hps p hm])
    have hbad : (s.bad || decide ((s.inst f).sent ≠ .idle)) = s.bad := by simp [h3]
    rw [hbad] at e
    rw [e]
    have g := h.good f
    have hbye : (s.inst f).bye = false := by
      rcases Bool.eq_false_or_eq_true (s.inst f).bye with hb | hb
      · exact absurd hp (g.bye hb).1
      · exact hb
    have hin : ∀ ps, (({ s with net := s.net ++ ps } : St).inst f) = s.inst f := by
      intro ps; cases f <;> rfl
    refine hi.put f _ ⟨by simp, by simp, g.openHeld, fun _ e => absurd h2 e,
      fun _ e => absurd h1 e, g.bye, ?_, g.aborted, ?_⟩ ?_ ?_
    · intro e; rw [show ({ s with net := s.net ++ ps } : St).phase = s.phase from rfl, hp] at e; cases e
    · intro e; rw [show ({ s with net := s.net ++ ps } : St).phase = s.phase from rfl, hp] at e; cases e
    · rw [hin]; simp [Inst.leaving, hbye]
    · rw [hin]

/-- What closing one of the sockets comes to. -/
inductive Closed (s : St) (f : Fam) (l : Luck) (t : St) : Prop
  | busy (hb : (s.inst f).buf = true) (e : t = s.resolveInst .inProgress)
  | fail (hb : (s.inst f).buf = false) (ec : Ec)
      (hn : ¬ (s.port > 0 ∧ l.mem = true ∧ l.build = true))
      (e : t = (s.set f { s.inst f with bye := true }).resolveInst ec)
  | out (hb : (s.inst f).buf = false) (ho : s.port > 0) (hl : l.mem = true ∧ l.build = true)
      (ps : List Packet) (r : Ec)
      (hps : ∀ p ∈ ps, p = ⟨f, true, .group, 0, s.port, s.info⟩) (hlen : ps.length ≤ 1)
      (hok : (s.inst f).aborted = false → l.send = .ok →
        ps = [⟨f, true, .group, 0, s.port, s.info⟩] ∧ r = .ok)
      (e : t = ({ s with net := s.net ++ ps, bad := s.bad || decide ((s.inst f).sent ≠ .idle) } : St).set f
        { s.inst f with buf := true, bye := true, sent := .posted r })

theorem closeInstance_closed (s : St) (f : Fam) (l : Luck) :
    Closed s f l (s.closeInstance f l) := by
  unfold St.closeInstance
  split
  · rename_i hb; exact .busy hb rfl
  · rename_i hb
    have hb : (s.inst f).buf = false := by simpa using hb
    dsimp only
    rw [set_port]
    split
    · rename_i ho
      split
      · rename_i hm
        split
        · rename_i hbd
          obtain ⟨ps, r, e, hq, hn, hok⟩ := udpSend_eq s f
            { s.inst f with buf := true, bye := true } ⟨f, true, .group, 0, s.port, s.info⟩ l.send
          rw [inst_set_self, set_set, set_port, set_info, e]
          exact .out hb ho ⟨hm, hbd⟩ ps r hq hn hok rfl
        · rename_i hbd; exact .fail hb _ (fun x => hbd x.2.2) rfl
      · rename_i hm; exact .fail hb _ (fun x => hm x.2.1) rfl
    · rename_i ho; exact .fail hb _ (fun x => ho x.1) rfl

theorem inst_with (s : St) (net : List Packet) (bad : Bool) (f : Fam) :
    ({ s with net := net, bad := bad } : St).inst f = s.inst f := by cases f <;> rfl

theorem goodbyes_append (f : Fam) (a b : List Packet) :
    goodbyes f (a ++ b) = goodbyes f a + goodbyes f b := by simp [goodbyes, List.countP_append]

theorem goodbyes_other {f g : Fam} {ps : List Packet} (h : ∀ p ∈ ps, p.fam = f) (e : g ≠ f) :
    goodbyes g ps = 0 := by
  unfold goodbyes
  rw [List.countP_eq_zero]
  intro p hm
  rw [h p hm]
  simp [Ne.symm e]

/-- Both stages of the closing start from here. -/
structure Ready (s : St) (f : Fam) (k : Nat) : Prop where
  good : ∀ g, Good s.phase (s.inst g)
  count : ∀ g, goodbyes g s.net ≤ (s.inst g).bye.toNat
  bad : s.bad = false
  closing : s.closing = some k
  ev : s.closeEv = none
  cb : s.closeCb = f
  calm : ∀ g, ¬ (s.inst g).leaving
  late : s.phase ≠ .running ∧ s.phase ≠ .fresh
  unsaid : (s.inst f).bye = false
  v6 : s.v6.bye = false

theorem Good.say {ph : Phase} {i : Inst} (g : Good ph i) (h : ph ≠ .running ∧ ph ≠ .fresh) :
    Good ph { i with bye := true } :=
  ⟨g.buf, g.sentHeld, g.openHeld, g.one, g.first, fun _ => h, fun e => absurd e h.2, g.aborted, g.free⟩

theorem Ready.closeInstance {s : St} {f : Fam} {k : Nat} (h : Ready s f k) (l : Luck) :
    Inv (s.closeInstance f l) := by
  have hc := closeInstance_closed s f l
  generalize s.closeInstance f l = t at hc
  have told : ∀ (u : St) (ec : Ec), u.closing = some k → u.closeEv = some (f, ec) →
      (∀ g, ¬ (u.inst g).leaving) → (f = .v4 → u.v6.bye = false) → Stage u := by
    intro u ec h1 h2 h3 h4
    cases f
    · exact .toldV4 k ec h1 h2 h3 (h4 rfl)
    · exact .toldV6 k ec h1 h2 h3
  cases hc with
  | busy hb e =>
    rw [e]
    refine ⟨Fam.both (h.good .v4) (h.good .v6), told _ .inProgress h.closing ?_ ?_ (fun _ => h.v6),
      fun _ => h.late, Fam.both (h.count .v4) (h.count .v6), ?_⟩
    · simp [St.resolveInst, h.cb]
    · exact Fam.both (h.calm .v4) (h.calm .v6)
    · simp [St.resolveInst, h.bad, h.ev]
  | fail hb ec hn e =>
    rw [e]
    have hi : ∀ g, ((s.set f { s.inst f with bye := true }).resolveInst ec).inst g
        = if g = f then { s.inst f with bye := true } else s.inst g := by
      intro g; cases f <;> cases g <;> rfl
    refine ⟨?_, told _ ec ?_ ?_ ?_ ?_, ?_, ?_, ?_⟩
    · intro g
      rw [hi]
      show Good (s.set f _).phase _
      rw [set_phase]
      split
      · exact (h.good f).say h.late
      · exact h.good g
    · simp [St.resolveInst, h.closing]
    · simp [St.resolveInst, h.cb]
    · intro g
      rw [hi]
      split
      · rintro ⟨-, hs⟩
        have := (h.good f).buf.2 hs
        rw [hb] at this
        cases this
      · exact h.calm g
    · intro e; subst e; exact h.v6
    · intro _; simpa [St.resolveInst] using h.late
    · intro g
      rw [hi]
      have := h.count g
      show goodbyes g (s.set f _).net ≤ _
      rw [set_net]
      split
      · rename_i eg
        rw [eg] at this ⊢
        rw [h.unsaid] at this
        simp only [Bool.toNat_false] at this
        omega
      · exact this
    · simp [St.resolveInst, h.bad, h.ev]
  | out hb ho hl ps r hps hlen hok e =>
    have hs : (s.inst f).sent = .idle := by
      have := mt (h.good f).buf.2 (by rw [hb]; simp)
      exact Classical.not_not.1 this
    rw [e]
    have hi : ∀ g, (St.set { s with net := s.net ++ ps, bad := s.bad || decide ((s.inst f).sent ≠ .idle) } f
        { s.inst f with buf := true, bye := true, sent := .posted r }).inst g
        = if g = f then { s.inst f with buf := true, bye := true, sent := .posted r } else s.inst g := by
      intro g; rw [inst_set, inst_with]; split <;> rfl
    refine ⟨?_, ?_, ?_, ?_, ?_⟩
    · intro g
      rw [hi]
      rw [set_phase]
      split
      · have q := h.good f
        exact ⟨by simp, by simp, q.openHeld, fun e => absurd e h.late.1, fun e => absurd e h.late.1,
          fun _ => h.late, fun e => absurd e h.late.2, q.aborted, q.free⟩
      · exact h.good g
    · cases f
      · exact .sendV4 k h.closing h.ev h.cb ⟨rfl, by simp [St.set]⟩ h.v6
      · exact .sendV6 k h.closing h.ev h.cb ⟨rfl, by simp [St.set]⟩ (h.calm .v4)
    · intro _; rw [set_phase]; exact h.late
    · intro g
      rw [hi, set_net]
      show goodbyes g (s.net ++ ps) ≤ _
      rw [goodbyes_append]
      have := h.count g
      split
      · rename_i eg
        rw [eg] at this ⊢
        rw [h.unsaid] at this
        have h2 : goodbyes f ps ≤ ps.length := List.countP_le_length
        simp only [Bool.toNat_false, Bool.toNat_true] at this ⊢
        omega
      · rename_i eg
        rw [goodbyes_other (f := f) (ps := ps) (fun p hm => by rw [hps p hm]) eg]
        omega
    · rw [set_bad]
      simp [h.bad, hs]

theorem Inv.init : Inv {} := by
  refine ⟨?_, .rest rfl rfl ?_, ?_, ?_, rfl⟩
  · intro f
    cases f <;> exact ⟨by simp [St.inst], by simp [St.inst], by simp [St.inst], by simp, by simp, by simp [St.inst],
      fun _ => rfl, by simp [St.inst], by simp⟩
  · intro f; cases f <;> simp [Inst.leaving, St.inst]
  · simp
  · intro f; cases f <;> simp [goodbyes]

theorem Inv.publish {s : St} (h : Inv s) (p : Nat) (b4 b6 : Ec) : Inv (s.publish p b4 b6) := by
  have upd : ∀ (u : St) (a b : Nat), Inv u → Inv { u with port := a, info := b } := by
    intro u a b h
    refine ⟨Fam.both (h.good .v4) (h.good .v6),
      h.stage.same rfl rfl rfl (fun f => by cases f <;> exact Iff.rfl) rfl, h.late,
      Fam.both (h.count .v4) (h.count .v6), h.bad⟩
  have first : s.phase = .fresh → Inv { s with phase := .running
                                               v4 := { s.v4 with opened := .posted b4 }
                                               v6 := { s.v6 with opened := .posted b6 } } := by
    intro hp
    have e4 : s.v4 = {} := (h.good .v4).fresh hp
    have e6 : s.v6 = {} := (h.good .v6).fresh hp
    have c4 := h.count .v4
    have c6 := h.count .v6
    refine ⟨?_, ?_, ?_, ?_, h.bad⟩
    · intro f
      cases f <;> simp only [St.inst, e4, e6] <;>
        exact ⟨by simp, by simp, by simp, by simp, by simp, by simp, by simp, by simp, by simp⟩
    · cases h.stage with
      | rest a b c => exact .rest a b (fun f => by cases f <;> simp [Inst.leaving, St.inst, e4, e6])
      | toldV4 k ec a b c d => exact absurd hp (h.late (by simp [a])).2
      | sendV4 k a b e c d => exact absurd hp (h.late (by simp [a])).2
      | toldV6 k ec a b c => exact absurd hp (h.late (by simp [a])).2
      | sendV6 k a b e c d => exact absurd hp (h.late (by simp [a])).2
    · intro hc; exact absurd hp (h.late hc).2
    · intro f; cases f
      · exact c4
      · exact c6
  unfold St.publish
  dsimp only
  by_cases hp : s.phase = .fresh
  · rw [if_pos hp]
    rw [if_pos rfl]
    exact upd _ _ _ (first hp)
  · rw [if_neg hp]
    split
    · exact upd _ _ _ h
    · exact h

theorem Inv.close {s : St} (h : Inv s) (l : Luck) : Inv (s.close l) := by
  have ans : ∀ (c : Nat) (a : List (Nat × Ec)), Inv { s with calls := c, answers := a } := by
    intro c a
    exact ⟨Fam.both (h.good .v4) (h.good .v6),
      h.stage.same rfl rfl rfl (fun f => by cases f <;> exact Iff.rfl) rfl, h.late,
      Fam.both (h.count .v4) (h.count .v6), h.bad⟩
  unfold St.close
  dsimp only
  split
  · exact ans _ _
  · rename_i hc
    split
    · rename_i hp
      have hn : s.closing = none := by
        cases e : s.closing with
        | none => rfl
        | some k => rw [e] at hc; simp at hc
      have hev : s.closeEv = none ∧ ∀ f, ¬ (s.inst f).leaving := by
        cases h.stage with
        | rest a b c => exact ⟨b, c⟩
        | toldV4 k ec a b c d => rw [a] at hn; cases hn
        | sendV4 k a b e c d => rw [a] at hn; cases hn
        | toldV6 k ec a b c => rw [a] at hn; cases hn
        | sendV6 k a b e c d => rw [a] at hn; cases hn
      have hbye : ∀ f, (s.inst f).bye = false := by
        intro f
        rcases Bool.eq_false_or_eq_true (s.inst f).bye with hb | hb
        · exact absurd hp ((h.good f).bye hb).1
        · exact hb
      apply Ready.closeInstance (k := s.calls)
      refine ⟨?_, ?_, h.bad, rfl, hev.1, rfl, ?_, ⟨by simp, by simp⟩, hbye .v4, hbye .v6⟩
      · intro g
        have q := h.good g
        have : ∀ i, Good .running i → i.bye = false → Good .closed i := by
          intro i q hb
          refine ⟨q.buf, q.sentHeld, q.openHeld, by simp, by simp, by simp, by simp, ?_, by simp⟩
          intro ha; have := q.aborted ha; cases this
        rw [hp] at q
        cases g
        · exact this _ q (hbye .v4)
        · exact this _ q (hbye .v6)
      · intro g; cases g
        · exact h.count .v4
        · exact h.count .v6
      · intro g; cases g
        · exact hev.2 .v4
        · exact hev.2 .v6
    · exact ans _ _

theorem Inv.stop {s : St} (h : Inv s) : Inv s.stop := by
  have hi : ∀ f, s.stop.inst f = (s.inst f).abort := by intro f; cases f <;> rfl
  refine ⟨?_, h.stage.same rfl rfl rfl ?_ rfl, ?_, ?_, h.bad⟩
  · intro f
    rw [hi]
    have q := h.good f
    show Good .stopped _
    refine ⟨q.buf, q.sentHeld, q.openHeld, by simp, by simp, by simp, by simp, by simp, ?_⟩
    intro _
    simp only [Inst.abort]
    split
    · simp
    · assumption
  · intro f; rw [hi]; exact Iff.rfl
  · intro _; exact ⟨by simp [St.stop], by simp [St.stop]⟩
  · intro f; rw [hi]; exact h.count f

theorem Inv.ready {s : St} (h : Inv s) (f : Fam) (ec : Ec) : Inv (s.ready f ec) := by
  unfold St.ready
  split
  · rename_i hh
    have q := h.good f
    refine h.put f _ ⟨q.buf, q.sentHeld, q.openHeld, fun a _ => q.one a (by simp [hh]), ?_, q.bye, ?_,
      q.aborted, by simp⟩ Iff.rfl rfl
    · intro a b
      have := (q.first a b).1
      rw [hh] at this; cases this
    · intro a
      have := q.fresh a
      rw [this] at hh
      cases hh
  · exact h

theorem Inv.runOpened {s : St} (h : Inv s) (f : Fam) (l : Luck) : Inv (s.runOpened f l) := by
  unfold St.runOpened
  split
  · rename_i ec ho
    dsimp only
    have q := h.good f
    have hp : Inv (s.set f { s.inst f with opened := .idle }) := by
      refine h.put f _ ⟨q.buf, q.sentHeld, by simp, q.one, by simp, q.bye, ?_, q.aborted, q.free⟩
        Iff.rfl rfl
      intro a
      have := q.fresh a
      rw [this] at ho; cases ho
    split
    · exact hp
    · split
      · refine hp.sendPacket f _ _ _ ?_
        rw [set_phase, inst_set_self]
        intro hr
        have := q.first hr (by simp [ho])
        exact ⟨rfl, this⟩
      · exact hp
  · exact h

theorem Inv.runRecv {s : St} (h : Inv s) (f : Fam) (g : Got) (l : Luck) : Inv (s.runRecv f g l) := by
  unfold St.runRecv
  split
  · rename_i ec ho
    dsimp only
    have q := h.good f
    have hp : Inv (s.set f { s.inst f with recv := .idle }) := by
      refine h.put f _ ⟨q.buf, q.sentHeld, q.openHeld, by simp, fun a b => ⟨rfl, (q.first a b).2⟩, q.bye, ?_,
        q.aborted, by simp⟩ Iff.rfl rfl
      intro a
      have := q.fresh a
      rw [this] at ho; cases ho
    have hr : (s.set f { s.inst f with recv := .idle }).phase = .running →
        ((s.set f { s.inst f with recv := .idle }).inst f).opened = .idle ∧
        ((s.set f { s.inst f with recv := .idle }).inst f).recv = .idle ∧
        ((s.set f { s.inst f with recv := .idle }).inst f).sent = .idle := by
      rw [set_phase, inst_set_self]
      intro hr
      refine ⟨?_, rfl, q.one hr (by simp [ho])⟩
      apply Classical.byContradiction
      intro hn
      have := (q.first hr hn).1
      rw [ho] at this; cases this
    split
    · exact hp
    split
    · exact hp
    split
    · split
      · exact hp.recvPacket f hr
      · exact hp
    split
    · split
      · exact hp.sendPacket f _ _ _ hr
      · exact hp.recvPacket f hr
    split
    · exact hp.recvPacket f hr
    · exact hp
  · exact h

theorem Inv.runSent {s : St} (h : Inv s) (f : Fam) : Inv (s.runSent f) := by
  unfold St.runSent
  split
  · rename_i ec ho
    dsimp only
    have q := h.good f
    have hb : (s.inst f).buf = true := q.buf.2 (by simp [ho])
    rw [if_pos hb]
    have hn : s.phase ≠ .fresh := by
      intro a
      have := q.fresh a
      rw [this] at ho; cases ho
    have gq : Good s.phase { s.inst f with sent := .idle, buf := false } :=
      ⟨by simp, by simp, q.openHeld, by simp, fun a b => ⟨(q.first a b).1, rfl⟩, q.bye,
        fun a => absurd a hn, q.aborted, q.free⟩
    rcases Bool.eq_false_or_eq_true (s.inst f).bye with hy | hy
    · rw [if_pos hy]
      have hl : (s.inst f).leaving := ⟨hy, by simp [ho]⟩
      have main : ∀ r, Inv ((s.set f { s.inst f with sent := .idle, buf := false }).resolveInst r) := by
        intro r
        have hi : ∀ g, ((s.set f { s.inst f with sent := .idle, buf := false }).resolveInst r).inst g
            = if g = f then { s.inst f with sent := .idle, buf := false } else s.inst g := by
          intro g; cases f <;> cases g <;> rfl
        have hev : s.closeEv = none := by
          cases h.stage with
          | rest a b c => exact b
          | toldV4 k ec a b c d => exact absurd hl (c f)
          | sendV4 k a b e c d => exact b
          | toldV6 k ec a b c => exact absurd hl (c f)
          | sendV6 k a b e c d => exact b
        refine ⟨?_, ?_, ?_, ?_, ?_⟩
        · intro g
          rw [hi]
          show Good (s.set f _).phase _
          rw [set_phase]
          split
          · exact gq
          · exact h.good g
        · cases h.stage with
          | rest a b c => exact absurd hl (c f)
          | toldV4 k ec a b c d => exact absurd hl (c f)
          | toldV6 k ec a b c => exact absurd hl (c f)
          | sendV4 k a b e c d =>
            have hf : f = .v4 := by
              cases f
              · rfl
              · have := hl.1
                rw [show s.inst .v6 = s.v6 from rfl, d] at this; cases this
            subst hf
            refine .toldV4 k r a ?_ ?_ d
            · simp [St.resolveInst, e]
            · intro g
              rw [hi]
              split
              · simp [Inst.leaving]
              · rename_i hg
                cases g
                · exact absurd rfl hg
                · rintro ⟨x, -⟩; rw [show s.inst .v6 = s.v6 from rfl, d] at x; cases x
          | sendV6 k a b e c d =>
            have hf : f = .v6 := by
              cases f
              · exact absurd hl d
              · rfl
            subst hf
            refine .toldV6 k r a ?_ ?_
            · simp [St.resolveInst, e]
            · intro g
              rw [hi]
              split
              · simp [Inst.leaving]
              · rename_i hg
                cases g
                · exact d
                · exact absurd rfl hg
        · intro hc
          show (s.set f _).phase ≠ _ ∧ (s.set f _).phase ≠ _
          rw [set_phase]
          refine h.late ?_
          simpa [St.resolveInst] using hc
        · intro g
          rw [hi]
          have := h.count g
          show goodbyes g (s.set f _).net ≤ _
          rw [set_net]
          split
          · rename_i eg; rw [eg] at this ⊢; exact this
          · exact this
        · simp [St.resolveInst, h.bad, hev]
      split
      · exact main _
      · exact main _
    · rw [if_neg (by simp [hy])]
      have hp : Inv (s.set f { s.inst f with sent := .idle, buf := false }) :=
        h.put f _ gq (by simp [Inst.leaving, hy]) rfl
      refine Inv.recvPacket hp f ?_
      rw [set_phase, inst_set_self]
      intro hr
      refine ⟨?_, ?_, rfl⟩
      · apply Classical.byContradiction
        intro hn
        have := (q.first hr hn).2
        rw [ho] at this; cases this
      · apply Classical.byContradiction
        intro hn
        have := q.one hr hn
        rw [ho] at this; cases this
  · exact h

theorem Inv.runClosed {s : St} (h : Inv s) (l : Luck) : Inv (s.runClosed l) := by
  unfold St.runClosed
  split
  · rename_i ec he
    cases h.stage with
    | rest a b c => rw [b] at he; cases he
    | sendV4 k a b e c d => rw [b] at he; cases he
    | toldV6 k ec' a b c => rw [b] at he; cases he
    | sendV6 k a b e c d => rw [b] at he; cases he
    | toldV4 k ec' a b c d =>
      apply Ready.closeInstance (k := k)
      refine ⟨?_, ?_, h.bad, a, rfl, rfl, ?_, h.late (by simp [a]), d, d⟩
      · exact Fam.both (h.good .v4) (h.good .v6)
      · exact Fam.both (h.count .v4) (h.count .v6)
      · intro g; cases g
        · exact c .v4
        · exact c .v6
  · rename_i ec he
    cases h.stage with
    | rest a b c => rw [b] at he; cases he
    | sendV4 k a b e c d => rw [b] at he; cases he
    | toldV4 k ec' a b c d => rw [b] at he; cases he
    | sendV6 k a b e c d => rw [b] at he; cases he
    | toldV6 k ec' a b c =>
      split
      · refine ⟨?_, .rest rfl rfl ?_, by simp, ?_, h.bad⟩
        · exact Fam.both (h.good .v4) (h.good .v6)
        · intro g; cases g
          · exact c .v4
          · exact c .v6
        · exact Fam.both (h.count .v4) (h.count .v6)
      · rename_i hn; rw [a] at hn; cases hn
  · exact h

/-- While the server is there, the invariant holds. -/
theorem inv (ops : List Op) (h : (run ops).gone = false) : Inv (run ops) := by
  induction ops using snoc_ind with
  | nil => exact Inv.init
  | snoc ops op ih =>
    rw [run_snoc] at h ⊢
    unfold St.step at h ⊢
    split at h
    · rename_i hg; rw [hg] at h; cases h
    · rename_i hg
      have ih := ih (by simpa using hg)
      rw [if_neg hg]
      cases op with
      | publish p b4 b6 => exact ih.publish p b4 b6
      | close l => exact ih.close l
      | stop => exact ih.stop
      | deinit => cases h
      | runOpened f l => exact ih.runOpened f l
      | ready f ec => exact ih.ready f ec
      | runRecv f g l => exact ih.runRecv f g l
      | runSent f => exact ih.runSent f
      | runClosed l => exact ih.runClosed l

/-! ### What the parts leave alone -/

@[simp] theorem recvPacket_phase (s : St) (f : Fam) : (s.recvPacket f).phase = s.phase := by
  unfold St.recvPacket
  split
  · dsimp only; rw [set_phase]; split <;> rfl
  · rfl
@[simp] theorem recvPacket_port (s : St) (f : Fam) : (s.recvPacket f).port = s.port := by
  unfold St.recvPacket
  split
  · dsimp only; rw [set_port]; split <;> rfl
  · rfl
@[simp] theorem recvPacket_info (s : St) (f : Fam) : (s.recvPacket f).info = s.info := by
  unfold St.recvPacket
  split
  · dsimp only; rw [set_info]; split <;> rfl
  · rfl
@[simp] theorem recvPacket_gone (s : St) (f : Fam) : (s.recvPacket f).gone = s.gone := by
  unfold St.recvPacket
  split
  · dsimp only; rw [set_gone]; split <;> rfl
  · rfl
@[simp] theorem recvPacket_net (s : St) (f : Fam) : (s.recvPacket f).net = s.net := by
  unfold St.recvPacket
  split
  · dsimp only; rw [set_net]; split <;> rfl
  · rfl
@[simp] theorem recvPacket_closing (s : St) (f : Fam) : (s.recvPacket f).closing = s.closing := by
  unfold St.recvPacket
  split
  · dsimp only; rw [set_closing]; split <;> rfl
  · rfl
@[simp] theorem recvPacket_answers (s : St) (f : Fam) : (s.recvPacket f).answers = s.answers := by
  unfold St.recvPacket
  split
  · dsimp only; rw [set_answers]; split <;> rfl
  · rfl
@[simp] theorem recvPacket_calls (s : St) (f : Fam) : (s.recvPacket f).calls = s.calls := by
  unfold St.recvPacket
  split
  · dsimp only; rw [set_calls]; split <;> rfl
  · rfl
@[simp] theorem recvPacket_leaked (s : St) (f : Fam) : (s.recvPacket f).leaked = s.leaked := by
  unfold St.recvPacket
  split
  · dsimp only; rw [set_leaked]; split <;> rfl
  · rfl
@[simp] theorem sendPacket_phase (s : St) (f : Fam) (id : Nat) (d : Dest) (l : Luck) :
    (s.sendPacket f id d l).phase = s.phase := by
  have hc := sendPacket_sent s f id d l
  generalize s.sendPacket f id d l = t at hc
  cases hc with
  | skip hn e => rw [e, recvPacket_phase]
  | out hp hb ho hl ps r hps hlen e => rw [e, set_phase]
@[simp] theorem closeInstance_phase (s : St) (f : Fam) (l : Luck) :
    (s.closeInstance f l).phase = s.phase := by
  have hc := closeInstance_closed s f l
  generalize s.closeInstance f l = t at hc
  cases hc with
  | busy hb e => rw [e]; rfl
  | fail hb ec hn e => rw [e]; simp [St.resolveInst]
  | out hb ho hl ps r hps hlen hok e => rw [e, set_phase]
@[simp] theorem sendPacket_port (s : St) (f : Fam) (id : Nat) (d : Dest) (l : Luck) :
    (s.sendPacket f id d l).port = s.port := by
  have hc := sendPacket_sent s f id d l
  generalize s.sendPacket f id d l = t at hc
  cases hc with
  | skip hn e => rw [e, recvPacket_port]
  | out hp hb ho hl ps r hps hlen e => rw [e, set_port]
@[simp] theorem closeInstance_port (s : St) (f : Fam) (l : Luck) :
    (s.closeInstance f l).port = s.port := by
  have hc := closeInstance_closed s f l
  generalize s.closeInstance f l = t at hc
  cases hc with
  | busy hb e => rw [e]; rfl
  | fail hb ec hn e => rw [e]; simp [St.resolveInst]
  | out hb ho hl ps r hps hlen hok e => rw [e, set_port]
@[simp] theorem sendPacket_info (s : St) (f : Fam) (id : Nat) (d : Dest) (l : Luck) :
    (s.sendPacket f id d l).info = s.info := by
  have hc := sendPacket_sent s f id d l
  generalize s.sendPacket f id d l = t at hc
  cases hc with
  | skip hn e => rw [e, recvPacket_info]
  | out hp hb ho hl ps r hps hlen e => rw [e, set_info]
@[simp] theorem closeInstance_info (s : St) (f : Fam) (l : Luck) :
    (s.closeInstance f l).info = s.info := by
  have hc := closeInstance_closed s f l
  generalize s.closeInstance f l = t at hc
  cases hc with
  | busy hb e => rw [e]; rfl
  | fail hb ec hn e => rw [e]; simp [St.resolveInst]
  | out hb ho hl ps r hps hlen hok e => rw [e, set_info]
@[simp] theorem sendPacket_gone (s : St) (f : Fam) (id : Nat) (d : Dest) (l : Luck) :
    (s.sendPacket f id d l).gone = s.gone := by
  have hc := sendPacket_sent s f id d l
  generalize s.sendPacket f id d l = t at hc
  cases hc with
  | skip hn e => rw [e, recvPacket_gone]
  | out hp hb ho hl ps r hps hlen e => rw [e, set_gone]
@[simp] theorem closeInstance_gone (s : St) (f : Fam) (l : Luck) :
    (s.closeInstance f l).gone = s.gone := by
  have hc := closeInstance_closed s f l
  generalize s.closeInstance f l = t at hc
  cases hc with
  | busy hb e => rw [e]; rfl
  | fail hb ec hn e => rw [e]; simp [St.resolveInst]
  | out hb ho hl ps r hps hlen hok e => rw [e, set_gone]
@[simp] theorem sendPacket_closing (s : St) (f : Fam) (id : Nat) (d : Dest) (l : Luck) :
    (s.sendPacket f id d l).closing = s.closing := by
  have hc := sendPacket_sent s f id d l
  generalize s.sendPacket f id d l = t at hc
  cases hc with
  | skip hn e => rw [e, recvPacket_closing]
  | out hp hb ho hl ps r hps hlen e => rw [e, set_closing]
@[simp] theorem closeInstance_closing (s : St) (f : Fam) (l : Luck) :
    (s.closeInstance f l).closing = s.closing := by
  have hc := closeInstance_closed s f l
  generalize s.closeInstance f l = t at hc
  cases hc with
  | busy hb e => rw [e]; rfl
  | fail hb ec hn e => rw [e]; simp [St.resolveInst]
  | out hb ho hl ps r hps hlen hok e => rw [e, set_closing]
@[simp] theorem sendPacket_answers (s : St) (f : Fam) (id : Nat) (d : Dest) (l : Luck) :
    (s.sendPacket f id d l).answers = s.answers := by
  have hc := sendPacket_sent s f id d l
  generalize s.sendPacket f id d l = t at hc
  cases hc with
  | skip hn e => rw [e, recvPacket_answers]
  | out hp hb ho hl ps r hps hlen e => rw [e, set_answers]
@[simp] theorem closeInstance_answers (s : St) (f : Fam) (l : Luck) :
    (s.closeInstance f l).answers = s.answers := by
  have hc := closeInstance_closed s f l
  generalize s.closeInstance f l = t at hc
  cases hc with
  | busy hb e => rw [e]; rfl
  | fail hb ec hn e => rw [e]; simp [St.resolveInst]
  | out hb ho hl ps r hps hlen hok e => rw [e, set_answers]
@[simp] theorem sendPacket_calls (s : St) (f : Fam) (id : Nat) (d : Dest) (l : Luck) :
    (s.sendPacket f id d l).calls = s.calls := by
  have hc := sendPacket_sent s f id d l
  generalize s.sendPacket f id d l = t at hc
  cases hc with
  | skip hn e => rw [e, recvPacket_calls]
  | out hp hb ho hl ps r hps hlen e => rw [e, set_calls]
@[simp] theorem closeInstance_calls (s : St) (f : Fam) (l : Luck) :
    (s.closeInstance f l).calls = s.calls := by
  have hc := closeInstance_closed s f l
  generalize s.closeInstance f l = t at hc
  cases hc with
  | busy hb e => rw [e]; rfl
  | fail hb ec hn e => rw [e]; simp [St.resolveInst]
  | out hb ho hl ps r hps hlen hok e => rw [e, set_calls]
@[simp] theorem sendPacket_leaked (s : St) (f : Fam) (id : Nat) (d : Dest) (l : Luck) :
    (s.sendPacket f id d l).leaked = s.leaked := by
  have hc := sendPacket_sent s f id d l
  generalize s.sendPacket f id d l = t at hc
  cases hc with
  | skip hn e => rw [e, recvPacket_leaked]
  | out hp hb ho hl ps r hps hlen e => rw [e, set_leaked]
@[simp] theorem closeInstance_leaked (s : St) (f : Fam) (l : Luck) :
    (s.closeInstance f l).leaked = s.leaked := by
  have hc := closeInstance_closed s f l
  generalize s.closeInstance f l = t at hc
  cases hc with
  | busy hb e => rw [e]; rfl
  | fail hb ec hn e => rw [e]; simp [St.resolveInst]
  | out hb ho hl ps r hps hlen hok e => rw [e, set_leaked]

theorem gone_step {s : St} (h : s.gone = true) (op : Op) : s.step op = s := by
  unfold St.step; rw [if_pos h]

/-- What the callbacks of the events leave alone. -/
theorem callback_frame (s : St) (op : Op)
    (ho : match op with | .runOpened .. | .ready .. | .runRecv .. | .runSent .. | .runClosed .. => True
                        | _ => False) :
    (s.step op).phase = s.phase ∧ (s.step op).port = s.port ∧ (s.step op).info = s.info ∧
    (s.step op).gone = s.gone ∧ (s.step op).calls = s.calls ∧ (s.step op).leaked = s.leaked := by
  unfold St.step
  rcases Bool.eq_false_or_eq_true s.gone with hg | hg
  · rw [if_pos hg]; exact ⟨rfl, rfl, rfl, rfl, rfl, rfl⟩
  rw [if_neg (by simp [hg])]
  cases op with
  | publish p b4 b6 => exact ho.elim
  | close l => exact ho.elim
  | stop => exact ho.elim
  | deinit => exact ho.elim
  | runOpened f l =>
    simp only [St.runOpened]
    split
    · split
      · simp
      · split <;> simp
    · simp
  | ready f ec => simp only [St.ready]; split <;> simp
  | runRecv f g l =>
    simp only [St.runRecv]
    split
    · split
      · simp
      split
      · simp
      split
      · split <;> simp
      split
      · split <;> simp
      split <;> simp
    · simp
  | runSent f =>
    simp only [St.runSent]
    split
    · split
      · split <;> simp only [St.resolveInst, set_phase, set_port, set_info, set_gone, set_calls, set_leaked] <;>
          split <;> simp
      · simp only [recvPacket_phase, recvPacket_port, recvPacket_info, recvPacket_gone, recvPacket_calls,
          recvPacket_leaked, set_phase, set_port, set_info, set_gone, set_calls, set_leaked]
        split <;> simp
    · simp
  | runClosed l =>
    simp only [St.runClosed]
    split
    · simp
    · split <;> simp
    · simp

theorem gone_of_step {s : St} {op : Op} (hd : op ≠ .deinit) : (s.step op).gone = s.gone := by
  rcases Bool.eq_false_or_eq_true s.gone with hg | hg
  · rw [gone_step hg]
  cases op with
  | deinit => exact absurd rfl hd
  | publish p b4 b6 =>
    unfold St.step; rw [if_neg (by simp [hg])]
    simp only [St.publish]
    split <;> split <;> rfl
  | close l =>
    unfold St.step; rw [if_neg (by simp [hg])]
    simp only [St.close]
    split
    · rfl
    · split <;> simp
  | stop => unfold St.step; rw [if_neg (by simp [hg])]; rfl
  | runOpened f l => exact (callback_frame s (.runOpened f l) trivial).2.2.2.1
  | ready f ec => exact (callback_frame s (.ready f ec) trivial).2.2.2.1
  | runRecv f g l => exact (callback_frame s (.runRecv f g l) trivial).2.2.2.1
  | runSent f => exact (callback_frame s (.runSent f) trivial).2.2.2.1
  | runClosed l => exact (callback_frame s (.runClosed l) trivial).2.2.2.1

theorem step_eq {s : St} (hg : s.gone = false) (op : Op) : s.step op = match op with
    | .publish p b4 b6 => s.publish p b4 b6
    | .close l => s.close l
    | .stop => s.stop
    | .deinit => s.deinit
    | .runOpened f l => s.runOpened f l
    | .ready f ec => s.ready f ec
    | .runRecv f g l => s.runRecv f g l
    | .runSent f => s.runSent f
    | .runClosed l => s.runClosed l := by
  unfold St.step; rw [if_neg (by simp [hg])]; cases op <;> rfl

theorem stopped_of_stop (ops : List Op) (hs : Op.stop ∈ ops) (h : (run ops).gone = false) :
    (run ops).phase = .stopped := by
  induction ops using snoc_ind with
  | nil => cases hs
  | snoc ops op ih =>
    rw [run_snoc] at h ⊢
    rcases Bool.eq_false_or_eq_true (run ops).gone with hg | hg
    · rw [gone_step hg, hg] at h; cases h
    by_cases hop : op = .stop
    · subst hop; rw [step_eq hg]; rfl
    · have hm : Op.stop ∈ ops := by
        rcases List.mem_append.1 hs with hm | hm
        · exact hm
        · rw [List.mem_singleton] at hm; exact absurd hm.symm hop
      have ih := ih hm hg
      generalize run ops = s at *
      cases op with
      | publish p b4 b6 => rw [step_eq hg]; simp [St.publish, ih]
      | close l =>
        rw [step_eq hg]
        simp only [St.close]
        split
        · exact ih
        · rw [if_neg (by simp [ih])]; exact ih
      | stop => exact absurd rfl hop
      | deinit => rw [step_eq hg]; exact ih
      | runOpened f l => exact (callback_frame s (.runOpened f l) trivial).1.trans ih
      | ready f ec => exact (callback_frame s (.ready f ec) trivial).1.trans ih
      | runRecv f g l => exact (callback_frame s (.runRecv f g l) trivial).1.trans ih
      | runSent f => exact (callback_frame s (.runSent f) trivial).1.trans ih
      | runClosed l => exact (callback_frame s (.runClosed l) trivial).1.trans ih

/-- The published information and the phase agree with the history. -/
structure Agree (s : St) (p : Pub × Bool) : Prop where
  gone : s.gone = p.2
  port : s.port = p.1.port
  info : s.info = p.1.info
  over : p.1.over = true ↔ s.phase = .closed ∨ s.phase = .stopped
  fresh : s.phase = .fresh → p.1.on = false
  running : s.phase = .running → p.1.on = true

theorem agree (ops : List Op) : Agree (run ops) (ops.foldl pubStep ({}, false)) := by
  induction ops using snoc_ind with
  | nil => exact ⟨rfl, rfl, rfl, by simp [run], by simp, by simp [run]⟩
  | snoc ops op ih =>
    rw [run_snoc, List.foldl_append]
    have hi := inv ops
    generalize run ops = s at *
    generalize ops.foldl pubStep ({}, false) = p at *
    obtain ⟨q, gn⟩ := p
    show Agree (s.step op) (pubStep (q, gn) op)
    rcases Bool.eq_false_or_eq_true s.gone with hg | hg
    · have hgn : gn = true := ih.gone.symm.trans hg
      subst hgn
      rw [gone_step hg]
      have : pubStep (q, true) op = (q, true) := by cases op <;> simp [pubStep]
      rw [this]; exact ih
    have hgn : gn = false := ih.gone.symm.trans hg
    subst hgn
    have cb : (s.step op).phase = s.phase ∧ (s.step op).port = s.port ∧ (s.step op).info = s.info ∧
      (s.step op).gone = s.gone ∧ (s.step op).calls = s.calls ∧ (s.step op).leaked = s.leaked →
      Agree (s.step op) (q, false) := by
      rintro ⟨h1, h2, h3, h4, -, -⟩
      exact ⟨h4.trans ih.gone, h2.trans ih.port, h3.trans ih.info, by rw [h1]; exact ih.over,
        by rw [h1]; exact ih.fresh, by rw [h1]; exact ih.running⟩
    cases op with
    | runOpened f l => exact cb (callback_frame s (.runOpened f l) trivial)
    | ready f ec => exact cb (callback_frame s (.ready f ec) trivial)
    | runRecv f g l => exact cb (callback_frame s (.runRecv f g l) trivial)
    | runSent f => exact cb (callback_frame s (.runSent f) trivial)
    | runClosed l => exact cb (callback_frame s (.runClosed l) trivial)
    | deinit =>
      rw [step_eq hg]
      exact ⟨rfl, ih.port, ih.info, ih.over, ih.fresh, ih.running⟩
    | stop =>
      rw [step_eq hg]
      exact ⟨ih.gone, ih.port, ih.info, by simp [pubStep, St.stop], by simp [St.stop], by simp [St.stop]⟩
    | close l =>
      rw [step_eq hg]
      have ho := ih.over
      simp only [pubStep, St.close]
      split
      · rename_i hc
        simp only [Bool.false_eq_true, if_false]
        have hl := (hi hg).late (by intro e; rw [e] at hc; simp at hc)
        have hov : q.over = true := by
          refine ho.2 ?_
          cases e : s.phase with
          | fresh => exact absurd e hl.2
          | running => exact absurd e hl.1
          | closed => exact Or.inl rfl
          | stopped => exact Or.inr rfl
        have : (q.over || q.on) = q.over := by simp [hov]
        rw [this]
        exact ⟨ih.gone, ih.port, ih.info, ih.over, ih.fresh, ih.running⟩
      · split
        · rename_i hp
          have hon := ih.running hp
          simp only at hon
          refine ⟨by simpa using ih.gone, by simpa using ih.port, by simpa using ih.info, ?_, ?_, ?_⟩ <;>
            simp [hon]
        · rename_i hp
          have : (q.over || q.on) = q.over := by
            rcases Bool.eq_false_or_eq_true q.over with h | h
            · simp [h]
            · have hf : s.phase = .fresh := by
                cases e : s.phase with
                | fresh => rfl
                | running => exact absurd e hp
                | closed => have := ho.2 (Or.inl e); rw [h] at this; cases this
                | stopped => have := ho.2 (Or.inr e); rw [h] at this; cases this
              have := ih.fresh hf
              simp only at this
              simp [h, this]
          simp only [this, Bool.false_eq_true, if_false]
          exact ⟨ih.gone, ih.port, ih.info, ih.over, ih.fresh, ih.running⟩
    | publish n b4 b6 =>
      rw [step_eq hg]
      have ho := ih.over
      simp only at ho
      simp only [pubStep, St.publish, Bool.false_eq_true, false_or]
      cases e : s.phase with
      | fresh =>
        have : q.over = false := by
          rcases Bool.eq_false_or_eq_true q.over with h | h
          · have := ho.1 h; rw [e] at this; simp at this
          · exact h
        simp only [this, if_true, Bool.false_eq_true, if_false]
        exact ⟨ih.gone, rfl, congrArg (· + 1) ih.info, by simp [this], by simp, by simp⟩
      | running =>
        have : q.over = false := by
          rcases Bool.eq_false_or_eq_true q.over with h | h
          · have := ho.1 h; rw [e] at this; simp at this
          · exact h
        simp only [this, reduceCtorEq, if_true, e, Bool.false_eq_true, if_false]
        exact ⟨ih.gone, rfl, congrArg (· + 1) ih.info, by simp [this, e], by simp [e], by simp⟩
      | closed =>
        have : q.over = true := ho.2 (Or.inl e)
        simp only [this, reduceCtorEq, if_true, e, if_false]
        exact ih
      | stopped =>
        have : q.over = true := ho.2 (Or.inr e)
        simp only [this, reduceCtorEq, if_true, e, if_false]
        exact ih

end Verif.Net.Mdns
