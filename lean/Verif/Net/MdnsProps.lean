import Verif.Net.MdnsLemmas

/-
C101: the mDNS server keeps listening, and what it sends is the answer to what was asked,
with the information published last.
C102: closing the mDNS server.
-/
namespace Verif.Net.Mdns

open Spec

/-- **C101** (use of events and memory).  If the server is stopped before it is deinitialised,
then for every history of calls, of events run in any order and of network and memory
failures: no event is given away or resolved while in use, none is resolved after it was freed,
no send buffer is overwritten, and no buffer is freed that is not there. -/
theorem C101_safe (ops : List Op) (hc : StoppedFirst ops) : (run ops).bad = false := by
  have key : ∀ pre, pre <+: ops → (run pre).bad = false := by
    intro pre
    induction pre using snoc_ind with
    | nil => intro _; rfl
    | snoc pre op ih =>
      intro hp
      have ih := ih ((List.prefix_append pre [op]).trans hp)
      rcases Bool.eq_false_or_eq_true (run pre).gone with hg | hg
      · rw [run_snoc, gone_step hg]; exact ih
      · by_cases hd : op = .deinit
        · subst hd
          obtain ⟨post, e⟩ := hp
          have hs := hc pre post (by rw [← e, List.append_assoc]; rfl)
          have hph := stopped_of_stop pre hs hg
          have hi := inv pre hg
          have h4 := (hi.good .v4).free hph
          have h6 := (hi.good .v6).free hph
          rw [run_snoc, step_eq hg]
          simp only [St.inst] at h4 h6
          simp [St.deinit, ih, h4, h6]
        · refine (inv (pre ++ [op]) ?_).bad
          rw [run_snoc, gone_of_step hd]; exact hg
  exact key ops (List.prefix_refl ops)

/-- The contract is needed: destroying a socket that still waits resolves an event that has
been freed just before. -/
theorem C101_needs_stop : ∃ ops, (run ops).bad = true :=
  ⟨[.publish 5592 .ok .ok, .runOpened .v4 ⟨false, true, .ok⟩, .deinit], by decide⟩

example : StoppedFirst [.publish 5592 .ok .ok, .runOpened .v4 ⟨false, true, .ok⟩, .stop, .deinit] ∧
    (run [.publish 5592 .ok .ok, .runOpened .v4 ⟨false, true, .ok⟩]).v4.recv = .held := by
  refine ⟨?_, by decide⟩
  intro before after h
  match before with
  | [] => simp at h
  | [_] => simp at h
  | [_, _] => simp at h
  | [_, _, _] => simp at h; simp [h]
  | _ :: _ :: _ :: _ :: b => simp at h

/-- What keeps the server listening. -/
structure Hears (i : Inst) : Prop where
  opened : i.opened = .idle ∨ i.opened = .posted .ok
  recv : i.recv = .idle ∨ i.recv = .held ∨ i.recv = .posted .ok
  some : i.opened ≠ .idle ∨ i.recv ≠ .idle ∨ i.sent ≠ .idle

theorem Hears.recvPacket {s : St} (h : Inv s) (f : Fam) (hp : s.phase = .running)
    (ho : (s.inst f).opened = .idle) : Hears ((s.recvPacket f).inst f) := by
  have ha : (s.inst f).aborted = false := by
    rcases Bool.eq_false_or_eq_true (s.inst f).aborted with h1 | h1
    · have := (h.good f).aborted h1; rw [hp] at this; cases this
    · exact h1
  unfold St.recvPacket
  rw [if_pos hp]
  dsimp only
  rw [inst_set_self, ha]
  exact ⟨Or.inl ho, Or.inr (Or.inl rfl), Or.inr (Or.inl (by simp))⟩

theorem recvPacket_other (s : St) {f g : Fam} (h : g ≠ f) : (s.recvPacket f).inst g = s.inst g := by
  unfold St.recvPacket
  split
  · dsimp only
    rw [inst_set, if_neg h]
    split
    · rfl
    · cases g <;> rfl
  · rfl

theorem sendPacket_other (s : St) {f g : Fam} (h : g ≠ f) (id : Nat) (d : Dest) (l : Luck) :
    (s.sendPacket f id d l).inst g = s.inst g := by
  have hs := sendPacket_sent s f id d l
  generalize s.sendPacket f id d l = t at hs
  cases hs with
  | skip hn e => rw [e]; exact recvPacket_other s h
  | out hp hb ho hl ps r hps hlen e => rw [e, inst_set, if_neg h, inst_with]

theorem Hears.sendPacket {s : St} (h : Inv s) (f : Fam) (id : Nat) (d : Dest) (l : Luck)
    (hp : s.phase = .running) (ho : (s.inst f).opened = .idle) (hr : (s.inst f).recv = .idle) :
    Hears ((s.sendPacket f id d l).inst f) := by
  have hs := sendPacket_sent s f id d l
  generalize s.sendPacket f id d l = t at hs
  cases hs with
  | skip hn e => rw [e]; exact Hears.recvPacket h f hp ho
  | out _ hb _ hl ps r hps hlen e =>
    rw [e, inst_set_self]
    exact ⟨Or.inl ho, Or.inl hr, Or.inr (Or.inr (by simp))⟩

theorem hears (f : Fam) (ops : List Op) (hg : (run ops).gone = false)
    (hp : (run ops).phase = .running) (hb : Bound f ops) (hh : Healthy f ops) :
    Hears ((run ops).inst f) := by
  induction ops using snoc_ind with
  | nil => cases hp
  | snoc ops op ih =>
    have hb' : Bound f ops := fun p b4 b6 hm => hb p b4 b6 (List.mem_append_left _ hm)
    have hh' : Healthy f ops := ⟨fun ec hm => hh.1 ec (List.mem_append_left _ hm),
      fun g l hm => hh.2 g l (List.mem_append_left _ hm)⟩
    have hlast : op ∈ ops ++ [op] := by simp
    rw [run_snoc] at hg hp ⊢
    have hd : op ≠ .deinit := by
      rintro rfl
      rcases Bool.eq_false_or_eq_true (run ops).gone with h1 | h1
      · rw [gone_step h1, h1] at hg; cases hg
      · rw [step_eq h1] at hg; cases hg
    rw [gone_of_step hd] at hg
    have ih := fun h => ih hg h hb' hh'
    have hi := inv ops hg
    have hi' := inv (ops ++ [op]) (by rw [run_snoc, gone_of_step hd]; exact hg)
    rw [run_snoc] at hi'
    generalize run ops = s at *
    rw [step_eq hg] at hp ⊢
    cases op with
    | deinit => exact absurd rfl hd
    | stop => cases hp
    | publish p b4 b6 =>
      have hbo := hb p b4 b6 hlast
      simp only [St.publish] at hp ⊢
      cases e : s.phase with
      | fresh =>
        have e4 : s.v4 = {} := (hi.good .v4).fresh e
        have e6 : s.v6 = {} := (hi.good .v6).fresh e
        simp only [if_true]
        cases f
        · simp only at hbo
          simp only [St.inst, e4, hbo]
          exact ⟨by simp, by simp, by simp⟩
        · simp only at hbo
          simp only [St.inst, e6, hbo]
          exact ⟨by simp, by simp, by simp⟩
      | running =>
        have := ih e
        simp only [reduceCtorEq, if_false, e, if_true]
        cases f <;> exact this
      | closed =>
        have := ih
        rw [e] at hp; simp [e] at hp
      | stopped => rw [e] at hp; simp [e] at hp
    | close l =>
      simp only [St.close] at hp ⊢
      split at hp
      · rw [if_pos (by assumption)]
        have := ih hp
        cases f <;> exact this
      · rename_i hc
        split at hp
        · simp at hp
        · rename_i hn; exact absurd hp hn
    | ready x ec =>
      have hr : s.phase = .running := by simpa [St.ready, apply_ite St.phase] using hp
      have ih := ih hr
      simp only [St.ready]
      split
      · rename_i hx
        rw [inst_set]
        split
        · rename_i ef
          subst ef
          have := hh.1 ec hlast
          subst this
          exact ⟨ih.opened, Or.inr (Or.inr rfl), Or.inr (Or.inl (by simp))⟩
        · exact ih
      · exact ih
    | runOpened x l =>
      have hr : s.phase = .running := by
        have := (callback_frame s (.runOpened x l) trivial).1
        rw [step_eq hg] at this
        rw [← this]; exact hp
      have ih := ih hr
      simp only [St.runOpened]
      split
      · rename_i ec ho
        rw [set_phase, if_neg (by simp [hr])]
        by_cases hx : f = x
        · subst hx
          have q := hi.good f
          have hec : ec = .ok := by
            rcases ih.opened with h | h
            · rw [h] at ho; cases ho
            · rw [h] at ho; injection ho with e; exact e.symm
          rw [if_pos hec]
          have hp' : Inv (s.set f { s.inst f with opened := .idle }) := by
            refine hi.put f _ ⟨q.buf, q.sentHeld, by simp, q.one, by simp, q.bye, ?_, q.aborted, q.free⟩
              Iff.rfl rfl
            intro a; rw [hr] at a; cases a
          refine Hears.sendPacket hp' f _ _ _ (by simp [hr]) (by simp) ?_
          rw [inst_set_self]
          exact (q.first hr (by simp [ho])).1
        · split
          · rw [sendPacket_other _ hx, inst_set, if_neg hx]; exact ih
          · rw [inst_set, if_neg hx]; exact ih
      · exact ih
    | runRecv x g l =>
      have hr : s.phase = .running := by
        have := (callback_frame s (.runRecv x g l) trivial).1
        rw [step_eq hg] at this
        rw [← this]; exact hp
      have ih := ih hr
      simp only [St.runRecv]
      split
      · rename_i ec ho
        rw [set_phase]
        by_cases hx : f = x
        · subst hx
          have q := hi.good f
          have hec : ec = .ok := by
            rcases ih.recv with h | h | h
            · rw [h] at ho; cases ho
            · rw [h] at ho; cases ho
            · rw [h] at ho; injection ho with e; exact e.symm
          have hop : (s.inst f).opened = .idle := by
            apply Classical.byContradiction
            intro hn
            have := (q.first hr hn).1
            rw [ho] at this; cases this
          rw [if_neg (by simp [hr, hec]), if_neg (by simp [hec])]
          have hp' : Inv (s.set f { s.inst f with recv := .idle }) := by
            refine hi.put f _ ⟨q.buf, q.sentHeld, q.openHeld, by simp, fun a b => ⟨rfl, (q.first a b).2⟩,
              q.bye, ?_, q.aborted, by simp⟩ Iff.rfl rfl
            intro a; rw [hr] at a; cases a
          have hrec : Hears (((s.set f { s.inst f with recv := .idle }).recvPacket f).inst f) :=
            Hears.recvPacket hp' f (by simp [hr]) (by simp [hop])
          have hge := hh.2 g l hlast
          split
          · first
              | exact hrec
              | (rw [if_pos hge]; exact hrec)
          split
          · split
            · exact Hears.sendPacket hp' f _ _ _ (by simp [hr]) (by simp [hop]) (by simp)
            · exact hrec
          · rename_i hne
            rw [if_pos (hge.resolve_left hne)]; exact hrec
        · have hrec : Hears (((s.set x { s.inst x with recv := .idle }).recvPacket x).inst f) := by
            rw [recvPacket_other _ hx, inst_set, if_neg hx]; exact ih
          have hid : Hears ((s.set x { s.inst x with recv := .idle }).inst f) := by
            rw [inst_set, if_neg hx]; exact ih
          split
          · exact hid
          split
          · exact hid
          split
          · split
            · exact hrec
            · exact hid
          split
          · split
            · rw [sendPacket_other _ hx]; exact hid
            · exact hrec
          split
          · exact hrec
          · exact hid
      · exact ih
    | runSent x =>
      have hr : s.phase = .running := by
        have := (callback_frame s (.runSent x) trivial).1
        rw [step_eq hg] at this
        rw [← this]; exact hp
      have ih := ih hr
      have q := hi.good x
      have hbye : (s.inst x).bye = false := by
        rcases Bool.eq_false_or_eq_true (s.inst x).bye with hb | hb
        · exact absurd hr (q.bye hb).1
        · exact hb
      simp only [St.runSent]
      split
      · rename_i ec ho
        have hbuf : (s.inst x).buf = true := q.buf.2 (by simp [ho])
        rw [if_neg (by simp [hbye]), if_pos hbuf]
        by_cases hx : f = x
        · subst hx
          have hop : (s.inst f).opened = .idle := by
            apply Classical.byContradiction
            intro hn
            have := (q.first hr hn).2
            rw [ho] at this; cases this
          have hp' : Inv (s.set f { s.inst f with sent := .idle, buf := false }) := by
            refine hi.put f _ ⟨by simp, by simp, q.openHeld, by simp, fun a b => ⟨(q.first a b).1, rfl⟩, q.bye,
              ?_, q.aborted, q.free⟩ (by simp [Inst.leaving, hbye]) rfl
            intro a; rw [hr] at a; cases a
          exact Hears.recvPacket hp' f (by simp [hr]) (by simp [hop])
        · rw [recvPacket_other _ hx, inst_set, if_neg hx]; exact ih
      · exact ih
    | runClosed l =>
      have hr : s.phase = .running := by
        have := (callback_frame s (.runClosed l) trivial).1
        rw [step_eq hg] at this
        rw [← this]; exact hp
      have hn : s.closeEv = none := by
        cases hi.stage with
        | rest a b c => exact b
        | toldV4 k ec a b c d => exact absurd hr (hi.late (by simp [a])).1
        | sendV4 k a b e c d => exact b
        | toldV6 k ec a b c => exact absurd hr (hi.late (by simp [a])).1
        | sendV6 k a b e c d => exact b
      simp only [St.runClosed, hn]
      exact ih hr

/-- **C101** (always listening).  After any history in which the socket of a family could be
opened and has not failed, a server that is published and neither closed nor stopped has
exactly one thing going on for that family: the socket being opened, a wait for the next query,
or a packet being sent whose completion will start the next wait. -/
theorem C101_listening (f : Fam) (ops : List Op) (hg : (run ops).gone = false)
    (hp : (run ops).phase = .running) (hb : Bound f ops) (hh : Healthy f ops) :
    let i := (run ops).inst f
    (i.opened = .posted .ok ∧ i.recv = .idle ∧ i.sent = .idle) ∨
    (i.opened = .idle ∧ (i.recv = .held ∨ i.recv = .posted .ok) ∧ i.sent = .idle) ∨
    (i.opened = .idle ∧ i.recv = .idle ∧ ∃ ec, i.sent = .posted ec) := by
  have h := hears f ops hg hp hb hh
  have q := (inv ops hg).good f
  dsimp only
  rcases h.opened with ho | ho
  · rcases h.recv with hr | hr
    · refine Or.inr (Or.inr ⟨ho, hr, ?_⟩)
      have := (h.some.resolve_left (by simp [ho])).resolve_left (by simp [hr])
      cases e : ((run ops).inst f).sent with
      | idle => exact absurd e this
      | held => exact absurd e q.sentHeld
      | posted ec => exact ⟨ec, rfl⟩
    · have hne : ((run ops).inst f).recv ≠ .idle := by rcases hr with hr | hr <;> simp [hr]
      exact Or.inr (Or.inl ⟨ho, hr, q.one hp hne⟩)
  · exact Or.inl ⟨ho, q.first hp (by simp [ho])⟩

example : let ops := [.publish 5592 .ok .error, .runOpened .v4 ⟨true, true, .error⟩, .runSent .v4,
      .ready .v4 .ok, .runRecv .v4 ⟨false, .ok, true, 7, 5353⟩ ⟨true, true, .ok⟩]
    (run ops).phase = .running ∧ Bound .v4 ops ∧ Healthy .v4 ops ∧ (run ops).v4.recv = .held := by
  refine ⟨by decide, ?_, ⟨?_, ?_⟩, by decide⟩
  · intro p b4 b6 hm; simp at hm; exact hm.2.1
  · intro ec hm; simp at hm; exact hm
  · intro g l hm; simp at hm; simp [hm.1]

/-- **C101** (queries are answered).  Whenever the callback of a wait finds a query that is to be
answered, and there is memory and the network takes the packet, exactly one packet goes out: the
answer with the id of the query, carrying the port and the information published last, to the
asker if the query did not come from the mDNS port and to the multicast group otherwise. -/
theorem C101_answer (ops : List Op) (f : Fam) (g : Got) (l : Luck)
    (hg : (run ops).gone = false) (hp : (run ops).phase = .running)
    (hr : ((run ops).inst f).recv = .posted .ok) (hm : g.mem = true) (he : g.ec = .ok)
    (hq : g.query = true) (hl : Luck.good l) (hport : (published ops).port > 0) :
    (run (ops ++ [.runRecv f g l])).net = (run ops).net ++
      [⟨f, false, if g.srcPort = 5353 then .group else .asker, g.id, (published ops).port,
        (published ops).info⟩] := by
  have hi := inv ops hg
  have ha := agree ops
  have hport' : (run ops).port = (published ops).port := ha.port
  have hinfo' : (run ops).info = (published ops).info := ha.info
  rw [← hport'] at hport
  rw [← hport', ← hinfo', run_snoc, step_eq hg]
  generalize run ops = s at *
  have q := hi.good f
  have hs : (s.inst f).sent = .idle := q.one hp (by simp [hr])
  have hb : (s.inst f).buf = false := by
    rcases Bool.eq_false_or_eq_true (s.inst f).buf with h | h
    · exact absurd hs (q.buf.1 h)
    · exact h
  have hab : (s.inst f).aborted = false := by
    rcases Bool.eq_false_or_eq_true (s.inst f).aborted with h1 | h1
    · have := q.aborted h1; rw [hp] at this; cases this
    · exact h1
  simp only [St.runRecv, hr]
  rw [if_neg (by simp [hp]), if_neg (by simp), if_neg (by simp [hm]), if_pos he, if_pos hq]
  unfold St.sendPacket
  rw [if_pos ⟨by simp [hp], by simp [hb], by simpa using hport⟩, if_pos ⟨hl.1, hl.2.1⟩]
  dsimp only
  obtain ⟨ps, r, e, -, -, hok⟩ := udpSend_eq s f { s.inst f with recv := .idle, buf := true }
    ⟨f, false, if g.srcPort ≠ 5353 then .asker else .group, g.id, s.port, s.info⟩ l.send
  rw [set_set, inst_set_self]
  simp only [set_port, set_info]
  rw [e, set_net, (hok hab hl.2.2).1]
  simp only [List.append_cancel_left_eq]
  by_cases h : g.srcPort = 5353 <;> simp [h]

example : let ops := [.publish 5592 .ok .ok, .runOpened .v4 ⟨true, true, .ok⟩, .runSent .v4,
      .publish 5593 .ok .ok, .ready .v4 .ok]
    (run ops).phase = .running ∧ (run ops).v4.recv = .posted .ok ∧ (published ops).port = 5593 ∧
    (published ops).info = 2 ∧
    (run (ops ++ [.runRecv .v4 ⟨true, .ok, true, 7, 40000⟩ ⟨true, true, .ok⟩])).net =
      [⟨.v4, false, .group, 0, 5592, 1⟩, ⟨.v4, false, .asker, 7, 5593, 2⟩] := by
  decide

/-- **C101** (nothing else is sent).  In every step of every history at most one packet goes
out; it is what that step calls for, it carries the port and the information published last,
and apart from goodbyes nothing is sent unless something is published and publishing has not
ended. -/
theorem C101_packets (ops : List Op) (op : Op) :
    ∃ ps, (run (ops ++ [op])).net = (run ops).net ++ ps ∧ ps.length ≤ 1 ∧
      ∀ p ∈ ps, CalledFor p op ∧ p.port = (published ops).port ∧ p.info = (published ops).info ∧
        p.port > 0 ∧ (p.goodbye = false → (published ops).on = true ∧ (published ops).over = false) := by
  have ha := agree ops
  have hport : (published ops).port = (run ops).port := ha.port.symm
  have hinfo : (published ops).info = (run ops).info := ha.info.symm
  have hrun : (run ops).phase = .running → (published ops).on = true ∧ (published ops).over = false := by
    intro h
    refine ⟨ha.running h, ?_⟩
    rcases Bool.eq_false_or_eq_true (published ops).over with h1 | h1
    · have := ha.over.1 h1; rw [h] at this; simp at this
    · exact h1
  rw [hport, hinfo]
  rw [run_snoc]
  generalize published ops = P at *
  clear ha hport hinfo
  generalize run ops = s at *
  rcases Bool.eq_false_or_eq_true s.gone with hg | hg
  · rw [gone_step hg]; exact ⟨[], by simp, by simp, by simp⟩
  rw [step_eq hg]
  have none : ∀ t : St, t.net = s.net →
      ∃ ps, t.net = s.net ++ ps ∧ ps.length ≤ 1 ∧
      ∀ p ∈ ps, CalledFor p op ∧ p.port = s.port ∧ p.info = s.info ∧
        p.port > 0 ∧ (p.goodbye = false → P.on = true ∧ P.over = false) := by
    intro t e; exact ⟨[], by simp [e], by simp, by simp⟩
  have sp : ∀ (u : St) (f : Fam) (id : Nat) (d : Dest) (l : Luck), u.net = s.net → u.port = s.port →
      u.info = s.info → u.phase = s.phase → CalledFor ⟨f, false, d, id, s.port, s.info⟩ op →
      ∃ ps, (u.sendPacket f id d l).net = s.net ++ ps ∧ ps.length ≤ 1 ∧
      ∀ p ∈ ps, CalledFor p op ∧ p.port = s.port ∧ p.info = s.info ∧
        p.port > 0 ∧ (p.goodbye = false → P.on = true ∧ P.over = false) := by
    intro u f id d l h1 h2 h3 h4 h5
    have hs := sendPacket_sent u f id d l
    generalize u.sendPacket f id d l = t at hs
    cases hs with
    | skip hn e => rw [e, recvPacket_net]; exact ⟨[], by simp [h1], by simp, by simp⟩
    | out hp hb ho hl ps r hps hlen e =>
      rw [e, set_net]
      refine ⟨ps, by simp [h1], hlen, ?_⟩
      intro p hm
      rw [hps p hm, h2, h3]
      exact ⟨h5, rfl, rfl, by rw [← h2]; exact ho, fun _ => hrun (by rw [← h4]; exact hp)⟩
  have ci : ∀ (u : St) (f : Fam) (l : Luck), u.net = s.net → u.port = s.port →
      u.info = s.info → CalledFor ⟨f, true, .group, 0, s.port, s.info⟩ op →
      ∃ ps, (u.closeInstance f l).net = s.net ++ ps ∧ ps.length ≤ 1 ∧
      ∀ p ∈ ps, CalledFor p op ∧ p.port = s.port ∧ p.info = s.info ∧
        p.port > 0 ∧ (p.goodbye = false → P.on = true ∧ P.over = false) := by
    intro u f l h1 h2 h3 h5
    have hs := closeInstance_closed u f l
    generalize u.closeInstance f l = t at hs
    cases hs with
    | busy hb e => rw [e]; exact ⟨[], by simp [St.resolveInst, h1], by simp, by simp⟩
    | fail hb ec hn e => rw [e]; exact ⟨[], by simp [St.resolveInst, h1], by simp, by simp⟩
    | out hb ho hl ps r hps hlen hok e =>
      rw [e, set_net]
      refine ⟨ps, by simp [h1], hlen, ?_⟩
      intro p hm
      rw [hps p hm, h2, h3]
      exact ⟨h5, rfl, rfl, by rw [← h2]; exact ho, fun h => by cases h⟩
  cases op with
  | publish p b4 b6 =>
    refine none _ ?_
    simp only [St.publish]
    split <;> split <;> rfl
  | close l =>
    simp only [St.close]
    split
    · exact none _ rfl
    · split
      · exact ci _ .v4 l rfl rfl rfl ⟨rfl, rfl, rfl, rfl⟩
      · exact none _ rfl
  | stop => exact none _ rfl
  | deinit => exact none _ rfl
  | ready f ec => exact none _ (by simp only [St.ready]; split <;> simp)
  | runOpened f l =>
    simp only [St.runOpened]
    split
    · split
      · exact none _ (by simp)
      · split
        · exact sp _ f 0 .group l (by simp) (by simp) (by simp) (by simp) ⟨rfl, rfl, rfl, rfl⟩
        · exact none _ (by simp)
    · exact none _ rfl
  | runRecv f g l =>
    simp only [St.runRecv]
    split
    · split
      · exact none _ (by simp)
      split
      · exact none _ (by simp)
      split
      · split
        · exact none _ (by simp)
        · exact none _ (by simp)
      split
      · rename_i he
        split
        · rename_i hq
          refine sp _ f g.id _ l (by simp) (by simp) (by simp) (by simp) ⟨rfl, rfl, he, hq, rfl, ?_⟩
          by_cases h : g.srcPort = 5353 <;> simp [h]
        · exact none _ (by simp)
      split
      · exact none _ (by simp)
      · exact none _ (by simp)
    · exact none _ rfl
  | runSent f =>
    refine none _ ?_
    simp only [St.runSent]
    split
    · split
      · split <;> simp only [St.resolveInst, set_net] <;> split <;> rfl
      · simp only [recvPacket_net, set_net]; split <;> rfl
    · rfl
  | runClosed l =>
    simp only [St.runClosed]
    split
    · exact ci _ .v6 l rfl rfl rfl ⟨rfl, rfl, rfl, rfl⟩
    · split <;> exact none _ rfl
    · exact none _ rfl

/-- **C101** (memory of packets).  A socket holds a send buffer exactly while a send is on its
way, and if no send is on its way when the server is deinitialised, no buffer is lost. -/
theorem C101_memory (ops : List Op) (hg : (run ops).gone = false) :
    (∀ f, ((run ops).inst f).buf = true ↔ ((run ops).inst f).sent ≠ .idle) ∧
    ((∀ f, ((run ops).inst f).sent = .idle) → (run (ops ++ [.deinit])).leaked = 0) := by
  have hi := inv ops hg
  refine ⟨fun f => (hi.good f).buf, ?_⟩
  intro hs
  have hb : ∀ f, ((run ops).inst f).buf = false := by
    intro f
    rcases Bool.eq_false_or_eq_true ((run ops).inst f).buf with h | h
    · exact absurd (hs f) ((hi.good f).buf.1 h)
    · exact h
  have hl : (run ops).leaked = 0 := by
    clear hi hs hb
    induction ops using snoc_ind with
    | nil => rfl
    | snoc ops op ih =>
      rw [run_snoc] at hg ⊢
      have hd : op ≠ .deinit := by
        rintro rfl
        rcases Bool.eq_false_or_eq_true (run ops).gone with h1 | h1
        · rw [gone_step h1, h1] at hg; cases hg
        · rw [step_eq h1] at hg; cases hg
      rw [gone_of_step hd] at hg
      have ih := ih hg
      generalize run ops = s at *
      cases op with
      | deinit => exact absurd rfl hd
      | publish p b4 b6 =>
        rw [step_eq hg]
        simp only [St.publish]
        split <;> split <;> exact ih
      | close l =>
        rw [step_eq hg]
        simp only [St.close]
        split
        · exact ih
        · split
          · simpa using ih
          · exact ih
      | stop => rw [step_eq hg]; exact ih
      | runOpened f l => exact (callback_frame s (.runOpened f l) trivial).2.2.2.2.2.trans ih
      | ready f ec => exact (callback_frame s (.ready f ec) trivial).2.2.2.2.2.trans ih
      | runRecv f g l => exact (callback_frame s (.runRecv f g l) trivial).2.2.2.2.2.trans ih
      | runSent f => exact (callback_frame s (.runSent f) trivial).2.2.2.2.2.trans ih
      | runClosed l => exact (callback_frame s (.runClosed l) trivial).2.2.2.2.2.trans ih
  have h4 := hb .v4
  have h6 := hb .v6
  simp only [St.inst] at h4 h6
  rw [run_snoc, step_eq hg]
  simp [St.deinit, hl, h4, h6]

example : let ops := [.publish 5592 .ok .ok, .runOpened .v4 ⟨true, true, .ok⟩]
    (run ops).v4.buf = true ∧ (run (ops ++ [.stop, .deinit])).leaked = 1 ∧
    (run (ops ++ [.stop, .runSent .v4, .deinit])).leaked = 0 := by decide

/-! ### Closing -/

theorem told_append (k : Nat) (a b : List (Nat × Ec)) : told k (a ++ b) = told k a + told k b := by
  simp [told, List.countP_append]

/-- What the calls of close have been told. -/
structure Told (s : St) : Prop where
  one : ∀ k, told k s.answers = if k < s.calls ∧ s.closing ≠ some k then 1 else 0
  lt : ∀ k, s.closing = some k → k < s.calls

theorem Told.same {s t : St} (h : Told s) (h1 : t.answers = s.answers) (h2 : t.calls = s.calls)
    (h3 : t.closing = s.closing) : Told t :=
  ⟨by rw [h1, h2, h3]; exact h.one, by rw [h2, h3]; exact h.lt⟩

theorem toldInv (ops : List Op) : Told (run ops) := by
  induction ops using snoc_ind with
  | nil => exact ⟨by intro k; simp [run, told], by intro k h; cases h⟩
  | snoc ops op ih =>
    rw [run_snoc]
    generalize run ops = s at *
    rcases Bool.eq_false_or_eq_true s.gone with hg | hg
    · rw [gone_step hg]; exact ih
    have hcalls := callback_frame s op
    rw [step_eq hg] at hcalls ⊢
    cases op with
    | publish p b4 b6 => refine ih.same ?_ ?_ ?_ <;> (simp only [St.publish]; split <;> split <;> rfl)
    | stop => exact ih.same rfl rfl rfl
    | deinit => exact ih.same rfl rfl rfl
    | ready f ec => refine ih.same ?_ ?_ ?_ <;> (simp only [St.ready]; split <;> simp)
    | runOpened f l =>
      refine ih.same ?_ ?_ ?_ <;>
      · simp only [St.runOpened]
        split
        · split
          · simp
          · split <;> simp
        · simp
    | runRecv f g l =>
      refine ih.same ?_ ?_ ?_ <;>
      · simp only [St.runRecv]
        split
        · split
          · simp
          split
          · simp
          split
          · split <;> simp
          split
          · split <;> simp
          split <;> simp
        · simp
    | runSent f =>
      refine ih.same ?_ ?_ ?_ <;>
      · simp only [St.runSent]
        split
        · split
          · split <;> simp only [St.resolveInst, set_answers, set_calls, set_closing] <;> split <;> rfl
          · simp only [recvPacket_answers, recvPacket_calls, recvPacket_closing, set_answers, set_calls,
              set_closing]
            split <;> rfl
        · simp
    | close l =>
      simp only [St.close]
      split
      · refine ⟨?_, fun k hk => Nat.lt_succ_of_lt (ih.lt k hk)⟩
        intro k
        show told k (s.answers ++ [(s.calls, .inProgress)]) = _
        rw [told_append, ih.one k]
        by_cases hk : k = s.calls
        · subst hk
          have : s.closing ≠ some s.calls := fun h => Nat.lt_irrefl _ (ih.lt _ h)
          simp [told, this]
        · have h1 : told k [(s.calls, Ec.inProgress)] = 0 := by simp [told, Ne.symm hk]
          rw [h1]
          by_cases hc : s.closing = some k
          · simp [hc]
          · by_cases hlt : k < s.calls
            · simp [hc, hlt, Nat.lt_succ_of_lt hlt]
            · have : ¬ k < s.calls + 1 := by omega
              simp [hc, hlt, this]
      · rename_i hc
        have hnone : s.closing = none := by
          cases e : s.closing with
          | none => rfl
          | some k => rw [e] at hc; simp at hc
        split
        · refine ⟨?_, ?_⟩
          · intro k
            simp only [closeInstance_answers, closeInstance_calls, closeInstance_closing]
            rw [ih.one k]
            by_cases hk : k = s.calls
            · subst hk; simp
            · by_cases hlt : k < s.calls
              · simp [hnone, hlt, Nat.lt_succ_of_lt hlt, Ne.symm hk]
              · have : ¬ k < s.calls + 1 := by omega
                simp [hlt, this]
          · intro k hk
            simp only [closeInstance_calls, closeInstance_closing] at hk ⊢
            injection hk with e
            omega
        · refine ⟨?_, fun k hk => Nat.lt_succ_of_lt (ih.lt k hk)⟩
          intro k
          show told k (s.answers ++ [(s.calls, .ok)]) = _
          rw [told_append, ih.one k]
          by_cases hk : k = s.calls
          · subst hk
            simp [told, hnone]
          · have h1 : told k [(s.calls, Ec.ok)] = 0 := by simp [told, Ne.symm hk]
            rw [h1]
            by_cases hlt : k < s.calls
            · simp [hnone, hlt, Nat.lt_succ_of_lt hlt]
            · have : ¬ k < s.calls + 1 := by omega
              simp [hlt, this]
    | runClosed l =>
      simp only [St.runClosed]
      split
      · exact ih.same (by simp) (by simp) (by simp)
      · split
        · rename_i _ ec _ _ j hj
          refine ⟨?_, by intro k hk; cases hk⟩
          intro k
          show told k (s.answers ++ [(j, ec)]) = _
          rw [told_append, ih.one k]
          by_cases hk : k = j
          · subst hk
            have := ih.lt k hj
            simp [told, hj, this]
          · have h1 : told k [(j, ec)] = 0 := by simp [told, Ne.symm hk]
            rw [h1, hj]
            simp [Ne.symm hk]
        · exact ih.same rfl rfl rfl
      · exact ih

/-- **C102** (told once).  In every history each call of close is told its result exactly once,
or it is the one call that is still being worked on; nobody else is told anything. -/
theorem C102_once (ops : List Op) (k : Nat) :
    (k < (run ops).calls ∧ (run ops).closing ≠ some k → told k (run ops).answers = 1) ∧
    ((run ops).closing = some k → told k (run ops).answers = 0) ∧
    ((run ops).calls ≤ k → told k (run ops).answers = 0) := by
  have h := toldInv ops
  refine ⟨fun hk => by rw [h.one, if_pos hk], fun hk => by rw [h.one]; simp [hk], fun hk => ?_⟩
  rw [h.one, if_neg]
  omega

theorem leaving_posted {s : St} (hi : Inv s) (f : Fam) (h : (s.inst f).leaving) :
    ∃ ec, (s.inst f).sent = .posted ec := by
  cases e : (s.inst f).sent with
  | idle => exact absurd e h.2
  | held => exact absurd e (hi.good f).sentHeld
  | posted ec => exact ⟨ec, rfl⟩

/-- Running the completion of the send of one family. -/
theorem runSent_stage {s : St} (hi : Inv s) (f : Fam) (h : (s.inst f).leaving) :
    ∃ ec, (s.runSent f).closeEv = some (s.closeCb, ec) := by
  obtain ⟨ec, e⟩ := leaving_posted hi f h
  simp only [St.runSent, e]
  rw [if_pos h.1]
  split
  · exact ⟨.ok, by simp only [St.resolveInst, set_closeCb]; split <;> rfl⟩
  · exact ⟨ec, by simp only [St.resolveInst, set_closeCb]; split <;> rfl⟩

theorem runSent_closing (s : St) (f : Fam) : (s.runSent f).closing = s.closing := by
  simp only [St.runSent]
  split
  · split
    · split <;> simp only [St.resolveInst, set_closing] <;> split <;> rfl
    · simp only [recvPacket_closing, set_closing]
      split <;> rfl
  · simp

theorem runSent_gone (s : St) (hg : s.gone = false) (f : Fam) : (s.runSent f).gone = false := by
  have := gone_of_step (s := s) (op := .runSent f) (by simp)
  rw [step_eq hg] at this
  rw [this]; exact hg

theorem runClosed_gone (s : St) (hg : s.gone = false) (l : Luck) : (s.runClosed l).gone = false := by
  have := gone_of_step (s := s) (op := .runClosed l) (by simp)
  rw [step_eq hg] at this
  rw [this]; exact hg

/-- **C102** (told in the end).  However far a call of close has come, after any history, it is
told its result once the event queue has run the completions of the two goodbyes and the two
completions of the closing – whatever became of memory, packets and network. -/
theorem C102_ends (ops : List Op) (k : Nat) (l l' : Luck) (hg : (run ops).gone = false)
    (hk : (run ops).closing = some k) :
    let after := run (ops ++ [.runSent .v4, .runClosed l, .runSent .v6, .runClosed l'])
    after.closing = none ∧ told k after.answers = 1 := by
  have hi := inv ops hg
  have ht := toldInv (ops ++ [.runSent .v4, .runClosed l, .runSent .v6, .runClosed l'])
  have hlt := (toldInv ops).lt k hk
  have expand : run (ops ++ [.runSent .v4, .runClosed l, .runSent .v6, .runClosed l'])
      = ((((run ops).step (.runSent .v4)).step (.runClosed l)).step (.runSent .v6)).step (.runClosed l') := by
    simp [run, List.foldl_append]
  rw [expand] at ht ⊢
  -- a closing whose v6 part is told ends with the next run of the event
  have last : ∀ (u : St) (ec : Ec) (l : Luck), u.gone = false → u.closing = some k →
      u.closeEv = some (.v6, ec) → (u.step (.runClosed l)).closing = none := by
    intro u ec l h1 h2 h3
    rw [step_eq h1]
    simp only [St.runClosed, h3, h2]
  have done : ∀ (u : St) (op : Op), (match op with | .runSent _ | .runClosed _ => True | _ => False) →
      u.gone = false → u.closing = none → (u.step op).closing = none := by
    intro u op ho h1 h2
    rw [step_eq h1]
    cases op with
    | runSent f => exact (runSent_closing u f).trans h2
    | runClosed l =>
      simp only [St.runClosed]
      split
      · simpa using h2
      · rw [h2]
      · exact h2
    | _ => exact ho.elim
  have gn : ∀ (u : St) (op : Op), op ≠ .deinit → u.gone = false → (u.step op).gone = false := by
    intro u op h1 h2; rw [gone_of_step h1]; exact h2
  -- the v6 part: sending or told
  have tail : ∀ (u : St), Inv u → u.gone = false → u.closing = some k →
      (u.closeEv = none ∧ u.v6.leaving ∧ u.closeCb = .v6 ∨ ∃ ec, u.closeEv = some (.v6, ec)) →
      ((u.step (.runSent .v6)).step (.runClosed l')).closing = none := by
    intro u hu h1 h2 h3
    have e1 : (u.step (.runSent .v6)).closing = some k := by
      rw [step_eq h1]; exact (runSent_closing u .v6).trans h2
    rcases h3 with ⟨-, h4, h5⟩ | ⟨ec, h4⟩
    · obtain ⟨ec, he⟩ := runSent_stage hu .v6 h4
      refine last _ ec l' (gn _ _ (by simp) h1) e1 ?_
      rw [step_eq h1]
      rw [h5] at he; exact he
    · have hnl : ¬ (u.inst .v6).leaving := by
        cases hu.stage with
        | rest a b c => exact c .v6
        | toldV4 k ec a b c d => exact c .v6
        | sendV4 k a b e c d => rw [b] at h4; cases h4
        | toldV6 k ec a b c => exact c .v6
        | sendV6 k a b e c d => rw [b] at h4; cases h4
      refine last _ ec l' (gn _ _ (by simp) h1) e1 ?_
      rw [step_eq h1]
      show (u.runSent .v6).closeEv = _
      simp only [St.runSent]
      split
      · rename_i ec' hs
        have hb : (u.inst .v6).bye = false := by
          rcases Bool.eq_false_or_eq_true (u.inst .v6).bye with hb | hb
          · exact absurd ⟨hb, by simp [hs]⟩ hnl
          · exact hb
        rw [if_neg (by simp [hb])]
        have : ∀ (w : St) (f : Fam), (w.recvPacket f).closeEv = w.closeEv := by
          intro w f
          unfold St.recvPacket
          split
          · dsimp only; rw [set_closeEv]; split <;> rfl
          · rfl
        rw [this, set_closeEv]
        split <;> exact h4
      · exact h4
  -- closing the v6 instance leads there
  have mid : ∀ (u : St) (ec : Ec) (l : Luck), Inv u → u.gone = false → u.closing = some k →
      u.closeEv = some (.v4, ec) →
      let w := u.step (.runClosed l)
      Inv w ∧ w.gone = false ∧ w.closing = some k ∧
      (w.closeEv = none ∧ w.v6.leaving ∧ w.closeCb = .v6 ∨ ∃ ec, w.closeEv = some (.v6, ec)) := by
    intro u ec l hu h1 h2 h3
    dsimp only
    have hw : Inv (u.runClosed l) := hu.runClosed l
    have hev : u.runClosed l = ({ u with closeEv := none, closeCb := .v6 } : St).closeInstance .v6 l := by
      simp only [St.runClosed, h3]
    rw [step_eq h1]
    refine ⟨hw, runClosed_gone u h1 l, ?_, ?_⟩
    · show (u.runClosed l).closing = _
      rw [hev]; simp [h2]
    · show ((u.runClosed l).closeEv = none ∧ (u.runClosed l).v6.leaving ∧ (u.runClosed l).closeCb = .v6 ∨
        ∃ ec, (u.runClosed l).closeEv = some (.v6, ec))
      rw [hev]
      have hc := closeInstance_closed { u with closeEv := none, closeCb := .v6 } .v6 l
      generalize St.closeInstance { u with closeEv := none, closeCb := .v6 } .v6 l = t at hc
      cases hc with
      | busy hb e => rw [e]; exact Or.inr ⟨.inProgress, rfl⟩
      | fail hb ec hn e => rw [e]; exact Or.inr ⟨ec, by simp [St.resolveInst]⟩
      | out hb ho hl ps r hps hlen hok e =>
        rw [e]
        exact Or.inl ⟨rfl, ⟨rfl, by simp [St.set]⟩, rfl⟩
  have main : (((((run ops).step (.runSent .v4)).step (.runClosed l)).step (.runSent .v6)).step
      (.runClosed l')).closing = none := by
    generalize run ops = s at *
    have g1 := gn s (.runSent .v4) (by simp) hg
    have c1 : (s.step (.runSent .v4)).closing = some k := by
      rw [step_eq hg]; exact (runSent_closing s .v4).trans hk
    have i1 : Inv (s.step (.runSent .v4)) := by rw [step_eq hg]; exact hi.runSent .v4
    have g2 := gn _ (.runClosed l) (by simp) g1
    cases hst : i1.stage with
    | rest a b c => rw [a] at c1; cases c1
    | toldV4 j ec a b c d =>
      obtain ⟨w1, w2, w3, w4⟩ := mid _ ec l i1 g1 c1 b
      exact tail _ w1 w2 w3 w4
    | sendV4 j a b e c d =>
      exfalso
      -- the completion of the goodbye has just been run
      have : ¬ ((s.step (.runSent .v4)).v4).leaving := by
        rw [step_eq hg]
        show ¬ (s.runSent .v4).v4.leaving
        simp only [St.runSent]
        split
        · split
          · split <;> simp [St.resolveInst, St.set, Inst.leaving]
          · rename_i hb
            have : ∀ (w : St), w.v4.sent = .idle → (w.recvPacket .v4).v4.sent = .idle := by
              intro w hw
              unfold St.recvPacket
              split
              · dsimp only; split <;> exact hw
              · exact hw
            rintro ⟨-, hx⟩
            exact hx (this _ rfl)
        · rename_i hs
          rintro ⟨-, hx⟩
          cases e : s.v4.sent with
          | idle => exact hx e
          | held => exact (hi.good .v4).sentHeld e
          | posted ec => exact hs ec e
      exact this c
    | toldV6 j ec a b c =>
      have h3 := last _ ec l g1 c1 b
      have h4 := done _ (.runSent .v6) trivial g2 h3
      exact done _ (.runClosed l') trivial (gn _ _ (by simp) g2) h4
    | sendV6 j a b e c d =>
      have hid : (s.step (.runSent .v4)).step (.runClosed l) = s.step (.runSent .v4) := by
        rw [step_eq g1]
        show (s.step (.runSent .v4)).runClosed l = _
        simp only [St.runClosed, b]
      rw [hid]
      exact tail _ i1 g1 c1 (Or.inl ⟨b, c, e⟩)
  refine ⟨main, ?_⟩
  rw [ht.one, if_pos]
  refine ⟨?_, by rw [main]; simp⟩
  have h1 := callback_frame (run ops) (.runSent .v4) trivial
  have h2 := callback_frame ((run ops).step (.runSent .v4)) (.runClosed l) trivial
  have h3 := callback_frame (((run ops).step (.runSent .v4)).step (.runClosed l)) (.runSent .v6) trivial
  have h4 := callback_frame ((((run ops).step (.runSent .v4)).step (.runClosed l)).step (.runSent .v6))
    (.runClosed l') trivial
  rw [h4.2.2.2.2.1, h3.2.2.2.2.1, h2.2.2.2.2.1, h1.2.2.2.2.1]
  exact hlt

/-- **C102** (goodbyes).  A family says goodbye at most once, and only after publishing ended. -/
theorem C102_quiet (ops : List Op) (f : Fam) (hg : (run ops).gone = false) :
    goodbyes f (run ops).net ≤ 1 ∧
    ((published ops).over = false → goodbyes f (run ops).net = 0) := by
  have hi := inv ops hg
  have hc := hi.count f
  have ha := agree ops
  refine ⟨?_, ?_⟩
  · have : ((run ops).inst f).bye.toNat ≤ 1 := Bool.toNat_le _
    omega
  · intro ho
    have hb : ((run ops).inst f).bye = false := by
      rcases Bool.eq_false_or_eq_true ((run ops).inst f).bye with hb | hb
      · have h2 := (hi.good f).bye hb
        have : (published ops).over = true := by
          refine ha.over.2 ?_
          cases e : (run ops).phase with
          | fresh => exact absurd e h2.2
          | running => exact absurd e h2.1
          | closed => exact Or.inl rfl
          | stopped => exact Or.inr rfl
        rw [ho] at this; cases this
      · exact hb
    rw [hb] at hc
    simp only [Bool.toNat_false] at hc
    omega

/-- **C102** (goodbyes are sent).  Full claim: closing a published server sends a goodbye, with
what was published last, from each family.  Proved: the IPv4 goodbye is sent by the call of close
and the IPv6 goodbye by the completion of the IPv4 part, provided the family is not in the middle
of sending another packet, the server was not stopped, and memory, building and network are good.
Missing: the family may be sending (`C102_busy_violated`). -/
theorem C102_goodbye_partial (ops : List Op) (l : Luck) (hg : (run ops).gone = false)
    (hl : Luck.good l) (hport : (published ops).port > 0) :
    ((run ops).phase = .running → (run ops).v4.sent = .idle →
      (run (ops ++ [.close l])).net = (run ops).net ++
        [⟨.v4, true, .group, 0, (published ops).port, (published ops).info⟩]) ∧
    (∀ ec, (run ops).closeEv = some (.v4, ec) → (run ops).phase = .closed → (run ops).v6.sent = .idle →
      (run (ops ++ [.runClosed l])).net = (run ops).net ++
        [⟨.v6, true, .group, 0, (published ops).port, (published ops).info⟩]) := by
  have hi := inv ops hg
  have ha := agree ops
  have hport' : (run ops).port = (published ops).port := ha.port
  have hinfo' : (run ops).info = (published ops).info := ha.info
  rw [← hport'] at hport
  rw [← hport', ← hinfo', run_snoc, run_snoc, step_eq hg, step_eq hg]
  generalize run ops = s at *
  have buf : ∀ f, (s.inst f).sent = .idle → (s.inst f).buf = false := by
    intro f hs
    rcases Bool.eq_false_or_eq_true (s.inst f).buf with h | h
    · exact absurd hs ((hi.good f).buf.1 h)
    · exact h
  have unab : ∀ f, s.phase ≠ .stopped → (s.inst f).aborted = false := by
    intro f hs
    rcases Bool.eq_false_or_eq_true (s.inst f).aborted with h | h
    · exact absurd ((hi.good f).aborted h) hs
    · exact h
  have out : ∀ (u : St) (f : Fam), (u.inst f).buf = false → (u.inst f).aborted = false → u.port > 0 →
      (u.closeInstance f l).net = u.net ++ [⟨f, true, .group, 0, u.port, u.info⟩] := by
    intro u f h1 h2 h3
    have hc := closeInstance_closed u f l
    generalize u.closeInstance f l = t at hc
    cases hc with
    | busy hb e => rw [h1] at hb; cases hb
    | fail hb ec hn e => exact absurd ⟨h3, hl.1, hl.2.1⟩ hn
    | out hb ho _ ps r hps hlen hok e => rw [e, set_net, (hok h2 hl.2.2).1]
  refine ⟨?_, ?_⟩
  · intro hp hs
    have hc : s.closing = none := by
      cases e : s.closing with
      | none => rfl
      | some k => exact absurd hp (hi.late (by simp [e])).1
    show (s.close l).net = _
    simp only [St.close, hc]
    rw [if_neg (by simp), if_pos hp]
    exact out _ .v4 (buf .v4 hs) (unab .v4 (by simp [hp])) hport
  · intro ec he hp hs
    show (s.runClosed l).net = _
    simp only [St.runClosed, he]
    exact out _ .v6 (buf .v6 hs) (unab .v6 (by simp [hp])) hport

example : let ops := [.publish 5592 .ok .ok, .runOpened .v4 ⟨true, true, .ok⟩, .runSent .v4,
      .runOpened .v6 ⟨true, true, .ok⟩, .runSent .v6, .publish 5593 .ok .ok,
      .close ⟨true, true, .ok⟩, .runSent .v4, .runClosed ⟨true, true, .ok⟩, .runSent .v6,
      .runClosed ⟨true, true, .ok⟩]
    (run ops).net.drop 2 = [⟨.v4, true, .group, 0, 5593, 2⟩, ⟨.v6, true, .group, 0, 5593, 2⟩] ∧
    (run ops).answers = [(0, .ok)] ∧ (run ops).closing = none := by decide

/-- **C102** is violated by a server that is closed while it answers a query: with memory and
network in order, no goodbye is sent from that family, and the application is told that all went
well (nm_mdns_server.c:171-175, 124-132). -/
theorem C102_busy_violated : ∃ ops, (∀ l, Op.close l ∈ ops ∨ Op.runClosed l ∈ ops → Luck.good l) ∧
    (run ops).answers = [(0, .ok)] ∧ goodbyes .v4 (run ops).net = 0 ∧
    (published ops).over = true ∧ Op.stop ∉ ops := by
  refine ⟨[.publish 5592 .ok .ok, .runOpened .v6 ⟨true, true, .ok⟩, .runSent .v6,
    .runOpened .v4 ⟨true, true, .ok⟩, .close ⟨true, true, .ok⟩, .runClosed ⟨true, true, .ok⟩,
    .runSent .v6, .runClosed ⟨true, true, .ok⟩, .runSent .v4], ?_, by decide, by decide, by decide,
    by decide⟩
  intro l h
  simp at h
  subst h
  exact ⟨rfl, rfl, rfl⟩

/-- **C102** is violated for the result of close: an error of the IPv4 part is not reported
(nm_mdns_server.c:124-132). -/
theorem C102_result_violated : ∃ ops, Op.close ⟨false, true, .ok⟩ ∈ ops ∧
    (run ops).answers = [(0, .ok)] ∧ (run ops).phase = .closed ∧ goodbyes .v4 (run ops).net = 0 := by
  refine ⟨[.publish 5592 .ok .ok, .close ⟨false, true, .ok⟩, .runClosed ⟨true, true, .ok⟩,
    .runSent .v6, .runClosed ⟨true, true, .ok⟩], by decide, by decide, by decide, by decide⟩

end Verif.Net.Mdns
