import Verif.Tunnel.ConnLemmas

/-!
# One connection of a TCP tunnel — every step keeps the invariant
-/

namespace Verif.Tunnel.Conn

/-- What a step leads to. -/
def Reach (checks : Bool) (s : St) : Prop := ∃ a d, s = conc a d ∧ Ok checks a d

theorem Reach.of {checks : Bool} {a : Abs} {d : Data} (h : Ok checks a d) : Reach checks (conc a d) := ⟨a, d, rfl, h⟩

/-! ### Starting an operation -/

theorem tcpRead_idle (checks : Bool) (u : SP) (d : Data) :
    (conc (.both .idle u) d).tcpRead checks = conc (.both (if checks && d.aborted then .readDone .aborted else .reading) u) d := by
  obtain ⟨ab, f, st, c, tb, sb, l, g1, g2, g3, g4, e1, e2⟩ := d
  cases checks <;> cases ab <;> rfl

theorem tcpWrite_idle (checks : Bool) (t : TP) (d : Data) (w : List UInt8) :
    (conc (.both t .idle) d).tcpWrite checks w
      = conc (.both t (if checks && d.aborted then .wroteDone .aborted else .writing w)) d := by
  obtain ⟨ab, f, st, c, tb, sb, l, g1, g2, g3, g4, e1, e2⟩ := d
  cases checks <;> cases ab <;> rfl

theorem streamRead_idle (t : TP) (d : Data) :
    (conc (.both t .idle) d).streamRead
      = if d.stopped then conc (.both t (.readDone .stopped)) d else conc (.both t .reading) { d with sBuf := [] } := by
  obtain ⟨ab, f, st, c, tb, sb, l, g1, g2, g3, g4, e1, e2⟩ := d
  cases st <;> rfl

theorem streamWrite_idle (u : SP) (d : Data) (w : List UInt8) (hc : d.closed = false) :
    (conc (.both .idle u) d).streamWrite w
      = conc (.both (if d.stopped then .wroteDone .stopped else .writing w) u) d := by
  obtain ⟨ab, f, st, c, tb, sb, l, g1, g2, g3, g4, e1, e2⟩ := d
  cases hc
  cases st <;> rfl

theorem streamClose_idle (u : SP) (d : Data) :
    (conc (.both .idle u) d).streamClose
      = if d.stopped then conc (.both (.closeDone .stopped) u) d else conc (.both .closing u) { d with closed := true } := by
  obtain ⟨ab, f, st, c, tb, sb, l, g1, g2, g3, g4, e1, e2⟩ := d
  cases st <;> rfl

/-! ### Callbacks -/

theorem quiet_of_t {checks : Bool} {t : TP} {u : SP} {d : Data} (h : Quiet checks t u d) {t' : TP}
    (ht : t' = .reading → ¬(checks = true ∧ d.aborted = true)) : Quiet checks t' u d :=
  fun hc ha => ⟨fun e => ht e ⟨hc, ha⟩, (h hc ha).2⟩

theorem quiet_of_s {checks : Bool} {t : TP} {u : SP} {d : Data} (h : Quiet checks t u d) {u' : SP}
    (hu : ∀ w, u' = .writing w → ¬(checks = true ∧ d.aborted = true)) : Quiet checks t u' d :=
  fun hc ha => ⟨(h hc ha).1, fun w e => hu w e ⟨hc, ha⟩⟩

/-- After `abort_connection`, only with an implementation which does not look at `aborted` something waits. -/
theorem abt_quiet {checks : Bool} {t : TP} {u : SP} {d : Data} (h : Quiet checks t u d) :
    Quiet checks (t.abt d) (u.abt d) (abD d) := by
  intro hc _
  refine ⟨fun e => ?_, fun w e => ?_⟩
  · obtain ⟨e1, e2⟩ := abt_t_reading t d e
    exact (h hc e2).1 e1
  · obtain ⟨e1, e2⟩ := abt_s_writing u d w e
    exact (h hc e2).2 w e1

/-- An error in the direction to the stream. -/
theorem fail_t (checks : Bool) (u : SP) (d : Data) (hd : DOk d) (ht : d.putStream <+: d.gotTcp) (hc : d.closed = false)
    (hu : SOk u d) (hq : ∀ t, t ≠ .reading → Quiet checks t u d) :
    Reach checks { (conc (.both .idle u) d).abort with tcpReadEnded := true }.isEnded := by
  have e1 : { (conc (.both .idle u) d).abort with tcpReadEnded := true }
      = conc (.both .ended (u.abt d)) (abD d) := by
    rw [abort_both _ _ _ hd]
    have : TP.idle.abt d = .idle := by
      unfold TP.abt
      cases d.aborted <;> cases d.stopped <;> rfl
    rw [this]; rfl
  rw [e1]
  refine isEnded_t checks _ _ (abD_ok d hd) ⟨ht, fun h => absurd (hc.symm.trans h) (by decide)⟩ (abt_sok u d hd hu) ?_
  have := abt_quiet (hq .ended (by intro h; cases h))
  rw [(abt_t_ended .ended d).2 rfl] at this
  exact this

/-- An error in the direction to the socket. -/
theorem fail_s (checks : Bool) (t : TP) (d : Data) (hd : DOk d) (ht : TOk t d) (hp : d.putTcp <+: d.gotStream)
    (hf : d.fin = false) (hq : ∀ u, (∀ w, u ≠ .writing w) → Quiet checks t u d) :
    Reach checks { (conc (.both t .idle) d).abort with streamReadEnded := true }.isEnded := by
  have e1 : { (conc (.both t .idle) d).abort with streamReadEnded := true }
      = conc (.both (t.abt d) .ended) (abD d) := by
    rw [abort_both _ _ _ hd]
    have : SP.idle.abt d = .idle := by
      unfold SP.abt
      cases d.aborted <;> cases d.stopped <;> rfl
    rw [this]; rfl
  rw [e1]
  refine isEnded_s checks _ _ (abD_ok d hd) (abt_tok t d hd ht) ⟨hp, fun h => absurd (hf.symm.trans h) (by decide)⟩ ?_
  have := abt_quiet (hq .ended (fun w h => by cases h))
  rw [(abt_s_ended .ended d).2 rfl] at this
  exact this

theorem onConn_ok (checks : Bool) (d : Data) (e : Ec) (h : Ok checks (.connDone e) d) :
    Reach checks ((conc (.both .idle .idle) d).onConn checks e) := by
  obtain ⟨hd, h1, h2, h3, h4, h5, h6⟩ := h
  rw [St.onConn]
  split
  · rw [theEnd_idle]
    refine .of ⟨abD_ok d hd, ?_, ?_, ?_, ?_, rfl, rfl, rfl⟩
    · exact ⟨[], by rw [List.append_nil]; exact h2.trans h1.symm⟩
    · intro _; exact h1.trans h2.symm
    · exact ⟨[], by rw [List.append_nil]; exact h4.trans h3.symm⟩
    · intro _; exact h3.trans h4.symm
  · rw [tcpRead_idle]
    have ht : ∀ d', d'.gotTcp = d.gotTcp → d'.putStream = d.putStream → d'.closed = d.closed →
        TOk (if checks && d.aborted then .readDone .aborted else .reading) d' := by
      intro d' g1 g2 g3
      split
      · exact ⟨(fun c => nomatch c), fun _ => by rw [g1, g2, h1, h2], (fun c => nomatch c), by rw [g3, h5]⟩
      · exact ⟨by rw [g1, g2, h1, h2], by rw [g3, h5]⟩
    have hr : (if checks && d.aborted then TP.readDone .aborted else .reading) = .reading →
        ¬(checks = true ∧ d.aborted = true) := by
      intro e ⟨hc, ha⟩
      rw [hc, ha] at e; cases e
    have hne : (if checks && d.aborted then TP.readDone .aborted else .reading) ≠ .ended := by
      split <;> exact fun c => nomatch c
    rw [streamRead_idle]
    split
    · refine .of ⟨hd, ht d rfl rfl rfl, ⟨(fun c => nomatch c), fun _ => h3.trans h4.symm, h6⟩, ?_, fun c => nomatch c.2⟩
      exact fun hc ha => ⟨fun e => hr e ⟨hc, ha⟩, fun w => fun c => nomatch c⟩
    · rename_i hs
      refine .of ⟨hd, ht _ rfl rfl rfl, ⟨h3.trans h4.symm, h6, ?_⟩, ?_, fun c => nomatch c.2⟩
      · exact Bool.eq_false_iff.2 hs
      · exact fun hc ha => ⟨fun e => hr e ⟨hc, ha⟩, fun w => fun c => nomatch c⟩

theorem onTRead_ok (checks : Bool) (u : SP) (d : Data) (e : Ec) (h : Ok checks (.both (.readDone e) u) d) :
    Reach checks ((conc (.both .idle u) d).onTRead e) := by
  obtain ⟨hd, ⟨t1, t2, t3, t4⟩, hu, hq, -⟩ := h
  have hq' : ∀ t, t ≠ .reading → Quiet checks t u d := fun t ht => quiet_of_t hq (fun e => absurd e ht)
  rw [St.onTRead]
  have hb : (conc (.both .idle u) d).tBuf = d.tBuf := rfl
  rw [hb]
  split
  · rename_i hx
    have heq : d.gotTcp = d.putStream := by
      cases e with
      | ok =>
        rcases hx with hx | hx
        · exact absurd (List.length_eq_zero_iff.1 hx) (t1 rfl).2
        · cases hx
      | _ => exact t2 (fun c => nomatch c)
    have hcl : d.tEof = true ∨ d.gotTcp = [] := by
      rcases hx with hx | hx
      · exact Or.inr (hd.2.1.1 (List.length_eq_zero_iff.1 hx))
      · exact Or.inl (t3 hx)
    rw [streamClose_idle]
    split
    · exact .of ⟨hd, heq, hu, hq' _ (fun c => nomatch c), fun c => nomatch c.1⟩
    · rename_i hs
      refine .of ⟨⟨hd.1, hd.2.1, fun _ => hcl⟩, ⟨heq, Bool.eq_false_iff.2 hs⟩, ?_, ?_, fun c => nomatch c.1⟩
      · cases u <;> exact hu
      · exact hq' _ (fun c => nomatch c)
  · rename_i hx
    split
    · rename_i he
      subst he
      rw [streamWrite_idle _ _ _ t4]
      split
      · refine .of ⟨hd, ⟨(fun c => nomatch c), ⟨d.tBuf, (t1 rfl).1.symm⟩, t4⟩, hu, hq' _ (fun c => nomatch c), fun c => nomatch c.1⟩
      · rename_i hs
        exact .of ⟨hd, ⟨(t1 rfl).1, (t1 rfl).2, t4, Bool.eq_false_iff.2 hs⟩, hu, hq' _ (fun c => nomatch c), fun c => nomatch c.1⟩
    · rename_i he
      exact fail_t checks u d hd ⟨[], by rw [List.append_nil]; exact (t2 he).symm⟩ t4 hu hq'

theorem onSClose_ok (checks : Bool) (u : SP) (d : Data) (e : Ec) (h : Ok checks (.both (.closeDone e) u) d) :
    Reach checks ((conc (.both .idle u) d).onSClose e) := by
  obtain ⟨hd, ht, hu, hq, -⟩ := h
  have ht' : d.gotTcp = d.putStream := ht
  exact isEnded_t checks u d hd ⟨⟨[], by rw [List.append_nil]; exact ht'.symm⟩, fun _ => ht'⟩ hu
    (quiet_of_t hq (fun c => nomatch c))

theorem onSWrite_ok (checks : Bool) (u : SP) (d : Data) (e : Ec) (h : Ok checks (.both (.wroteDone e) u) d) :
    Reach checks ((conc (.both .idle u) d).onSWrite checks e) := by
  obtain ⟨hd, ⟨t1, t2, t3⟩, hu, hq, -⟩ := h
  have hq' : ∀ t, t ≠ .reading → Quiet checks t u d := fun t ht => quiet_of_t hq (fun e => absurd e ht)
  rw [St.onSWrite]
  split
  · exact fail_t checks u d hd t2 t3 hu hq'
  · rename_i he
    have he : e = .ok := Classical.not_not.1 he
    rw [tcpRead_idle]
    split
    · exact .of ⟨hd, ⟨(fun c => nomatch c), fun _ => t1 he, (fun c => nomatch c), t3⟩, hu, hq' _ (fun c => nomatch c), fun c => nomatch c.1⟩
    · rename_i hs
      refine .of ⟨hd, ⟨t1 he, t3⟩, hu, quiet_of_t hq (fun _ ⟨hc, ha⟩ => hs (by rw [hc, ha]; rfl)), fun c => nomatch c.1⟩

theorem onSRead_ok (checks : Bool) (t : TP) (d : Data) (e : Ec) (h : Ok checks (.both t (.readDone e)) d) :
    Reach checks ((conc (.both t .idle) d).onSRead checks e) := by
  obtain ⟨hd, ht, ⟨u1, u2, u3⟩, hq, -⟩ := h
  have hq' : ∀ u, (∀ w, u ≠ .writing w) → Quiet checks t u d :=
    fun u hu => quiet_of_s hq (fun w e => absurd e (hu w))
  rw [St.onSRead]
  have hb : (conc (.both t .idle) d).sBuf = d.sBuf := rfl
  rw [hb]
  split
  · rename_i hx
    have heq : d.gotStream = d.putTcp := by
      cases e with
      | ok =>
        rcases hx with hx | hx
        · exact absurd (List.length_eq_zero_iff.1 hx) (u1 rfl).2
        · cases hx
      | _ => exact u2 (fun c => nomatch c)
    show Reach checks (conc (.both t .ended) { d with fin := true }).isEnded
    refine isEnded_s checks t _ hd ?_ ⟨⟨[], by rw [List.append_nil]; exact heq.symm⟩, fun _ => heq⟩ ?_
    · cases t <;> exact ht
    · exact hq' _ (fun w c => nomatch c)
  · split
    · rename_i he
      exact fail_s checks t d hd ht ⟨[], by rw [List.append_nil]; exact (u2 he).symm⟩ u3 hq'
    · rename_i he
      have he : e = .ok := Classical.not_not.1 he
      rw [tcpWrite_idle]
      split
      · exact .of ⟨hd, ht, ⟨(fun c => nomatch c), ⟨d.sBuf, (u1 he).1.symm⟩, u3⟩, hq' _ (fun w c => nomatch c), fun c => nomatch c.2⟩
      · rename_i hs
        exact .of ⟨hd, ht, ⟨(u1 he).1, (u1 he).2, u3⟩,
          quiet_of_s hq (fun w _ ⟨hc, ha⟩ => hs (by rw [hc, ha]; rfl)), fun c => nomatch c.2⟩

theorem onTWrite_ok (checks : Bool) (t : TP) (d : Data) (e : Ec) (h : Ok checks (.both t (.wroteDone e)) d) :
    Reach checks ((conc (.both t .idle) d).onTWrite e) := by
  obtain ⟨hd, ht, ⟨u1, u2, u3⟩, hq, -⟩ := h
  have hq' : ∀ u, (∀ w, u ≠ .writing w) → Quiet checks t u d :=
    fun u hu => quiet_of_s hq (fun w e => absurd e (hu w))
  rw [St.onTWrite]
  split
  · exact fail_s checks t d hd ht u2 u3 hq'
  · rename_i he
    have he : e = .ok := Classical.not_not.1 he
    rw [streamRead_idle]
    split
    · exact .of ⟨hd, ht, ⟨(fun c => nomatch c), fun _ => u1 he, u3⟩, hq' _ (fun w c => nomatch c), fun c => nomatch c.2⟩
    · rename_i hs
      refine .of ⟨hd, ?_, ⟨u1 he, u3, Bool.eq_false_iff.2 hs⟩, ?_, fun c => nomatch c.2⟩
      · cases t <;> exact ht
      · exact hq' _ (fun w c => nomatch c)

/-! ### Steps -/

theorem step_ok (checks : Bool) (a : Abs) (d : Data) (h : Ok checks a d) (op : Op) :
    Reach checks (step checks (conc a d) op) := by
  have same : Reach checks (conc a d) := .of h
  cases op with
  | connectDone e =>
    cases a with
    | connecting => exact ⟨.connDone e, d, rfl, h.1, h.2.2⟩
    | _ => exact same
  | tcpData w =>
    cases a with
    | both t u =>
      cases t with
      | reading =>
        rw [step]
        split
        · rename_i hw
          obtain ⟨hd, ⟨t1, t2⟩, hu, hq, hn⟩ := h
          refine ⟨.both (.readDone .ok) u, { d with tBuf := w, gotTcp := d.gotTcp ++ w }, rfl,
            ⟨hd.1, ?_, ?_⟩, ⟨fun _ => ⟨?_, hw.2.1⟩, fun c => absurd rfl c, (fun c => nomatch c), t2⟩, ?_, ?_, fun c => nomatch c.1⟩
          · exact ⟨fun c => absurd c hw.2.1, fun c => absurd (List.append_eq_nil_iff.1 c).2 hw.2.1⟩
          · intro hc; exact absurd (t2.symm.trans hc) (by decide)
          · show d.gotTcp ++ w = d.putStream ++ w
            rw [t1]
          · cases u <;> exact hu
          · exact quiet_of_t hq (fun c => nomatch c)
        · exact same
      | _ => exact same
    | _ => exact same
  | tcpEnd e =>
    cases a with
    | both t u =>
      cases t with
      | reading =>
        rw [step]
        split
        · rename_i hw
          obtain ⟨hd, ⟨t1, t2⟩, hu, hq, hn⟩ := h
          refine ⟨.both (.readDone e) u, { d with tEof := d.tEof || (e == Ec.eof) }, rfl,
            ⟨hd.1, hd.2.1, ?_⟩, ⟨fun c => absurd c hw.2, fun _ => t1, ?_, t2⟩, ?_, ?_, fun c => nomatch c.1⟩
          · intro hc; exact absurd (t2.symm.trans hc) (by decide)
          · intro he; subst he; exact Bool.or_true _
          · cases u <;> exact hu
          · exact quiet_of_t hq (fun c => nomatch c)
        · exact same
      | _ => exact same
    | _ => exact same
  | tcpWrote n =>
    cases a with
    | both t u =>
      cases u with
      | writing w =>
        obtain ⟨hd, ht, ⟨u1, u2, u3⟩, hq, hn⟩ := h
        show Reach checks (if n = 0 ∨ w.length < n then _ else if n < w.length then _ else _)
        split
        · exact same
        · split
          · rename_i hlt
            refine ⟨.both t (.writing (w.drop n)), { d with putTcp := d.putTcp ++ w.take n }, rfl, hd, ?_,
              ⟨?_, ?_, u3⟩, ?_, fun c => nomatch c.2⟩
            · cases t <;> exact ht
            · show d.gotStream = d.putTcp ++ w.take n ++ w.drop n
              rw [List.append_assoc, List.take_append_drop]; exact u1
            · intro hc
              have := List.drop_eq_nil_iff.1 hc
              omega
            · exact fun hc ha => absurd rfl ((hq hc ha).2 w)
          · refine ⟨.both t (.wroteDone .ok), { d with putTcp := d.putTcp ++ w }, rfl, hd, ?_,
              ⟨fun _ => u1, ⟨[], by rw [List.append_nil]; exact u1.symm⟩, u3⟩, ?_, fun c => nomatch c.2⟩
            · cases t <;> exact ht
            · exact quiet_of_s hq (fun w c => nomatch c)
      | _ => exact same
    | _ => exact same
  | tcpWriteFail e =>
    cases a with
    | both t u =>
      cases u with
      | writing w =>
        rw [step]
        split
        · rename_i hw
          obtain ⟨hd, ht, ⟨u1, u2, u3⟩, hq, hn⟩ := h
          exact ⟨.both t (.wroteDone e), d, rfl, hd, ht, ⟨fun c => absurd c hw.2, ⟨w, u1.symm⟩, u3⟩,
            quiet_of_s hq (fun w c => nomatch c), fun c => nomatch c.2⟩
        · exact same
      | _ => exact same
    | _ => exact same
  | streamData w =>
    cases a with
    | both t u =>
      cases u with
      | reading =>
        rw [step]
        split
        · rename_i hw
          obtain ⟨hd, ht, ⟨u1, u2, u3⟩, hq, hn⟩ := h
          refine ⟨.both t (.readDone .ok), { d with sBuf := w, gotStream := d.gotStream ++ w }, rfl,
            hd, ?_, ⟨fun _ => ⟨?_, hw.2.1⟩, fun c => absurd rfl c, u2⟩, ?_, fun c => nomatch c.2⟩
          · cases t <;> exact ht
          · show d.gotStream ++ w = d.putTcp ++ w
            rw [u1]
          · exact quiet_of_s hq (fun w c => nomatch c)
        · exact same
      | _ => exact same
    | _ => exact same
  | streamEnd e =>
    cases a with
    | both t u =>
      cases u with
      | reading =>
        rw [step]
        split
        · rename_i hw
          obtain ⟨hd, ht, ⟨u1, u2, u3⟩, hq, hn⟩ := h
          refine ⟨.both t (.readDone e), { d with sEof := d.sEof || (e == Ec.eof) }, rfl,
            hd, ?_, ⟨fun c => absurd c hw.2, fun _ => u1, u2⟩, ?_, fun c => nomatch c.2⟩
          · cases t <;> exact ht
          · exact quiet_of_s hq (fun w c => nomatch c)
        · exact same
      | _ => exact same
    | _ => exact same
  | streamWrote n =>
    cases a with
    | both t u =>
      cases t with
      | writing w =>
        obtain ⟨hd, ⟨t1, t2, t3, t4⟩, hu, hq, hn⟩ := h
        show Reach checks (if n = 0 ∨ w.length < n then _ else if n < w.length then _ else _)
        split
        · exact same
        · split
          · rename_i hlt
            refine ⟨.both (.writing (w.drop n)) u, { d with putStream := d.putStream ++ w.take n }, rfl, hd,
              ⟨?_, ?_, t3, t4⟩, ?_, ?_, fun c => nomatch c.1⟩
            · show d.gotTcp = d.putStream ++ w.take n ++ w.drop n
              rw [List.append_assoc, List.take_append_drop]; exact t1
            · intro hc
              have := List.drop_eq_nil_iff.1 hc
              omega
            · cases u <;> exact hu
            · exact quiet_of_t hq (fun c => nomatch c)
          · refine ⟨.both (.wroteDone .ok) u, { d with putStream := d.putStream ++ w }, rfl, hd,
              ⟨fun _ => t1, ⟨[], by rw [List.append_nil]; exact t1.symm⟩, t3⟩, ?_, ?_, fun c => nomatch c.1⟩
            · cases u <;> exact hu
            · exact quiet_of_t hq (fun c => nomatch c)
      | _ => exact same
    | _ => exact same
  | streamWriteFail e =>
    cases a with
    | both t u =>
      cases t with
      | writing w =>
        rw [step]
        split
        · rename_i hw
          obtain ⟨hd, ⟨t1, t2, t3, t4⟩, hu, hq, hn⟩ := h
          exact ⟨.both (.wroteDone e) u, d, rfl, hd, ⟨fun c => absurd c hw.2, ⟨w, t1.symm⟩, t3⟩, hu,
            quiet_of_t hq (fun c => nomatch c), fun c => nomatch c.1⟩
        · exact same
      | _ => exact same
    | _ => exact same
  | streamClosed e =>
    cases a with
    | both t u =>
      cases t with
      | closing =>
        obtain ⟨hd, ⟨t1, t2⟩, hu, hq, hn⟩ := h
        exact ⟨.both (.closeDone e) u, d, rfl, hd, t1, hu, quiet_of_t hq (fun c => nomatch c), fun c => nomatch c.1⟩
      | _ => exact same
    | _ => exact same
  | streamStop =>
    show Reach checks (conc a d).streamStop
    cases hs : d.stopped with
    | true =>
      have : (conc a d).stopped = true := by cases a <;> exact hs
      rw [streamStop_stopped _ this]; exact same
    | false =>
      cases a with
      | connecting =>
        refine ⟨.connecting, { d with stopped := true }, ?_, ⟨fun _ => rfl, h.1.2⟩, h.2⟩
        obtain ⟨ab, f, st, c, tb, sb, l, g1, g2, g3, g4, e1, e2⟩ := d
        cases hs; rfl
      | connDone e =>
        refine ⟨.connDone e, { d with stopped := true }, ?_, ⟨fun _ => rfl, h.1.2⟩, h.2⟩
        obtain ⟨ab, f, st, c, tb, sb, l, g1, g2, g3, g4, e1, e2⟩ := d
        cases hs; rfl
      | both t u =>
        rw [streamStop_both t u d hs]
        obtain ⟨hd, ht, hu, hq, hn⟩ := h
        refine .of ⟨⟨fun _ => rfl, hd.2⟩, st_tok t d ht, st_sok u d hu, ?_, ?_⟩
        · intro hc ha
          obtain ⟨q1, q2⟩ := hq hc ha
          refine ⟨fun e => ?_, fun w e => ?_⟩
          · cases t <;> first | exact q1 e | (cases e)
          · cases u <;> first | exact q2 w e | (cases e)
        · intro ⟨e1, e2⟩
          refine hn ⟨?_, ?_⟩
          · cases t <;> first | exact e1 | (cases e1)
          · cases u <;> first | exact e2 | (cases e2)
      | gone x y => exact absurd (hs.symm.trans h.2.2.2.2.2.2.1) (by decide)
  | managerStop =>
    show Reach checks (if (conc a d).listed then _ else _)
    split
    · rename_i hl
      cases a with
      | connecting =>
        obtain ⟨hd, ha, h1⟩ := h
        refine ⟨.connDone .aborted, { abD d with listed := false }, ?_, ⟨fun _ => rfl, hd.2⟩, h1⟩
        obtain ⟨ab, f, st, c, tb, sb, l, g1, g2, g3, g4, e1, e2⟩ := d
        cases ha
        cases st <;> rfl
      | connDone e =>
        obtain ⟨hd, h1⟩ := h
        refine ⟨.connDone e, { abD d with listed := false }, ?_, ⟨fun _ => rfl, hd.2⟩, h1⟩
        obtain ⟨ab, f, st, c, tb, sb, l, g1, g2, g3, g4, e1, e2⟩ := d
        cases ab with
        | true => have : st = true := hd.1 rfl
                  subst this; rfl
        | false => cases st <;> rfl
      | both t u =>
        have e1 : (if (conc (.both t u) d).freed then { { conc (.both t u) d with listed := false } with bad := true }
            else { conc (.both t u) d with listed := false }.abort)
            = (conc (.both t u) { d with listed := false }).abort := rfl
        dsimp only
        rw [e1]
        obtain ⟨hd, ht, hu, hq, hn⟩ := h
        have hd' : DOk { d with listed := false } := hd
        have ht' : TOk t { d with listed := false } := by cases t <;> exact ht
        have hu' : SOk u { d with listed := false } := by cases u <;> exact hu
        have hq' : Quiet checks t u { d with listed := false } := hq
        rw [abort_both _ _ _ hd']
        refine .of ⟨abD_ok _ hd', abt_tok t _ hd' ht', abt_sok u _ hd' hu', abt_quiet hq', ?_⟩
        intro ⟨g1, g2⟩
        exact hn ⟨(abt_t_ended _ _).1 g1, (abt_s_ended _ _).1 g2⟩
      | gone x y => exact absurd (hl.symm.trans h.2.2.2.2.2.2.2) (by decide)
    · exact same
  | runConn =>
    cases a with
    | connDone e => exact onConn_ok checks d e h
    | _ => exact same
  | runTRead =>
    cases a with
    | both t u =>
      cases t with
      | readDone e => exact onTRead_ok checks u d e h
      | _ => exact same
    | _ => exact same
  | runTWrite =>
    cases a with
    | both t u =>
      cases u with
      | wroteDone e => exact onTWrite_ok checks t d e h
      | _ => exact same
    | _ => exact same
  | runSRead =>
    cases a with
    | both t u =>
      cases u with
      | readDone e => exact onSRead_ok checks t d e h
      | _ => exact same
    | _ => exact same
  | runSWrite =>
    cases a with
    | both t u =>
      cases t with
      | wroteDone e => exact onSWrite_ok checks u d e h
      | _ => exact same
    | _ => exact same
  | runSClose =>
    cases a with
    | both t u =>
      cases t with
      | closeDone e => exact onSClose_ok checks u d e h
      | _ => exact same
    | _ => exact same

theorem foldl_ok (checks : Bool) (ops : List Op) (s : St) (h : Reach checks s) :
    Reach checks (ops.foldl (step checks) s) := by
  induction ops generalizing s with
  | nil => exact h
  | cons op ops ih =>
    obtain ⟨a, d, rfl, h⟩ := h
    exact ih _ (step_ok checks a d h op)

theorem init_ok (checks : Bool) : Reach checks St.init :=
  ⟨.connecting, ⟨false, false, false, false, [], [], true, [], [], [], [], false, false⟩, rfl,
    ⟨(fun c => nomatch c), Iff.rfl, fun c => nomatch c⟩, rfl, rfl, rfl, rfl, rfl, rfl, rfl⟩

theorem run_ok (checks : Bool) (ops : List Op) : Reach checks (run checks ops) := foldl_ok checks ops _ (init_ok checks)

end Verif.Tunnel.Conn
