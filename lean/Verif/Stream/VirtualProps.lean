import Verif.Stream.VirtualEnd

/-!
# C46: a virtual stream delivers the bytes in order

`E` is the type of names of operations, `e₀` the name of the opening. A history is any list of operations of
both ends in any order.
-/

namespace Verif.Stream.Virtual

open Verif.Stream (Ec)
open Spec

variable {E : Type} [DecidableEq E]

/-- **C46 (order).** What an end has got from its reads is the beginning of what the other end has written:
nothing is lost, doubled, changed or reordered, whatever the ends do, also when they abort. -/
theorem C46_in_order (e₀ : E) (ops : List (Op E)) (hd : Distinct e₀ ops) (sd : Side) :
    delivered (Side.other sd) (run (St.init e₀) ops).2 <+: accepted sd ops (run (St.init e₀) ops).2 := by
  have h := run_data e₀ ops hd
  cases sd with
  | client =>
    simp only [Side.other]
    cases hv : (run (St.init e₀) ops).1.vstopped with
    | true => exact h.p1 hv
    | false => rw [← h.d1 hv, List.append_assoc]; exact List.prefix_append _ _
  | server =>
    simp only [Side.other]
    have hp : (run (St.init e₀) ops).1.stopped = true ∨ (run (St.init e₀) ops).1.vstopped = true →
        delivered .client (run (St.init e₀) ops).2 <+: accepted .server ops (run (St.init e₀) ops).2 :=
      fun hh => (List.prefix_append _ _).trans (h.p2 hh)
    cases hs : (run (St.init e₀) ops).1.stopped with
    | true => exact hp (.inl hs)
    | false =>
      cases hv : (run (St.init e₀) ops).1.vstopped with
      | true => exact hp (.inr hv)
      | false => rw [← h.d2 hs hv, List.append_assoc]; exact List.prefix_append _ _

/-- Four bytes written in two parts and read in two other parts. -/
example : delivered .server (run (St.init 0) [.accept 1, .cWrite 2 [1, 2, 3], .readSome 3 2, .readAll 4 2,
    .cWrite 5 [4, 5]]).2 = [1, 2, 3, 4] := by decide

/-- **C46 (sizes).** A read never gets more bytes than its buffer holds, and a read for all bytes which
succeeds gets as many as it asked for. -/
theorem C46_read (e₀ : E) (ops : List (Op E)) (hd : Distinct e₀ ops) (op : Op E) (ho : op ∈ ops) (sd : Side)
    (e : E) (all : Bool) (n : Nat) (hr : readOf op = some (sd, e, all, n)) (ec : Ec) (g : List UInt8)
    (h : Out.done sd e ec g ∈ (run (St.init e₀) ops).2) :
    g.length ≤ n ∧ (all = true → ec = .ok → g.length = n) := by
  rcases (run_good e₀ ops).2 _ h with ⟨op', ho', hw, hf⟩ | ⟨rfl, rfl, _⟩
  · have := op_unique hd ho ho' (readOf_who hr) hw
    subst this
    simpa only [FitsOp, hr] using hf
  · exact absurd (readOf_who hr) (opened_unique hd ho)

example : Out.done .server 4 .ok [3, 4] ∈ (run (St.init 0) [.accept 1, .cWrite 2 [1, 2, 3], .readSome 3 2,
    .readAll 4 2, .cWrite 5 [4, 5]]).2 := by decide

/-- **C46 (once).** No operation is completed twice, and nothing is completed which was not started. -/
theorem C46_once (e₀ : E) (ops : List (Op E)) (hd : Distinct e₀ ops) (x : Side × E) :
    (completed (run (St.init e₀) ops).2).count x ≤ 1 ∧
      (x ∈ completed (run (St.init e₀) ops).2 → x ∈ started e₀ ops) := by
  obtain ⟨sd, e⟩ := x
  have h1 := run_acct_le e₀ ops sd e
  have h2 := List.nodup_iff_count.1 hd (sd, e)
  refine ⟨by omega, fun hm => ?_⟩
  have := List.count_pos_iff.2 hm
  exact List.count_pos_iff.1 (by omega)

/-- **C46 (no stall).** A read of one end and a write of the other end never wait at the same time: bytes
which are there are delivered. -/
theorem C46_no_stall (e₀ : E) (ops : List (Op E)) (hd : Distinct e₀ ops) (sd : Side) (r w : Op E) (hr : r ∈ ops)
    (hw : w ∈ ops) (a b : E) (all : Bool) (n : Nat) (d : List UInt8)
    (hra : readOf r = some (Side.other sd, a, all, n)) (hwb : writeOf w = some (sd, b, d))
    (h1 : Waits (run (St.init e₀) ops).2 (Side.other sd, a)) : ¬ Waits (run (St.init e₀) ops).2 (sd, b) := by
  intro h2
  have hD := run_data e₀ ops hd
  cases sd with
  | client =>
    obtain ⟨x, hx, _⟩ := waits_sRd hd hr hra h1
    have hww : w = .cWrite b d := by cases w <;> simp_all [writeOf]
    rw [hww] at hw
    obtain ⟨y, hy, _⟩ := waits_cWr hd hw h2
    rcases hD.w1 with h | h <;> simp_all
  | server =>
    obtain ⟨x, hx, _⟩ := waits_cRd hd hr hra h1
    have hww : w = .write b d := by cases w <;> simp_all [writeOf]
    rw [hww] at hw
    obtain ⟨y, hy, _⟩ := waits_sWr hd hw h2
    rcases hD.w2 with h | h <;> simp_all

/-- A read waits, the write of the other end has been completed. -/
example : Waits (run (St.init 0) [.readAll 1 5, .cWrite 2 [1, 2]]).2 (.server, 1) ∧
    (Side.client, 2) ∈ completed (run (St.init 0) [.readAll 1 5, .cWrite 2 [1, 2]]).2 := by
  constructor
  · unfold Waits; decide
  · decide

/-- **C46 (one at a time).** At most one read of an end waits, and at most one write. -/
theorem C46_exclusive (e₀ : E) (ops : List (Op E)) (hd : Distinct e₀ ops) (sd : Side) (a b : E)
    (ha : Waits (run (St.init e₀) ops).2 (sd, a)) (hb : Waits (run (St.init e₀) ops).2 (sd, b)) :
    (∀ x ∈ ops, ∀ y ∈ ops, (∃ p, readOf x = some (sd, a, p)) → (∃ q, readOf y = some (sd, b, q)) → a = b) ∧
    (∀ x ∈ ops, ∀ y ∈ ops, (∃ p, writeOf x = some (sd, a, p)) → (∃ q, writeOf y = some (sd, b, q)) → a = b) := by
  refine ⟨?_, ?_⟩
  · rintro x hx y hy ⟨⟨p1, p2⟩, hp⟩ ⟨⟨q1, q2⟩, hq⟩
    cases sd with
    | server =>
      obtain ⟨u, hu, rfl⟩ := waits_sRd hd hx hp ha
      obtain ⟨v, hv, rfl⟩ := waits_sRd hd hy hq hb
      rw [hu] at hv; cases hv; rfl
    | client =>
      obtain ⟨u, hu, rfl⟩ := waits_cRd hd hx hp ha
      obtain ⟨v, hv, rfl⟩ := waits_cRd hd hy hq hb
      rw [hu] at hv; cases hv; rfl
  · rintro x hx y hy ⟨p, hp⟩ ⟨q, hq⟩
    cases sd with
    | server =>
      have e1 : x = .write a p := by cases x <;> simp_all [writeOf]
      have e2 : y = .write b q := by cases y <;> simp_all [writeOf]
      rw [e1] at hx; rw [e2] at hy
      obtain ⟨u, hu, rfl⟩ := waits_sWr hd hx ha
      obtain ⟨v, hv, rfl⟩ := waits_sWr hd hy hb
      rw [hu] at hv; cases hv; rfl
    | client =>
      have e1 : x = .cWrite a p := by cases x <;> simp_all [writeOf]
      have e2 : y = .cWrite b q := by cases y <;> simp_all [writeOf]
      rw [e1] at hx; rw [e2] at hy
      obtain ⟨u, hu, rfl⟩ := waits_cWr hd hx ha
      obtain ⟨v, hv, rfl⟩ := waits_cWr hd hy hb
      rw [hu] at hv; cases hv; rfl

/-- A completion which is new in the last step comes from that step. -/
theorem new_of_last {e₀ : E} {ops : List (Op E)} {op : Op E} {x : Out E}
    (h : x ∈ (run (St.init e₀) (ops ++ [op])).2) (hn : x ∉ (run (St.init e₀) ops).2) :
    x ∈ (step (run (St.init e₀) ops).1 op).2 := by
  rw [run_snoc] at h
  exact (List.mem_append.1 h).resolve_left hn

/-- **C46 (close).** When a close of an end succeeds, the other end has got all bytes which were written. The
client must not have aborted the stream itself. -/
theorem C46_close (e₀ : E) (ops : List (Op E)) (op : Op E) (hd : Distinct e₀ (ops ++ [op])) (sd : Side) (e : E)
    (c : Op E) (hc : c ∈ ops ++ [op]) (hce : closeOf c = some (sd, e)) (g : List UInt8)
    (h : Out.done sd e .ok g ∈ (run (St.init e₀) (ops ++ [op])).2)
    (hn : Out.done sd e .ok g ∉ (run (St.init e₀) ops).2)
    (ha : sd = .client → Op.cStop ∉ ops ++ [op]) :
    delivered (Side.other sd) (run (St.init e₀) (ops ++ [op])).2 =
      accepted sd (ops ++ [op]) (run (St.init e₀) (ops ++ [op])).2 := by
  have hlast := new_of_last h hn
  have hD := run_data e₀ (ops ++ [op]) hd
  have hs : Slots (run (St.init e₀) ops).1 (ops ++ [op]) e₀ :=
    (run_good e₀ ops).1.mono fun a ha => by simp [ha]
  have hwho : who c = some (sd, e) := by cases c <;> simp_all [closeOf, who]
  have hother : ¬ Other (ops ++ [op]) (sd, e) := by
    rintro ⟨o, ho, hw, hcl⟩
    rw [op_unique hd ho hc hw hwho, hce] at hcl
    simp at hcl
  have hst : (step (run (St.init e₀) ops).1 op).1 = (run (St.init e₀) (ops ++ [op])).1 := by rw [run_snoc]
  cases sd with
  | client =>
    simp only [Side.other]
    rcases step_close_client hs (by simp) hlast with hq | rfl | hq
    · rw [hst] at hq
      have hv : (run (St.init e₀) (ops ++ [op])).1.vstopped = false := by
        cases hv : (run (St.init e₀) (ops ++ [op])).1.vstopped with
        | false => rfl
        | true => exact absurd ((run_flags e₀ _).2.1 hv) (ha rfl)
      have := hD.d1 hv
      rw [hq.1, hq.2] at this
      simpa using this
    · exact absurd hwho (opened_unique hd hc)
    · exact absurd hq hother
  | server =>
    simp only [Side.other]
    rcases step_close_server hs (by simp) hlast with hq | hq
    · rw [hst] at hq
      have := hD.d2 hq.2.2.1 hq.2.2.2
      rw [hq.1, hq.2.1] at this
      simpa using this
    · exact absurd hq hother

/-- A close which waits for the last bytes and then succeeds. -/
example : Out.done .client 3 .ok [] ∈ (run (St.init 0) [.accept 1, .cWrite 2 [1, 2, 3], .cClose 3,
      .readSome 4 2, .readSome 5 2]).2 ∧
    Out.done .client 3 .ok [] ∉ (run (St.init 0) [.accept 1, .cWrite 2 [1, 2, 3], .cClose 3,
      .readSome 4 2]).2 ∧
    Distinct 0 [.accept 1, .cWrite 2 [1, 2, 3], .cClose 3, .readSome 4 2, .readSome 5 2] := by
  refine ⟨by decide, by decide, ?_⟩
  unfold Distinct
  decide

/-- **C46 (end of data at the device), partial.** The device's application is told that the data has ended only
when it has got all bytes of the client. Missing: a read for all bytes which is started while a write of the
client waits, see `C46_eof_server_violated`. -/
theorem C46_eof_server_partial (e₀ : E) (ops : List (Op E)) (op : Op E) (hd : Distinct e₀ (ops ++ [op])) (e : E)
    (g : List UInt8) (h : Out.done .server e .eof g ∈ (run (St.init e₀) (ops ++ [op])).2)
    (hn : Out.done .server e .eof g ∉ (run (St.init e₀) ops).2)
    (hw : ∀ n, op = .readAll e n → ∀ a d, Op.cWrite a d ∈ ops → ¬ Waits (run (St.init e₀) ops).2 (.client, a)) :
    delivered .server (run (St.init e₀) (ops ++ [op])).2 =
      accepted .client (ops ++ [op]) (run (St.init e₀) (ops ++ [op])).2 := by
  have hlast := new_of_last h hn
  have hD := run_data e₀ (ops ++ [op]) hd
  have hst : (step (run (St.init e₀) ops).1 op).1 = (run (St.init e₀) (ops ++ [op])).1 := by rw [run_snoc]
  obtain ⟨h1, h2, h3, h4⟩ := step_eof_server (run_data e₀ ops (distinct_init hd)) hlast
  rw [hst] at h1 h2 h3
  have hnone : (run (St.init e₀) ops).1.cWr = none := by
    rcases h4 with h4 | ⟨n, rfl⟩
    · exact h4
    · rcases opt_cases (run (St.init e₀) ops).1.cWr with hq | ⟨w, hq⟩
      · exact hq
      · obtain ⟨d, hm⟩ := (run_good e₀ ops).1.cWr w hq
        exact absurd (cWr_waits (distinct_init hd) hq) (hw n rfl _ d hm)
  have := hD.d1 h3
  rw [h1, h2, hnone] at this
  simpa using this

/-- The end of data after all bytes. -/
example : Out.done .server 5 .eof [] ∈ (run (St.init 0) [.accept 1, .cWrite 2 [1, 2, 3], .cClose 3,
      .readSome 4 3, .readSome 5 2]).2 ∧
    Out.done .server 5 .eof [] ∉ (run (St.init 0) [.accept 1, .cWrite 2 [1, 2, 3], .cClose 3,
      .readSome 4 3]).2 := by decide

/-- **C46 (end of data at the client), partial.** The client is told that the data has ended only when it has
got all bytes of the device's application, if no write of the application waits and no end has aborted.
Missing: those cases, see `C46_eof_client_violated` and `C46_eof_abort_violated`. -/
theorem C46_eof_client_partial (e₀ : E) (ops : List (Op E)) (op : Op E) (hd : Distinct e₀ (ops ++ [op])) (e : E)
    (g : List UInt8) (h : Out.done .client e .eof g ∈ (run (St.init e₀) (ops ++ [op])).2)
    (hn : Out.done .client e .eof g ∉ (run (St.init e₀) ops).2)
    (hw : ∀ a d, Op.write a d ∈ ops → ¬ Waits (run (St.init e₀) ops).2 (.server, a))
    (ha : Op.stop ∉ ops ∧ Op.cStop ∉ ops) :
    delivered .client (run (St.init e₀) (ops ++ [op])).2 =
      accepted .server (ops ++ [op]) (run (St.init e₀) (ops ++ [op])).2 := by
  have hlast := new_of_last h hn
  have hD := run_data e₀ (ops ++ [op]) hd
  have hst : (step (run (St.init e₀) ops).1 op).1 = (run (St.init e₀) (ops ++ [op])).1 := by rw [run_snoc]
  obtain ⟨h1, h2, h3, h4, _⟩ := step_eof_client (run_data e₀ ops (distinct_init hd)) hlast
  rw [hst] at h1 h2 h3 h4
  have hnone : (run (St.init e₀) ops).1.sWr = none := by
    rcases opt_cases (run (St.init e₀) ops).1.sWr with hq | ⟨w, hq⟩
    · exact hq
    · obtain ⟨d, hm⟩ := (run_good e₀ ops).1.sWr w hq
      exact absurd (sWr_waits (distinct_init hd) hq) (hw _ d hm)
  have f1 : (run (St.init e₀) (ops ++ [op])).1.stopped = false := by
    rw [h3]
    cases hv : (run (St.init e₀) ops).1.stopped with
    | false => rfl
    | true => exact absurd ((run_flags e₀ _).1.1 hv) ha.1
  have f2 : (run (St.init e₀) (ops ++ [op])).1.vstopped = false := by
    rw [h4]
    cases hv : (run (St.init e₀) ops).1.vstopped with
    | false => rfl
    | true => exact absurd ((run_flags e₀ _).2.1 hv) ha.2
  have := hD.d2 f1 f2
  rw [h1, h2, hnone] at this
  simpa using this

example : Out.done .client 4 .eof [1] ∈ (run (St.init 0) [.accept 1, .cReadAll 4 3, .write 2 [1], .close 3]).2 ∧
    Out.done .client 4 .eof [1] ∉ (run (St.init 0) [.accept 1, .cReadAll 4 3, .write 2 [1]]).2 := by decide

/-- **C46 violated:** the client has written three bytes and closed; a read for all bytes of the device's
application is told that the data has ended, and none of them has been delivered. -/
theorem C46_eof_server_violated :
    let ops : List (Op Nat) := [.accept 1, .cWrite 2 [1, 2, 3], .cClose 3, .readAll 4 3]
    Distinct 0 ops ∧ Out.done .server 4 .eof [] ∈ (run (St.init 0) ops).2 ∧
      delivered .server (run (St.init 0) ops).2 = [] ∧
      accepted .client ops (run (St.init 0) ops).2 = [1, 2, 3] := by
  refine ⟨?_, by decide, by decide, by decide⟩
  unfold Distinct
  decide

/-- What is in a slot of the device's application or is a read of the client is not completed. -/
theorem pend_waits {e₀ : E} {ops : List (Op E)} (hd : Distinct e₀ ops) {sd : Side} {e : E}
    (h : 1 ≤ pend sd (run (St.init e₀) ops).1 e) : Waits (run (St.init e₀) ops).2 (sd, e) := by
  intro hm
  have h1 := List.count_pos_iff.2 hm
  have h2 := run_acct_le e₀ ops sd e
  have h3 := List.nodup_iff_count.1 hd (sd, e)
  omega

/-- **C46 violated:** the device's application has written three bytes and closed. The client is told that the
data has ended without getting one of them. -/
theorem C46_eof_client_violated :
    let ops : List (Op Nat) := [.accept 1, .write 2 [1, 2, 3], .close 3, .cReadAll 4 3]
    Distinct 0 ops ∧ Out.done .client 4 .eof [] ∈ (run (St.init 0) ops).2 ∧
      delivered .client (run (St.init 0) ops).2 = [] ∧
      accepted .server ops (run (St.init 0) ops).2 = [1, 2, 3] := by
  refine ⟨?_, by decide, by decide, by decide⟩
  unfold Distinct
  decide

/-- **C46 violated:** in that history neither the write nor the close of the device's application is completed,
whatever the two ends do afterwards, until one of them aborts. -/
theorem C46_close_violated (ops : List (Op Nat))
    (h : Distinct 0 ([.accept 1, .write 2 [1, 2, 3], .close 3] ++ ops)) (h1 : Op.stop ∉ ops)
    (h2 : Op.cStop ∉ ops) :
    let os := (run (St.init 0) ([.accept 1, .write 2 [1, 2, 3], .close 3] ++ ops)).2
    Waits os (.server, 2) ∧ Waits os (.server, 3) := by
  dsimp only
  have hs := run_closed (run (St.init 0) [.accept 1, .write 2 [1, 2, 3], .close 3]).1 ops rfl rfl rfl rfl h1 h2
  have e1 : (run (St.init 0) ([.accept 1, .write 2 [1, 2, 3], .close 3] ++ ops)).1.sWr =
      some (⟨2, [1, 2, 3]⟩ : Wrr Nat) := by
    rw [run_append]; exact hs.1
  have e2 : (run (St.init 0) ([.accept 1, .write 2 [1, 2, 3], .close 3] ++ ops)).1.sCl = some 3 := by
    rw [run_append]; exact hs.2
  exact ⟨pend_waits h (by simp only [pend, e1]; simp; omega), pend_waits h (by simp only [pend, e2]; simp)⟩

example : Distinct 0 ([.accept 1, .write 2 [1, 2, 3], .close 3] ++ [.cReadAll 4 3, .cReadSome 5 1]) := by
  unfold Distinct
  decide

/-- **C46 violated:** the device's application writes, closes and aborts. The client is told that the data has
ended properly, although the bytes are lost. -/
theorem C46_eof_abort_violated :
    let ops : List (Op Nat) := [.accept 1, .write 2 [1, 2, 3], .close 3, .stop, .cReadSome 4 3]
    Distinct 0 ops ∧ Out.done .client 4 .eof [] ∈ (run (St.init 0) ops).2 ∧
      delivered .client (run (St.init 0) ops).2 = [] ∧
      accepted .server ops (run (St.init 0) ops).2 = [1, 2, 3] := by
  refine ⟨?_, by decide, by decide, by decide⟩
  unfold Distinct
  decide

/-- **C46 (abort at the device).** After the device's application has aborted or freed the stream, or the
connection has ended, all its operations are completed, also those it starts later. -/
theorem C46_abort_server (e₀ : E) (ops : List (Op E)) (hd : Distinct e₀ ops) (h : Op.stop ∈ ops) (e : E)
    (hs : (Side.server, e) ∈ started e₀ ops) : (Side.server, e) ∈ completed (run (St.init e₀) ops).2 := by
  have hD := run_data e₀ ops hd
  obtain ⟨h1, h2, h3⟩ := hD.st ((run_flags e₀ ops).1.2 h)
  have ha := run_acct_of e₀ ops .server e (by simp)
  have hp : pend .server (run (St.init e₀) ops).1 e = 0 := by simp [pend, h1, h2, h3]
  have := List.count_pos_iff.2 hs
  exact List.count_pos_iff.1 (by omega)

example : Distinct 0 [.accept 1, .readAll 2 5, .write 3 [1], .close 4, .stop, .readSome 5 1] ∧
    Waits (run (St.init 0) [.accept 1, .readAll 2 5, .write 3 [1], .close 4]).2 (.server, 4) := by
  constructor
  · unfold Distinct; decide
  · unfold Waits; decide

/-- **C46 (abort at the client), partial.** When the client aborts the stream, all its operations so far are
completed, with the opening, if it has not closed while an earlier close was waiting. Missing: operations
started afterwards, see `C46_read_after_abort_violated`. -/
theorem C46_abort_client_partial (e₀ : E) (ops : List (Op E)) (hd : Distinct e₀ ops) (h : Op.cStop ∉ ops)
    (hc : ClosesInTurn e₀ ops) (e : E) (hs : (Side.client, e) ∈ started e₀ ops) :
    (Side.client, e) ∈ completed (run (St.init e₀) (ops ++ [.cStop])).2 := by
  have hst : started e₀ (ops ++ [.cStop]) = started e₀ ops := by rw [started_snoc]; simp [who]
  have hd' : Distinct e₀ (ops ++ [.cStop]) := by unfold Distinct; rw [hst]; exact hd
  have ha := run_acct_of e₀ (ops ++ [.cStop]) .client e (by
    intro _ pre a post hh hcl
    have hm := (run_good e₀ pre).1.cCl e hcl
    obtain ⟨post', hp⟩ : ∃ post', ops = pre ++ Op.cClose a :: post' := by
      rcases List.eq_nil_or_concat post with hq | ⟨l, x, hq⟩
      · rw [hq] at hh
        have := congrArg List.getLast? hh
        simp at this
      · rw [hq] at hh
        refine ⟨l, ?_⟩
        have : pre ++ Op.cClose a :: (l ++ [x]) = (pre ++ Op.cClose a :: l) ++ [x] := by simp
        rw [List.concat_eq_append, this] at hh
        exact (List.append_inj' hh rfl).1
    have hdone := hc pre a post' hp e hm
    have hdp : Distinct e₀ pre := by
      unfold Distinct at hd ⊢
      rw [hp] at hd
      unfold started at hd ⊢
      rw [List.filterMap_append, ← List.cons_append] at hd
      exact (List.nodup_append.1 hd).1
    exact pend_waits hdp (by simp [pend, hcl]) hdone)
  have hv : (run (St.init e₀) ops).1.vstopped = false := by
    cases hv : (run (St.init e₀) ops).1.vstopped with
    | false => rfl
    | true => exact absurd ((run_flags e₀ _).2.1 hv) h
  have hp : pend .client (run (St.init e₀) (ops ++ [.cStop])).1 e = 0 := by
    rw [run_snoc]
    simp [pend, step, cStop, hv]
  rw [hst] at ha
  have := List.count_pos_iff.2 hs
  exact List.count_pos_iff.1 (by omega)

example : ClosesInTurn 0 [.cWrite 1 [1], .cClose 2, .cReadAll 3 4] ∧
    Distinct 0 [.cWrite 1 [1], .cClose 2, .cReadAll 3 4] := by
  constructor
  · intro pre e post h e' he'
    rcases pre with _ | ⟨a, _ | ⟨b, _ | ⟨c, _ | ⟨d, l⟩⟩⟩⟩ <;> simp at h he'
    rw [← h.1] at he'
    cases he'
  · unfold Distinct; decide

/-- **C46 violated:** a read which the client starts after it has aborted the stream is never completed,
whatever happens afterwards. -/
theorem C46_read_after_abort_violated (n : Nat) (ops : List (Op Nat))
    (h : Distinct 0 ([.accept 1, .cStop, .cReadAll 2 n] ++ ops)) :
    Waits (run (St.init 0) ([.accept 1, .cStop, .cReadAll 2 n] ++ ops)).2 (.client, 2) := by
  have hr := run_dead (run (St.init 0) [.accept 1, .cStop, .cReadAll 2 n]).1 ops (.inr rfl) rfl rfl (.inl rfl) rfl
  have e1 : (run (St.init 0) ([.accept 1, .cStop, .cReadAll 2 n] ++ ops)).1.cRd =
      some (⟨2, true, n, []⟩ : Rdr Nat) := by
    rw [run_append]; exact hr
  exact pend_waits h (by simp only [pend, e1]; simp; omega)

example : Distinct 0 ([.accept 1, .cStop, .cReadAll 2 4] ++ [.write 3 [1, 2, 3, 4], .close 4, .stop, .cStop]) := by
  unfold Distinct
  decide

/-- **C46 violated:** a client which reads is not told that the device's application has aborted the stream,
freed it or that the connection has ended; its read waits until the client aborts. -/
theorem C46_abort_not_seen_violated (n : Nat) (ops : List (Op Nat))
    (h : Distinct 0 ([.accept 1, .cReadAll 2 n, .stop] ++ ops)) (hc : Op.cStop ∉ ops) :
    Waits (run (St.init 0) ([.accept 1, .cReadAll 2 n, .stop] ++ ops)).2 (.client, 2) := by
  have hr := run_dead (run (St.init 0) [.accept 1, .cReadAll 2 n, .stop]).1 ops (.inl rfl) rfl rfl (.inr hc) rfl
  have e1 : (run (St.init 0) ([.accept 1, .cReadAll 2 n, .stop] ++ ops)).1.cRd =
      some (⟨2, true, n, []⟩ : Rdr Nat) := by
    rw [run_append]; exact hr
  exact pend_waits h (by simp only [pend, e1]; simp; omega)

example : Distinct 0 ([.accept 1, .cReadAll 2 4, .stop] ++ [.write 3 [1, 2, 3, 4], .close 4]) := by
  unfold Distinct
  decide

/-- **C46 violated:** the opening is not completed when the device's application frees the stream without
accepting it, and neither is a write of the client. -/
theorem C46_open_violated :
    let ops : List (Op Nat) := [.cWrite 1 [1], .stop]
    Waits (run (St.init 0) ops).2 (.client, 0) ∧ Waits (run (St.init 0) ops).2 (.client, 1) := by
  constructor <;> unfold Waits <;> decide

/-- **C46 violated:** a close of the device's application which waits is not completed when the client
aborts. -/
theorem C46_close_abort_violated :
    let ops : List (Op Nat) := [.accept 1, .write 2 [1, 2, 3], .close 3, .cStop]
    (Side.server, 2) ∈ completed (run (St.init 0) ops).2 ∧ Waits (run (St.init 0) ops).2 (.server, 3) := by
  constructor
  · decide
  · unfold Waits; decide

/-- **C46 violated:** a write without bytes completes a read of the other end without bytes, with success. -/
theorem C46_empty_violated :
    Out.done .server 2 .ok [] ∈ (run (St.init 0) [.accept 1, .readSome 2 8, .cWrite 3 []]).2 := by decide

end Verif.Stream.Virtual
