import Verif.Net.TcpLemmas

/-
C106 and C107 for the TCP sockets of libevent.
-/
namespace Verif.Net.Tcp.Lev

open Spec Spec.Lev

theorem step_eq {s : St} (hg : s.gone = false) (op : Op) : s.step op = match op with
    | .connect ok => s.connect ok
    | .write d ok => s.write d ok
    | .read n => s.read n
    | .abort => s.abort
    | .destroy => s.destroy
    | .evConnected => s.evConnected
    | .evData n => s.evData n
    | .evEof => s.evEof
    | .evError r => s.evError r
    | .evDrain n => s.evDrain n
    | .peer l => if s.keof then s else { s with kin := s.kin ++ l, peer := s.peer ++ l }
    | .peerEof => { s with keof := true } := by
  cases op <;> simp [St.step, hg]

theorem gone_step {s : St} (hg : s.gone = true) (op : Op) : s.step op = s := by
  simp [St.step, hg]

theorem polite_prefix {ops : List Op} {op : Op} (h : Polite (ops ++ [op])) : Polite ops := by
  intro before o after e
  exact h before o (after ++ [op]) (by rw [e]; simp)

theorem quiet_prefix {ops : List Op} {op : Op} (h : Quiet (ops ++ [op])) : Quiet ops := by
  intro before o after e
  exact h before o (after ++ [op]) (by rw [e]; simp)

theorem isNone_of {o : Option Nat} (h : ¬ o.isSome = true) : o = none := by
  cases o with
  | none => rfl
  | some k => simp at h

theorem Told.take {s : St} (h : Told s.sl) : Told s.take.sl := by
  unfold St.take
  split
  · exact h
  · exact h.resolve _ _ _

theorem Told.abort {s : St} (h : Told s.sl) : Told s.abort.sl := by
  unfold St.abort
  split
  · exact h
  · exact ((h.resolve _ _ _).resolve _ _ _).resolve _ _ _

theorem toldInv (ops : List Op) (hp : Polite ops) : Told (run ops).sl := by
  induction ops using snoc_ind with
  | nil => exact Told.init
  | snoc ops op ih =>
    have h := ih (polite_prefix hp)
    have hop := hp ops op [] rfl
    rw [run_snoc]
    generalize run ops = s at *
    rcases Bool.eq_false_or_eq_true s.gone with hg | hg
    · rw [gone_step hg]; exact h
    rw [step_eq hg]
    cases op with
    | connect ok =>
      have hpl := h.place .connect (hop.1 ok rfl)
      show Told (s.connect ok).sl
      unfold St.connect
      dsimp only
      split
      · exact hpl
      · exact hpl.resolve .connect .error []
    | write d ok =>
      show Told (s.write d ok).sl
      unfold St.write
      split
      · exact h.refuse _ _
      · rename_i hn
        have hpl := h.place .write (isNone_of hn)
        dsimp only
        split
        · exact hpl
        · exact hpl.resolve .write .error []
    | read n =>
      have hn := hop.2 n rfl
      have hpl := h.place .read hn
      show Told (s.read n).sl
      unfold St.read
      split
      · rename_i e; rw [hn] at e; cases e
      · dsimp only
        split
        · exact hpl
        · exact Told.take (s := { s with sl := s.sl.place .read, rsize := n }) hpl
    | abort => exact Told.abort h
    | destroy => exact Told.abort (s := { s with rdOn := false }) h
    | evConnected =>
      show Told s.evConnected.sl
      unfold St.evConnected
      split
      · exact h.resolve _ _ _
      · exact h
    | evData n =>
      show Told (s.evData n).sl
      unfold St.evData
      split
      · dsimp only
        split
        · exact Told.take (s := { s with ibuf := _, kin := _ }) h
        · exact h
      · exact h
    | evEof =>
      show Told s.evEof.sl
      unfold St.evEof
      split
      · exact (h.resolve _ _ _).resolve _ _ _
      · exact h
    | evError r =>
      show Told (s.evError r).sl
      unfold St.evError
      split
      · split
        · exact (h.resolve _ _ _).resolve _ _ _
        · exact h
      · split
        · exact (h.resolve _ _ _).resolve _ _ _
        · exact h
    | evDrain n =>
      show Told (s.evDrain n).sl
      unfold St.evDrain
      split
      · dsimp only
        split
        · exact (h.resolve _ _ _).resolve _ _ _
        · exact h
      · exact h
    | peer l =>
      dsimp only
      split
      · exact h
      · exact h
    | peerEof => exact h

/-- Nothing is pending on an aborted socket on which nothing was asked for afterwards. -/
theorem aborted_idle (ops : List Op) (hq : Quiet ops) (ha : (run ops).aborted = true) (kind : Kind) :
    (run ops).sl.slot kind = none := by
  induction ops using snoc_ind with
  | nil => cases ha
  | snoc ops op ih =>
    have ih := ih (quiet_prefix hq)
    have hop := hq ops op [] rfl
    rw [run_snoc] at *
    generalize run ops = s at *
    rcases Bool.eq_false_or_eq_true s.gone with hg | hg
    · rw [gone_step hg] at *; exact ih ha
    rw [step_eq hg] at *
    have less : ∀ t : St, t.aborted = s.aborted → t.aborted = true →
        (∀ k, t.sl.slot kind = some k → s.sl.slot kind = some k) → t.sl.slot kind = none := by
      intro t e1 e2 e3
      cases e : t.sl.slot kind with
      | none => rfl
      | some k =>
        have := e3 k e
        rw [ih (e1 ▸ e2)] at this
        cases this
    have new : ∀ t : St, t.aborted = s.aborted → t.aborted = true → isAsk op = true →
        t.sl.slot kind = none := by
      intro t e1 e2 e3
      rw [e1, hop e3] at e2
      cases e2
    have abt : ∀ t : St, (∀ j, t.aborted = true → t.sl.slot j = none) → t.abort.sl.slot kind = none := by
      intro t ht
      unfold St.abort
      split
      · exact ht _ (by assumption)
      · simp only [resolve_slot]
        cases kind <;> simp
    have take : ∀ (t : St), t.take.aborted = t.aborted := by
      intro t; unfold St.take; split <;> rfl
    cases op with
    | connect ok =>
      refine new _ ?_ ha rfl
      show (s.connect ok).aborted = s.aborted
      unfold St.connect
      cases ok <;> rfl
    | write d ok =>
      refine new _ ?_ ha rfl
      show (s.write d ok).aborted = s.aborted
      unfold St.write
      split
      · rfl
      · cases ok <;> rfl
    | read n =>
      refine new _ ?_ ha rfl
      show (s.read n).aborted = s.aborted
      unfold St.read
      split
      · rfl
      · dsimp only
        split
        · rfl
        · rw [take]
    | abort =>
      show s.abort.sl.slot kind = none
      unfold St.abort
      split
      · exact ih (by assumption)
      · simp only [resolve_slot]
        cases kind <;> simp
    | destroy =>
      show ({ s with rdOn := false } : St).abort.sl.slot kind = none
      unfold St.abort
      split
      · exact ih (by assumption)
      · simp only [resolve_slot]
        cases kind <;> simp
    | evConnected =>
      refine less _ ?_ ha ?_
      · show s.evConnected.aborted = _; unfold St.evConnected; split <;> rfl
      · show ∀ k, s.evConnected.sl.slot kind = some k → _
        unfold St.evConnected
        split
        · intro k e; exact (resolve_slot_le e).1
        · intro k e; exact e
    | evData n =>
      refine less _ ?_ ha ?_
      · show (s.evData n).aborted = _
        unfold St.evData
        split
        · dsimp only
          split
          · rw [take]
          · rfl
        · rfl
      · show ∀ k, (s.evData n).sl.slot kind = some k → _
        unfold St.evData
        split
        · dsimp only
          split
          · unfold St.take
            split
            · intro k e; exact e
            · intro k e; exact (resolve_slot_le e).1
          · intro k e; exact e
        · intro k e; exact e
    | evEof =>
      refine less _ ?_ ha ?_
      · show s.evEof.aborted = _; unfold St.evEof; split <;> rfl
      · show ∀ k, s.evEof.sl.slot kind = some k → _
        unfold St.evEof
        split
        · intro k e; exact (resolve_slot_le (resolve_slot_le e).1).1
        · intro k e; exact e
    | evError r =>
      refine less _ ?_ ha ?_
      · show (s.evError r).aborted = _; unfold St.evError; (repeat' split) <;> rfl
      · show ∀ k, (s.evError r).sl.slot kind = some k → _
        unfold St.evError
        split
        · split
          · intro k e; exact (resolve_slot_le (resolve_slot_le e).1).1
          · intro k e; exact e
        · split
          · intro k e; exact (resolve_slot_le (resolve_slot_le e).1).1
          · intro k e; exact e
    | evDrain n =>
      refine less _ ?_ ha ?_
      · show (s.evDrain n).aborted = _
        unfold St.evDrain
        split
        · dsimp only; split <;> rfl
        · rfl
      · show ∀ k, (s.evDrain n).sl.slot kind = some k → _
        unfold St.evDrain
        split
        · dsimp only
          split
          · intro k e; exact (resolve_slot_le (resolve_slot_le e).1).1
          · intro k e; exact e
        · intro k e; exact e
    | peer l => exact less _ (by dsimp only; split <;> rfl) ha (by dsimp only; split <;> exact fun k e => e)
    | peerEof => exact less _ rfl ha (fun k e => e)

theorem gone_aborted (ops : List Op) (hg : (run ops).gone = true) : (run ops).aborted = true := by
  induction ops using snoc_ind with
  | nil => cases hg
  | snoc ops op ih =>
    rw [run_snoc] at *
    generalize run ops = s at *
    rcases Bool.eq_false_or_eq_true s.gone with h | h
    · rw [gone_step h] at *; exact ih h
    rw [step_eq h] at *
    have none : ∀ t : St, t.gone = s.gone → t.gone = true → t.aborted = true := by
      intro t e e2; rw [e, h] at e2; cases e2
    have take : ∀ (t : St), t.take.gone = t.gone := by
      intro t; unfold St.take; split <;> rfl
    cases op with
    | connect ok => exact none _ (by show (s.connect ok).gone = _; unfold St.connect; cases ok <;> rfl) hg
    | write d ok =>
      refine none _ ?_ hg
      show (s.write d ok).gone = s.gone
      unfold St.write
      split
      · rfl
      · cases ok <;> rfl
    | read n =>
      refine none _ ?_ hg
      show (s.read n).gone = s.gone
      unfold St.read
      split
      · rfl
      · dsimp only
        split
        · rfl
        · rw [take]
    | abort => exact none _ (by show s.abort.gone = _; unfold St.abort; split <;> rfl) hg
    | destroy =>
      show ({ s with rdOn := false } : St).abort.aborted = true
      unfold St.abort
      split
      · assumption
      · rfl
    | evConnected => exact none _ (by show s.evConnected.gone = _; unfold St.evConnected; split <;> rfl) hg
    | evData n =>
      refine none _ ?_ hg
      show (s.evData n).gone = _
      unfold St.evData
      split
      · dsimp only
        split
        · rw [take]
        · rfl
      · rfl
    | evEof => exact none _ (by show s.evEof.gone = _; unfold St.evEof; split <;> rfl) hg
    | evError r => exact none _ (by show (s.evError r).gone = _; unfold St.evError; (repeat' split) <;> rfl) hg
    | evDrain n =>
      refine none _ ?_ hg
      show (s.evDrain n).gone = _
      unfold St.evDrain
      split
      · dsimp only; split <;> rfl
      · rfl
    | peer l => exact none _ (by dsimp only; split <;> rfl) hg
    | peerEof => exact none _ rfl hg

/-- **C106** (libevent, told once).  Each operation on the socket is told a result exactly once, or
it is pending.  Partial: no connect and no read may be asked for while one is pending. -/
theorem C106_libevent_once_partial (ops : List Op) (hp : Polite ops) (k : Nat) :
    (k < (run ops).sl.asked → (∀ kind, (run ops).sl.slot kind ≠ some k) → told k (run ops).sl.answers = 1) ∧
    (∀ kind, (run ops).sl.slot kind = some k → told k (run ops).sl.answers = 0) ∧
    ((run ops).sl.asked ≤ k → told k (run ops).sl.answers = 0) :=
  ⟨(toldInv ops hp).one k, (toldInv ops hp).zero k, (toldInv ops hp).late k⟩

/-- **C106** (libevent, nothing is left).  Once the socket is aborted or destroyed every operation
asked for has been told exactly once.  Partial: also nothing may be asked for after the abort. -/
theorem C106_libevent_ended_partial (ops : List Op) (hp : Polite ops) (hq : Quiet ops)
    (hg : (run ops).aborted = true ∨ (run ops).gone = true) (k : Nat) (hk : k < (run ops).sl.asked) :
    told k (run ops).sl.answers = 1 := by
  have ha : (run ops).aborted = true := hg.elim id (gone_aborted ops)
  refine (toldInv ops hp).one k hk (fun kind e => ?_)
  rw [aborted_idle ops hq ha kind] at e
  cases e

/-! How the contracts are met: each is checked call by call. -/

theorem polite_nil : Polite [] := by
  intro before op after e
  cases before <;> cases e

theorem polite_snoc {ops : List Op} {op : Op} (h : Polite ops)
    (hc : ∀ ok, op = .connect ok → (run ops).sl.slot .connect = none)
    (hr : ∀ n, op = .read n → (run ops).sl.slot .read = none) : Polite (ops ++ [op]) := by
  intro before o after e
  rcases List.eq_nil_or_concat after with ea | ⟨l, b, ea⟩
  · subst ea
    obtain ⟨e1, e2⟩ := List.append_inj' e rfl
    injection e2 with e2
    subst e1; subst e2
    exact ⟨hc, hr⟩
  · subst ea
    rw [List.concat_eq_append, ← List.cons_append, ← List.append_assoc] at e
    obtain ⟨e1, e2⟩ := List.append_inj' e rfl
    exact h before o l e1

theorem quiet_of {ops : List Op} (h : ∀ before op after, ops = before ++ op :: after → isAsk op = true →
    (run before).aborted = false) : Quiet ops := h

/-- A connection on which everything is asked for as it should be. -/
def sample : List Op :=
  [.connect true, .read 2, .evConnected, .write [1, 2] true, .peer [7, 8, 9], .evData 9, .evDrain 1, .read 5,
    .read 4]

example : Polite (sample ++ [Op.destroy]) ∧ Quiet (sample ++ [Op.destroy]) := by
  constructor
  · refine polite_snoc (ops := sample) ?_ (by simp) (by simp)
    refine polite_snoc (ops := sample.take 8) ?_ (by simp) (fun _ _ => by decide)
    refine polite_snoc (ops := sample.take 7) ?_ (by simp) (fun _ _ => by decide)
    refine polite_snoc (ops := sample.take 6) ?_ (by simp) (by simp)
    refine polite_snoc (ops := sample.take 5) ?_ (by simp) (by simp)
    refine polite_snoc (ops := sample.take 4) ?_ (by simp) (by simp)
    refine polite_snoc (ops := sample.take 3) ?_ (by simp) (by simp)
    refine polite_snoc (ops := sample.take 2) ?_ (by simp) (by simp)
    refine polite_snoc (ops := sample.take 1) ?_ (by simp) (fun _ _ => by decide)
    exact polite_snoc polite_nil (fun _ _ => by decide) (by simp)
  · intro before op after e hop
    -- the socket is aborted by the last call only
    have hb : before = (sample ++ [Op.destroy]).take before.length := by rw [e]; simp
    have hl : before.length < 10 := by
      have := congrArg List.length e
      simp [sample] at this
      omega
    rw [hb]
    have : ∀ n, n < 10 → (run ((sample ++ [Op.destroy]).take n)).aborted = false := by decide
    exact this _ hl

example : (run (sample ++ [Op.destroy])).sl.answers =
    [⟨0, .connect, .ok, []⟩, ⟨1, .read, .ok, [7, 8]⟩, ⟨3, .read, .ok, [9]⟩, ⟨4, .read, .aborted, []⟩,
      ⟨2, .write, .aborted, []⟩] := by decide

/-! ### C106 is violated -/

/-- A read asked for while one is pending is never told; the pending one is told twice, for the
first time that it is in progress, and its buffer is used later. -/
theorem C106_libevent_read_violated :
    (run [.connect true, .evConnected, .read 4, .read 4, .peer [7], .evData 1, .destroy]).sl.answers =
      [⟨0, .connect, .ok, []⟩, ⟨1, .read, .inProgress, []⟩, ⟨1, .read, .ok, [7]⟩] ∧
    (run [.connect true, .evConnected, .read 4, .read 4, .peer [7], .evData 1, .destroy]).sl.asked = 3 := by
  decide

/-- A connect asked for while one is pending takes its place: the first is never told. -/
theorem C106_libevent_connect_violated :
    (run [.connect true, .connect true, .evConnected, .destroy]).sl.answers = [⟨1, .connect, .ok, []⟩] ∧
    (run [.connect true, .connect true, .evConnected, .destroy]).sl.asked = 2 := by
  decide

/-- After the abort operations are still taken on: bytes are sent, and a read that is asked for is
not told even when the socket is destroyed. -/
theorem C106_libevent_late_violated :
    let ops := [.connect true, .evConnected, .abort, .write [1] true, .evDrain 1, .read 4, .destroy]
    (run ops).out = [(1, 1)] ∧ (run ops).sl.asked = 3 ∧ told 2 (run ops).sl.answers = 0 ∧ (run ops).gone = true := by
  decide

/-- A pending write whose socket has met an error while writing. -/
structure Stuck (k : Nat) (s : St) : Prop where
  slot : s.sl.slot .write = some k
  off : s.wrOn = false
  told : told k s.sl.answers = 0
  other : ∀ kind, kind ≠ .write → s.sl.slot kind ≠ some k
  lt : k < s.sl.asked
  gone : s.gone = false

theorem Stuck.resolve {k : Nat} {s t : St} (h : Stuck k s) {kind : Kind} {ec : Ec} {d : List UInt8}
    (hk : kind ≠ .write) (hsl : t.sl = s.sl.resolve kind ec d) (hw : t.wrOn = s.wrOn) (hg : t.gone = s.gone) :
    Stuck k t := by
  refine ⟨?_, by rw [hw]; exact h.off, ?_, ?_, ?_, by rw [hg]; exact h.gone⟩
  · rw [hsl, resolve_slot, if_neg (Ne.symm hk)]; exact h.slot
  · rw [hsl]
    have hr := resolved s.sl kind ec d
    generalize s.sl.resolve kind ec d = u at hr
    cases hr with
    | empty _ => exact h.told
    | full j hj =>
      show Spec.told k (s.sl.answers ++ [_]) = 0
      rw [told_append, told_single, h.told, if_neg]
      intro e
      have e : j = k := e
      exact h.other kind hk (by rw [hj, e])
  · intro j hj e
    rw [hsl] at e
    exact h.other j hj (resolve_slot_le e).1
  · rw [hsl, resolve_asked]; exact h.lt

/-- The write is told only by ending the socket, or by connecting it again. -/
def Ends : Op → Prop
  | .abort => True
  | .destroy => True
  | .connect _ => True
  | _ => False

theorem Stuck.step {k : Nat} {s : St} (h : Stuck k s) (op : Op) (ho : ¬ Ends op) : Stuck k (s.step op) := by
  rw [step_eq h.gone]
  cases op with
  | connect ok => exact absurd trivial ho
  | abort => exact absurd trivial ho
  | destroy => exact absurd trivial ho
  | write d ok =>
    show Stuck k (s.write d ok)
    unfold St.write
    rw [h.slot]
    refine ⟨h.slot, h.off, ?_, h.other, Nat.lt_succ_of_lt h.lt, h.gone⟩
    show Spec.told k (s.sl.answers ++ [_]) = 0
    rw [told_append, told_single, h.told, if_neg]
    have := h.lt
    show s.sl.asked ≠ k
    omega
  | read n =>
    show Stuck k (s.read n)
    unfold St.read
    split
    · rename_i j hj
      refine ⟨h.slot, h.off, ?_, h.other, Nat.lt_succ_of_lt h.lt, h.gone⟩
      show Spec.told k (s.sl.answers ++ [_]) = 0
      rw [told_append, told_single, h.told, if_neg]
      intro e
      have e : j = k := e
      exact h.other .read (by simp) (by rw [hj, e])
    · have hp : Stuck k ({ s with sl := s.sl.place .read, rsize := n } : St) := by
        refine ⟨?_, h.off, h.told, ?_, Nat.lt_succ_of_lt h.lt, h.gone⟩
        · show (s.sl.place .read).slot .write = _
          rw [place_slot]; simp [h.slot]
        · intro kind hk e
          have e : (s.sl.place .read).slot kind = some k := e
          rw [place_slot] at e
          by_cases hr : kind = .read
          · rw [if_pos hr] at e
            injection e with e
            have := h.lt
            omega
          · rw [if_neg hr] at e; exact h.other kind hk e
      dsimp only
      split
      · exact ⟨hp.slot, hp.off, hp.told, hp.other, hp.lt, hp.gone⟩
      · unfold St.take
        split
        · exact hp
        · exact hp.resolve (kind := .read) (by simp) rfl rfl rfl
  | evConnected =>
    show Stuck k s.evConnected
    unfold St.evConnected
    simp [h.off]
    exact h
  | evData n =>
    show Stuck k (s.evData n)
    unfold St.evData
    split
    · dsimp only
      have hp : Stuck k ({ s with ibuf := s.ibuf ++ s.kin.take (max 1 n), kin := s.kin.drop (max 1 n) } : St) :=
        ⟨h.slot, h.off, h.told, h.other, h.lt, h.gone⟩
      split
      · unfold St.take
        split
        · exact hp
        · exact hp.resolve (kind := .read) (by simp) rfl rfl rfl
      · exact hp
    · exact h
  | evEof =>
    show Stuck k s.evEof
    unfold St.evEof
    split
    · have h1 : Stuck k ({ s with sl := s.sl.resolve .connect .eof [] } : St) :=
        h.resolve (kind := .connect) (by simp) rfl rfl rfl
      exact h1.resolve (kind := .read) (by simp) rfl rfl rfl
    · exact h
  | evError r =>
    show Stuck k (s.evError r)
    have h1 : Stuck k ({ s with sl := s.sl.resolve .connect .aborted [] } : St) :=
      h.resolve (kind := .connect) (by simp) rfl rfl rfl
    unfold St.evError
    split
    · split
      · exact h1.resolve (kind := .read) (by simp) rfl rfl rfl
      · exact h
    · simp [h.off]; exact h
  | evDrain n =>
    show Stuck k (s.evDrain n)
    unfold St.evDrain
    simp [h.off]
    exact h
  | peer l =>
    dsimp only
    split
    · exact h
    · exact ⟨h.slot, h.off, h.told, h.other, h.lt, h.gone⟩
  | peerEof => exact ⟨h.slot, h.off, h.told, h.other, h.lt, h.gone⟩

/-- **C106** is violated by an error met while writing: the pending write is not told, whatever
happens afterwards, until the socket is ended or connected again. -/
theorem C106_libevent_error_violated (after : List Op) (h : ∀ op ∈ after, ¬ Ends op) :
    told 1 (run ([.connect true, .evConnected, .write [1] true, .evError false] ++ after)).sl.answers = 0 := by
  have : Stuck 1 (run ([.connect true, .evConnected, .write [1] true, .evError false] ++ after)) := by
    induction after using snoc_ind with
    | nil =>
      refine ⟨by decide, by decide, by decide, ?_, by decide, by decide⟩
      intro kind hk
      cases kind
      · decide
      · exact absurd rfl hk
      · decide
    | snoc l op ih =>
      rw [← List.append_assoc, run_snoc]
      exact (ih (fun o ho => h o (List.mem_append_left _ ho))).step op (h op (by simp))
  exact this.told

/-- A write of nothing is not told either: its end is reported when the output buffer becomes
empty, and it does not become so. -/
theorem C106_libevent_empty_violated :
    let ops := [.connect true, .evConnected, .write [] true]
    (run ops).sl.slot .write = some 1 ∧ (run ops).obuf = [] ∧ ∀ n, (run (ops ++ [.evDrain n])).sl.answers =
      [⟨0, .connect, .ok, []⟩] := by
  refine ⟨by decide, by decide, ?_⟩
  intro n
  simp [run, St.step, St.connect, St.evConnected, St.write, St.evDrain, Slots.resolve, Slots.place, tag]

/-! ### The bytes -/

structure Bytes (ops : List Op) (s : St) : Prop where
  count : s.gone = false → s.sl.asked = (asks ops).length
  le : s.sl.asked ≤ (asks ops).length
  ansLt : ∀ a ∈ s.sl.answers, a.op < s.sl.asked
  slotLt : ∀ kind k, s.sl.slot kind = some k → k < s.sl.asked
  data : delivered s.sl.answers ++ (s.ibuf ++ s.kin) = s.peer
  read : ∀ k, s.sl.slot .read = some k → (asks ops)[k]? = some (.read s.rsize)
  readOk : ∀ a ∈ s.sl.answers, a.kind = .read → a.ec = .ok →
    ∃ n, (asks ops)[a.op]? = some (.read n) ∧ a.data ≠ [] ∧ a.data.length ≤ n
  write : ∀ k, s.sl.slot .write = some k →
    ∃ d, (asks ops)[k]? = some (.write d true) ∧ sentOf k (s.out ++ s.obuf) = d
  writeOk : ∀ a ∈ s.sl.answers, a.kind = .write → a.ec = .ok →
    ∃ d, (asks ops)[a.op]? = some (.write d true) ∧ sentOf a.op s.out = d ∧ ∀ p ∈ s.obuf, p.1 ≠ a.op
  sent : ∀ p ∈ s.out ++ s.obuf, p.1 < s.sl.asked
  sorted : ((s.out ++ s.obuf).map (·.1)).Pairwise (· ≤ ·)

theorem asks_snoc (ops : List Op) (op : Op) :
    asks (ops ++ [op]) = asks ops ++ (if isAsk op then [op] else []) := by
  unfold asks
  rw [List.filter_append]
  congr 1
  cases h : isAsk op <;> simp [h]

theorem asks_get {ops : List Op} {k : Nat} {o : Op} (op : Op) (h : (asks ops)[k]? = some o) :
    (asks (ops ++ [op]))[k]? = some o := by
  rw [asks_snoc]
  have hk : k < (asks ops).length := by
    rcases Nat.lt_or_ge k (asks ops).length with h1 | h1
    · exact h1
    · rw [List.getElem?_eq_none h1] at h; cases h
  rw [List.getElem?_append_left hk]; exact h

/-- Steps in which the slots and the answers change but no bytes move. -/
theorem Bytes.quiet {ops ops' : List Op} {s t : St} (h : Bytes ops s)
    (hops : ∀ (k : Nat) (o : Op), (asks ops)[k]? = some o → (asks ops')[k]? = some o)
    (hcount : t.gone = false → t.sl.asked = (asks ops').length)
    (hasked : s.sl.asked ≤ t.sl.asked) (hle : t.sl.asked ≤ (asks ops').length)
    (hslot : ∀ kind k, t.sl.slot kind = some k → s.sl.slot kind = some k ∨
      (kind = .connect ∧ k < t.sl.asked))
    (hdel : delivered t.sl.answers = delivered s.sl.answers) (hkin : t.kin = s.kin) (hpeer : t.peer = s.peer)
    (hi : t.ibuf = s.ibuf) (hr : t.rsize = s.rsize) (hb : t.obuf = s.obuf) (ho : t.out = s.out)
    (hans : ∀ a ∈ t.sl.answers, a ∈ s.sl.answers ∨ (a.op < t.sl.asked ∧ (a.kind = .connect ∨ a.ec ≠ .ok))) :
    Bytes ops' t := by
  have hs2 : ∀ kind k, kind ≠ .connect → t.sl.slot kind = some k → s.sl.slot kind = some k := by
    intro kind k hk e
    rcases hslot kind k e with e | e
    · exact e
    · exact absurd e.1 hk
  refine ⟨hcount, hle, ?_, ?_, by rw [hdel, hkin, hpeer, hi]; exact h.data, ?_, ?_, ?_, ?_, ?_,
    by rw [ho, hb]; exact h.sorted⟩
  · intro a ha
    rcases hans a ha with ha | ha
    · exact Nat.lt_of_lt_of_le (h.ansLt a ha) hasked
    · exact ha.1
  · intro kind k e
    rcases hslot kind k e with e | e
    · exact Nat.lt_of_lt_of_le (h.slotLt kind k e) hasked
    · exact e.2
  · intro k hk; rw [hr]; exact hops _ _ (h.read k (hs2 _ _ (by simp) hk))
  · intro a ha hk he
    rcases hans a ha with ha | ⟨_, ha | ha⟩
    · obtain ⟨n, e1, e2⟩ := h.readOk a ha hk he
      exact ⟨n, hops _ _ e1, e2⟩
    · rw [ha] at hk; cases hk
    · exact absurd he ha
  · intro k hk
    obtain ⟨d, e1, e2⟩ := h.write k (hs2 _ _ (by simp) hk)
    exact ⟨d, hops _ _ e1, by rw [ho, hb]; exact e2⟩
  · intro a ha hk he
    rcases hans a ha with ha | ⟨_, ha | ha⟩
    · obtain ⟨n, e1, e2⟩ := h.writeOk a ha hk he
      exact ⟨n, hops _ _ e1, by rw [ho, hb]; exact e2⟩
    · rw [ha] at hk; cases hk
    · exact absurd he ha
  · intro p hp
    rw [ho, hb] at hp
    exact Nat.lt_of_lt_of_le (h.sent p hp) hasked

theorem Bytes.resolveNil {ops : List Op} {s t : St} (h : Bytes ops s) {kind : Kind} {ec : Ec}
    (hc : kind = .connect ∨ ec ≠ .ok) (hsl : t.sl = s.sl.resolve kind ec []) (hg : t.gone = false → s.gone = false)
    (hkin : t.kin = s.kin) (hpeer : t.peer = s.peer) (hi : t.ibuf = s.ibuf)
    (hr : t.rsize = s.rsize) (hb : t.obuf = s.obuf) (ho : t.out = s.out) : Bytes ops t := by
  refine h.quiet (fun _ _ e => e) ?_ ?_ ?_ ?_ ?_ hkin hpeer hi hr hb ho ?_
  · intro e; rw [hsl, resolve_asked]; exact h.count (hg e)
  · rw [hsl, resolve_asked]; exact Nat.le_refl _
  · rw [hsl, resolve_asked]; exact h.le
  · intro kind k e; rw [hsl] at e; exact .inl (resolve_slot_le e).1
  · rw [hsl, delivered_resolve_nil]
  · intro a ha
    rw [hsl] at ha
    rcases resolve_answers ha with ha | ⟨e, ha⟩
    · exact .inl ha
    · refine .inr ⟨?_, ?_⟩
      · rw [hsl, resolve_asked]; exact h.slotLt _ _ e
      · rw [ha]; exact hc

theorem Bytes.frame {ops : List Op} {s t : St} (h : Bytes ops s) (hsl : t.sl = s.sl)
    (hg : t.gone = false → s.gone = false)
    (hkin : t.kin = s.kin) (hpeer : t.peer = s.peer) (hi : t.ibuf = s.ibuf)
    (hr : t.rsize = s.rsize) (hb : t.obuf = s.obuf) (ho : t.out = s.out) : Bytes ops t := by
  refine h.quiet (fun _ _ e => e) ?_ (by rw [hsl]; exact Nat.le_refl _) (by rw [hsl]; exact h.le) ?_ (by rw [hsl])
    hkin hpeer hi hr hb ho ?_
  · intro e; rw [hsl]; exact h.count (hg e)
  · intro kind k e; rw [hsl] at e; exact .inl e
  · intro a ha; rw [hsl] at ha; exact .inl ha

theorem Bytes.take {ops : List Op} {s : St} (h : Bytes ops s) {k : Nat} (hk : s.sl.slot .read = some k) :
    Bytes ops s.take := by
  unfold St.take
  split
  · exact h
  · rename_i hne
    refine ⟨?_, ?_, ?_, ?_, ?_, ?_, ?_, ?_, ?_, ?_, h.sorted⟩
    · intro e; rw [resolve_asked]; exact h.count e
    · rw [resolve_asked]; exact h.le
    · intro a ha
      rw [resolve_asked]
      rcases resolve_answers ha with ha | ⟨e, _⟩
      · exact h.ansLt a ha
      · exact h.slotLt _ _ e
    · intro kind j e; rw [resolve_asked]; exact h.slotLt _ _ (resolve_slot_le e).1
    · show delivered (s.sl.resolve .read .ok _).answers ++ (s.ibuf.drop s.rsize ++ s.kin) = s.peer
      rw [delivered_resolve hk, List.append_assoc, ← List.append_assoc (s.ibuf.take _), List.take_append_drop]
      exact h.data
    · intro j hj; exact absurd rfl (resolve_slot_le hj).2
    · intro a ha hkind he
      rcases resolve_answers ha with ha | ⟨hs, ha⟩
      · exact h.readOk a ha hkind he
      · refine ⟨s.rsize, h.read _ hs, ?_, ?_⟩
        · rw [ha]; exact hne
        · rw [ha]
          show (s.ibuf.take _).length ≤ s.rsize
          rw [List.length_take]
          omega
    · intro j hj; exact h.write j (resolve_slot_le hj).1
    · intro a ha hkind he
      rcases resolve_answers ha with ha | ⟨hs, ha⟩
      · exact h.writeOk a ha hkind he
      · rw [ha] at hkind; cases hkind
    · intro p hp; rw [resolve_asked]; exact h.sent p hp

theorem Bytes.abort {ops : List Op} {s : St} (h : Bytes ops s) : Bytes ops s.abort := by
  unfold St.abort
  split
  · exact h
  · have h1 : Bytes ops ({ s with sl := s.sl.resolve .connect .aborted [] } : St) :=
      h.resolveNil (.inl rfl) rfl id rfl rfl rfl rfl rfl rfl
    have h2 : Bytes ops ({ s with sl := (s.sl.resolve .connect .aborted []).resolve .read .aborted [] } : St) :=
      h1.resolveNil (.inr (by simp)) rfl id rfl rfl rfl rfl rfl rfl
    exact h2.resolveNil (kind := .write) (ec := .aborted) (.inr (by simp)) rfl id rfl rfl rfl rfl rfl rfl

theorem Bytes.other {ops : List Op} {s : St} (h : Bytes ops s) {op : Op} (hop : isAsk op = false) :
    Bytes (ops ++ [op]) s := by
  have e : asks (ops ++ [op]) = asks ops := by rw [asks_snoc, hop]; simp
  obtain ⟨a1, a2, a3, a4, a5, a6, a7, a8, a9, a10, a11⟩ := h
  exact ⟨by rw [e]; exact a1, by rw [e]; exact a2, a3, a4, a5, by rw [e]; exact a6, by rw [e]; exact a7,
    by rw [e]; exact a8, by rw [e]; exact a9, a10, a11⟩

theorem sentOf_split (k n : Nat) (out obuf : List (Nat × UInt8)) :
    sentOf k ((out ++ obuf.take n) ++ obuf.drop n) = sentOf k (out ++ obuf) := by
  rw [List.append_assoc, List.take_append_drop]

theorem bytes (ops : List Op) : Bytes ops (run ops) := by
  induction ops using snoc_ind with
  | nil =>
    exact ⟨fun _ => rfl, Nat.le_refl _, fun _ h => (by cases h), fun _ _ h => (by cases h), rfl,
      fun _ h => (by cases h), fun _ h => (by cases h), fun _ h => (by cases h), fun _ h => (by cases h),
      fun _ h => (by cases h), List.Pairwise.nil⟩
  | snoc ops op h =>
    rw [run_snoc]
    generalize run ops = s at *
    rcases Bool.eq_false_or_eq_true s.gone with hg | hg
    · rw [gone_step hg]
      refine h.quiet (fun k o e => asks_get op e) (fun e => by rw [hg] at e; cases e) (Nat.le_refl _) ?_
        (fun _ _ e => .inl e) rfl rfl rfl rfl rfl rfl rfl (fun a ha => .inl ha)
      rw [asks_snoc]; simp; have := h.le; omega
    rw [step_eq hg]
    have hlen := h.count hg
    have hnew : isAsk op = true → (asks (ops ++ [op])).length = s.sl.asked + 1 ∧
        (asks (ops ++ [op]))[s.sl.asked]? = some op := by
      intro e
      rw [asks_snoc, e, hlen]
      simp
    cases op with
    | connect ok =>
      have hp : Bytes (ops ++ [.connect ok])
          ({ s with sl := s.sl.place .connect, rdOn := true, wrOn := true } : St) := by
        refine h.quiet (fun k o e => asks_get _ e) (fun _ => (hnew rfl).1.symm) (Nat.le_succ _)
          (Nat.le_of_eq (hnew rfl).1.symm) ?_ rfl rfl rfl rfl rfl rfl rfl (fun a ha => .inl ha)
        intro kind k e
        have e : (s.sl.place .connect).slot kind = some k := e
        rw [place_slot] at e
        by_cases hk : kind = .connect
        · rw [if_pos hk] at e
          injection e with e
          exact .inr ⟨hk, by rw [← e]; exact Nat.lt_succ_self _⟩
        · rw [if_neg hk] at e; exact .inl e
      show Bytes _ (s.connect ok)
      unfold St.connect
      dsimp only
      split
      · exact hp.frame rfl id rfl rfl rfl rfl rfl rfl
      · exact hp.resolveNil (.inl rfl) rfl id rfl rfl rfl rfl rfl rfl
    | write d ok =>
      show Bytes _ (s.write d ok)
      unfold St.write
      split
      · refine h.quiet (fun k o e => asks_get _ e) (fun _ => (hnew rfl).1.symm) (Nat.le_succ _)
          (Nat.le_of_eq (hnew rfl).1.symm) (fun _ _ e => .inl e) (delivered_refuse _ _ _) rfl rfl rfl rfl rfl rfl ?_
        intro a ha
        rcases List.mem_append.1 ha with ha | ha
        · exact .inl ha
        · rw [List.mem_singleton.1 ha]; exact .inr ⟨Nat.lt_succ_self _, .inr (by simp)⟩
      · rename_i hn
        dsimp only
        split
        · rename_i hok
          subst hok
          have old : ∀ p ∈ s.out ++ s.obuf, p.1 ≠ s.sl.asked := fun p hp => Nat.ne_of_lt (h.sent p hp)
          have sl : ∀ j, j ≠ Kind.write → (s.sl.place .write).slot j = s.sl.slot j := by
            intro j hj; rw [place_slot, if_neg hj]
          refine ⟨fun _ => (hnew rfl).1.symm, Nat.le_of_eq (hnew rfl).1.symm,
            fun a ha => Nat.lt_succ_of_lt (h.ansLt a ha), ?_, h.data, ?_, ?_, ?_, ?_, ?_, ?_⟩
          · intro kind k e
            have e : (s.sl.place .write).slot kind = some k := e
            rw [place_slot] at e
            by_cases hk : kind = .write
            · rw [if_pos hk] at e
              injection e with e
              rw [← e]; exact Nat.lt_succ_self _
            · rw [if_neg hk] at e; exact Nat.lt_succ_of_lt (h.slotLt kind k e)
          · intro k hk
            exact asks_get _ (h.read k (by rw [← sl _ (by simp)]; exact hk))
          · intro a ha hk he
            obtain ⟨n, e1, e2⟩ := h.readOk a ha hk he
            exact ⟨n, asks_get _ e1, e2⟩
          · intro k hk
            have hk : (s.sl.place .write).slot .write = some k := hk
            rw [place_slot, if_pos rfl] at hk
            injection hk with hk
            subst hk
            refine ⟨d, (hnew rfl).2, ?_⟩
            show sentOf s.sl.asked (s.out ++ (s.obuf ++ tag s.sl.asked d)) = d
            rw [← List.append_assoc, sentOf_append, sentOf_none old, sentOf_tag]
            rfl
          · intro a ha hk he
            obtain ⟨d', e1, e2, e3⟩ := h.writeOk a ha hk he
            refine ⟨d', asks_get _ e1, e2, ?_⟩
            intro p hp
            rcases List.mem_append.1 hp with hp | hp
            · exact e3 p hp
            · rw [mem_tag hp]; exact Ne.symm (Nat.ne_of_lt (h.ansLt a ha))
          · intro p hp
            have hp : p ∈ s.out ++ (s.obuf ++ tag s.sl.asked d) := hp
            rw [← List.append_assoc] at hp
            rcases List.mem_append.1 hp with hp | hp
            · exact Nat.lt_succ_of_lt (h.sent p hp)
            · rw [mem_tag hp]; exact Nat.lt_succ_self _
          · show ((s.out ++ (s.obuf ++ tag s.sl.asked d)).map (·.1)).Pairwise (· ≤ ·)
            rw [← List.append_assoc, List.map_append, List.pairwise_append]
            refine ⟨h.sorted, ?_, ?_⟩
            · have e : (tag s.sl.asked d).map (·.1) = List.replicate d.length s.sl.asked := by
                rw [List.eq_replicate_iff]
                refine ⟨by simp [tag], ?_⟩
                intro b hb
                obtain ⟨p, hp, e⟩ := List.mem_map.1 hb
                rw [← e]; exact mem_tag hp
              rw [e]
              exact List.pairwise_replicate.2 (.inr (Nat.le_refl _))
            · intro a ha b hb
              obtain ⟨p, hp, e⟩ := List.mem_map.1 ha
              obtain ⟨q, hq, e'⟩ := List.mem_map.1 hb
              rw [← e, ← e', mem_tag hq]
              exact Nat.le_of_lt (h.sent p hp)
        · have hr : (s.sl.place .write).resolve .write .error [] =
              { asked := s.sl.asked + 1, slot := fun j => if j = .write then none else (s.sl.place .write).slot j,
                answers := s.sl.answers ++ [⟨s.sl.asked, .write, .error, []⟩] } := rfl
          refine h.quiet (fun k o e => asks_get _ e) (fun _ => (hnew rfl).1.symm) (Nat.le_succ _)
            (Nat.le_of_eq (hnew rfl).1.symm) ?_ ?_ rfl rfl rfl rfl rfl rfl ?_
          · intro kind k e
            have e : ((s.sl.place .write).resolve .write .error []).slot kind = some k := e
            obtain ⟨e, hk⟩ := resolve_slot_le e
            rw [place_slot, if_neg hk] at e
            exact .inl e
          · rw [delivered_resolve_nil]; rfl
          · intro a ha
            have ha : a ∈ ((s.sl.place .write).resolve .write .error []).answers := ha
            rcases resolve_answers ha with ha | ⟨e, ha⟩
            · exact .inl ha
            · rw [place_slot, if_pos rfl] at e
              injection e with e
              refine .inr ⟨by rw [← e]; exact Nat.lt_succ_self _, .inr (by rw [ha]; simp)⟩
    | read n =>
      show Bytes _ (s.read n)
      unfold St.read
      split
      · rename_i j hj
        refine h.quiet (fun k o e => asks_get _ e) (fun _ => (hnew rfl).1.symm) (Nat.le_succ _)
          (Nat.le_of_eq (hnew rfl).1.symm) (fun _ _ e => .inl e) ?_ rfl rfl rfl rfl rfl rfl ?_
        · show delivered (s.sl.answers ++ [_]) = _
          rw [delivered_append]; simp [delivered]
        · intro a ha
          rcases List.mem_append.1 ha with ha | ha
          · exact .inl ha
          · rw [List.mem_singleton.1 ha]
            exact .inr ⟨Nat.lt_succ_of_lt (h.slotLt _ _ hj), .inr (by simp)⟩
      · have sl : ∀ j, j ≠ Kind.read → (s.sl.place .read).slot j = s.sl.slot j := by
          intro j hj; rw [place_slot, if_neg hj]
        have hp : Bytes (ops ++ [.read n]) ({ s with sl := s.sl.place .read, rsize := n } : St) := by
          refine ⟨fun _ => (hnew rfl).1.symm, Nat.le_of_eq (hnew rfl).1.symm,
            fun a ha => Nat.lt_succ_of_lt (h.ansLt a ha), ?_, h.data, ?_, ?_, ?_, ?_, ?_, h.sorted⟩
          · intro kind k e
            have e : (s.sl.place .read).slot kind = some k := e
            rw [place_slot] at e
            by_cases hk : kind = .read
            · rw [if_pos hk] at e
              injection e with e
              rw [← e]; exact Nat.lt_succ_self _
            · rw [if_neg hk] at e; exact Nat.lt_succ_of_lt (h.slotLt kind k e)
          · intro k hk
            have hk : (s.sl.place .read).slot .read = some k := hk
            rw [place_slot, if_pos rfl] at hk
            injection hk with hk
            rw [← hk]; exact (hnew rfl).2
          · intro a ha hk he
            obtain ⟨n, e1, e2⟩ := h.readOk a ha hk he
            exact ⟨n, asks_get _ e1, e2⟩
          · intro k hk
            obtain ⟨d, e1, e2⟩ := h.write k (by rw [← sl _ (by simp)]; exact hk)
            exact ⟨d, asks_get _ e1, e2⟩
          · intro a ha hk he
            obtain ⟨d, e1, e2⟩ := h.writeOk a ha hk he
            exact ⟨d, asks_get _ e1, e2⟩
          · intro p hp; exact Nat.lt_succ_of_lt (h.sent p hp)
        dsimp only
        split
        · exact hp.frame rfl id rfl rfl rfl rfl rfl rfl
        · exact hp.take (k := s.sl.asked) (by show (s.sl.place .read).slot .read = _; rw [place_slot, if_pos rfl])
    | abort => exact (h.other rfl).abort
    | destroy =>
      have h0 : Bytes (ops ++ [.destroy]) ({ s with rdOn := false } : St) :=
        (h.other rfl).frame rfl id rfl rfl rfl rfl rfl rfl
      exact h0.abort.frame rfl (fun e => (by cases e)) rfl rfl rfl rfl rfl rfl
    | evConnected =>
      have h := h.other (op := .evConnected) rfl
      show Bytes _ s.evConnected
      unfold St.evConnected
      split
      · exact h.resolveNil (.inl rfl) rfl id rfl rfl rfl rfl rfl rfl
      · exact h
    | evData n =>
      have h := h.other (op := .evData n) rfl
      show Bytes _ (s.evData n)
      unfold St.evData
      split
      · dsimp only
        have hp : Bytes (ops ++ [.evData n])
            ({ s with ibuf := s.ibuf ++ s.kin.take (max 1 n), kin := s.kin.drop (max 1 n) } : St) := by
          refine ⟨h.count, h.le, h.ansLt, h.slotLt, ?_, h.read, h.readOk, h.write, h.writeOk, h.sent, h.sorted⟩
          show delivered s.sl.answers ++ ((s.ibuf ++ s.kin.take (max 1 n)) ++ s.kin.drop (max 1 n)) = s.peer
          rw [List.append_assoc, List.take_append_drop]; exact h.data
        split
        · rename_i hs
          obtain ⟨k, hk⟩ := Option.isSome_iff_exists.1 hs
          exact hp.take hk
        · exact hp
      · exact h
    | evEof =>
      have h := h.other (op := .evEof) rfl
      show Bytes _ s.evEof
      unfold St.evEof
      split
      · have h1 : Bytes (ops ++ [.evEof]) ({ s with sl := s.sl.resolve .connect .eof [] } : St) :=
          h.resolveNil (.inl rfl) rfl id rfl rfl rfl rfl rfl rfl
        exact h1.resolveNil (kind := .read) (ec := .eof) (.inr (by simp)) rfl id rfl rfl rfl rfl rfl rfl
      · exact h
    | evError r =>
      have h := h.other (op := .evError r) rfl
      have h1 : Bytes (ops ++ [.evError r]) ({ s with sl := s.sl.resolve .connect .aborted [] } : St) :=
        h.resolveNil (.inl rfl) rfl id rfl rfl rfl rfl rfl rfl
      show Bytes _ (s.evError r)
      unfold St.evError
      split
      · split
        · exact h1.resolveNil (kind := .read) (ec := .aborted) (.inr (by simp)) rfl id rfl rfl rfl rfl rfl rfl
        · exact h
      · split
        · exact h1.resolveNil (kind := .read) (ec := .aborted) (.inr (by simp)) rfl id rfl rfl rfl rfl rfl rfl
        · exact h
    | evDrain n =>
      have h := h.other (op := .evDrain n) rfl
      show Bytes _ (s.evDrain n)
      unfold St.evDrain
      split
      · dsimp only
        have hp : Bytes (ops ++ [.evDrain n])
            ({ s with out := s.out ++ s.obuf.take n, obuf := s.obuf.drop n } : St) := by
          have e : (s.out ++ s.obuf.take n) ++ s.obuf.drop n = s.out ++ s.obuf := by
            rw [List.append_assoc, List.take_append_drop]
          refine ⟨h.count, h.le, h.ansLt, h.slotLt, h.data, h.read, h.readOk, ?_, ?_, ?_, ?_⟩
          · intro k hk
            obtain ⟨d, e1, e2⟩ := h.write k hk
            refine ⟨d, e1, ?_⟩
            show sentOf k ((s.out ++ s.obuf.take n) ++ s.obuf.drop n) = d
            rw [e]; exact e2
          · intro a ha hk he
            obtain ⟨d, e1, e2, e3⟩ := h.writeOk a ha hk he
            refine ⟨d, e1, ?_, fun p hp => e3 p (List.mem_of_mem_drop hp)⟩
            show sentOf a.op (s.out ++ s.obuf.take n) = d
            rw [sentOf_append, sentOf_none (fun p hp => e3 p (List.mem_of_mem_take hp)), List.append_nil]
            exact e2
          · intro p hp
            have hp : p ∈ (s.out ++ s.obuf.take n) ++ s.obuf.drop n := hp
            rw [e] at hp
            exact h.sent p hp
          · show (((s.out ++ s.obuf.take n) ++ s.obuf.drop n).map (·.1)).Pairwise (· ≤ ·)
            rw [e]; exact h.sorted
        split
        · rename_i hnil
          have hnil : s.obuf.drop n = [] := hnil
          have h1 : Bytes (ops ++ [.evDrain n]) ({ s with
              out := s.out ++ s.obuf.take n, obuf := s.obuf.drop n, sl := s.sl.resolve .connect .ok [] } : St) :=
            hp.resolveNil (.inl rfl) rfl id rfl rfl rfl rfl rfl rfl
          refine ⟨?_, ?_, ?_, ?_, ?_, ?_, ?_, ?_, ?_, ?_, h1.sorted⟩
          · intro e; rw [resolve_asked]; exact h1.count e
          · rw [resolve_asked]; exact h1.le
          · intro a ha
            rw [resolve_asked]
            rcases resolve_answers ha with ha | ⟨e, _⟩
            · exact h1.ansLt a ha
            · exact h1.slotLt _ _ e
          · intro kind j e; rw [resolve_asked]; exact h1.slotLt _ _ (resolve_slot_le e).1
          · rw [delivered_resolve_nil]; exact h1.data
          · intro j hj; exact h1.read j (resolve_slot_le hj).1
          · intro a ha hkind he
            rcases resolve_answers ha with ha | ⟨hs, ha⟩
            · exact h1.readOk a ha hkind he
            · rw [ha] at hkind; cases hkind
          · intro j hj; exact absurd rfl (resolve_slot_le hj).2
          · intro a ha hkind he
            rcases resolve_answers ha with ha | ⟨hs, ha⟩
            · exact h1.writeOk a ha hkind he
            · obtain ⟨d, e1, e2⟩ := h1.write _ hs
              refine ⟨d, e1, ?_, ?_⟩
              · have e2 : sentOf a.op ((s.out ++ s.obuf.take n) ++ s.obuf.drop n) = d := e2
                rw [hnil, List.append_nil] at e2
                exact e2
              · intro p hp
                have hp : p ∈ s.obuf.drop n := hp
                rw [hnil] at hp; cases hp
          · intro p hp; rw [resolve_asked]; exact h1.sent p hp
        · exact hp
      · exact h
    | peer l =>
      have h := h.other (op := .peer l) rfl
      dsimp only
      split
      · exact h
      · refine ⟨h.count, h.le, h.ansLt, h.slotLt, ?_, h.read, h.readOk, h.write, h.writeOk, h.sent, h.sorted⟩
        show delivered s.sl.answers ++ (s.ibuf ++ (s.kin ++ l)) = s.peer ++ l
        rw [← List.append_assoc s.ibuf, ← List.append_assoc, h.data]
    | peerEof => exact (h.other rfl).frame rfl id rfl rfl rfl rfl rfl rfl

/-- What holds of reading when buffers are given. -/
structure Reading (s : St) : Prop where
  eof : ∀ a ∈ s.sl.answers, a.kind = .read → a.ec = .eof → s.keof = true ∧ s.kin = [] ∧ s.ibuf = []
  wait : s.sl.slot .read ≠ none → s.rsize ≠ 0 ∧ s.ibuf = [] ∧ (s.gone = false → s.rdOn = true)

theorem Reading.resolve {s t : St} (h : Reading s) {kind : Kind} {ec : Ec} {d : List UInt8}
    (hc : kind ≠ .read ∨ ec ≠ .eof) (hr : kind = .read ∨ t.rdOn = s.rdOn)
    (hsl : t.sl = s.sl.resolve kind ec d) (hg : t.gone = s.gone)
    (hkin : t.kin = s.kin) (hke : t.keof = s.keof) (hi : t.ibuf = s.ibuf) (hrs : t.rsize = s.rsize) : Reading t := by
  refine ⟨?_, ?_⟩
  · intro a ha hk he
    rw [hsl] at ha
    rw [hke, hkin, hi]
    rcases resolve_answers ha with ha | ⟨_, ha⟩
    · exact h.eof a ha hk he
    · rcases hc with hc | hc
      · rw [ha] at hk; exact absurd hk hc
      · rw [ha] at he; exact absurd he hc
  · intro hs
    rw [hsl, resolve_slot] at hs
    by_cases hk : Kind.read = kind
    · rw [if_pos hk] at hs; exact absurd rfl hs
    · rw [if_neg hk] at hs
      obtain ⟨e1, e2, e3⟩ := h.wait hs
      rw [hrs, hi, hg]
      refine ⟨e1, e2, ?_⟩
      rcases hr with hr | hr
      · exact absurd hr.symm hk
      · rw [hr]; exact e3

theorem Reading.abort {s : St} (h : Reading s) : Reading s.abort := by
  unfold St.abort
  split
  · exact h
  · have h1 : Reading ({ s with sl := s.sl.resolve .connect .aborted [] } : St) :=
      h.resolve (.inl (by simp)) (.inr rfl) rfl rfl rfl rfl rfl rfl
    have h2 : Reading ({ s with sl := (s.sl.resolve .connect .aborted []).resolve .read .aborted [] } : St) :=
      h1.resolve (.inr (by simp)) (.inr rfl) rfl rfl rfl rfl rfl rfl
    exact h2.resolve (kind := .write) (.inl (by simp)) (.inr rfl) rfl rfl rfl rfl rfl rfl

theorem reading (ops : List Op) (hb : Buffers ops) : Reading (run ops) := by
  induction ops using snoc_ind with
  | nil => exact ⟨fun _ h => (by cases h), fun h => absurd rfl h⟩
  | snoc ops op ih =>
    have h := ih (fun h => hb (List.mem_append_left _ h))
    have hop : op ≠ .read 0 := fun e => hb (by rw [e]; simp)
    rw [run_snoc]
    generalize run ops = s at *
    rcases Bool.eq_false_or_eq_true s.gone with hg | hg
    · rw [gone_step hg]; exact h
    rw [step_eq hg]
    -- taking bytes from the input buffer
    have take : ∀ (t : St), t.ibuf ≠ [] → t.rsize ≠ 0 → (∀ a ∈ t.sl.answers, a.kind = .read → a.ec ≠ .eof) →
        Reading t.take := by
      intro t hi hr ha
      unfold St.take
      rw [if_neg (by intro e; rcases List.take_eq_nil_iff.1 e with e | e; exact hr e; exact hi e)]
      refine ⟨?_, ?_⟩
      · intro a ha' hk he
        rcases resolve_answers ha' with ha' | ⟨_, ha'⟩
        · exact absurd he (ha a ha' hk)
        · rw [ha'] at he; cases he
      · intro hs
        rw [resolve_slot, if_pos rfl] at hs
        exact absurd rfl hs
    cases op with
    | connect ok =>
      have hp : Reading ({ s with sl := s.sl.place .connect, rdOn := true, wrOn := true } : St) :=
        ⟨h.eof, fun hs => ⟨(h.wait hs).1, (h.wait hs).2.1, fun _ => rfl⟩⟩
      show Reading (s.connect ok)
      unfold St.connect
      dsimp only
      split
      · exact ⟨hp.eof, hp.wait⟩
      · exact hp.resolve (kind := .connect) (ec := .error) (d := []) (.inl (by simp)) (.inr rfl) rfl rfl rfl rfl rfl rfl
    | write d ok =>
      show Reading (s.write d ok)
      unfold St.write
      split
      · refine ⟨?_, h.wait⟩
        intro a ha hk he
        rcases List.mem_append.1 ha with ha | ha
        · exact h.eof a ha hk he
        · rw [List.mem_singleton.1 ha] at he; cases he
      · have hp : Reading ({ s with sl := s.sl.place .write, wrOn := true } : St) := ⟨h.eof, h.wait⟩
        dsimp only
        split
        · exact ⟨hp.eof, hp.wait⟩
        · exact hp.resolve (kind := .write) (ec := .error) (d := []) (.inl (by simp)) (.inr rfl) rfl rfl rfl rfl rfl rfl
    | read n =>
      have hn : n ≠ 0 := fun e => hop (by rw [e])
      show Reading (s.read n)
      unfold St.read
      split
      · refine ⟨?_, h.wait⟩
        intro a ha hk he
        rcases List.mem_append.1 ha with ha | ha
        · exact h.eof a ha hk he
        · rw [List.mem_singleton.1 ha] at he; cases he
      · dsimp only
        split
        · rename_i he
          have hi : s.ibuf = [] := by
            rcases List.take_eq_nil_iff.1 he with e | e
            · exact absurd e hn
            · exact e
          exact ⟨h.eof, fun _ => ⟨hn, hi, fun _ => rfl⟩⟩
        · rename_i he
          refine take _ ?_ hn ?_
          · intro e
            have e : s.ibuf = [] := e
            exact he (by rw [e]; simp)
          · intro a ha hk hec
            have : s.ibuf = [] := (h.eof a ha hk hec).2.2
            exact he (by rw [this]; simp)
    | abort => exact h.abort
    | destroy =>
      have h1 : Reading ({ s with gone := true, rdOn := false } : St) :=
        ⟨h.eof, fun hs => ⟨(h.wait hs).1, (h.wait hs).2.1, fun e => (by cases e)⟩⟩
      have h2 := h1.abort
      have e : ({ s with gone := true, rdOn := false } : St).abort = s.destroy := by
        unfold St.destroy St.abort
        dsimp only
        split <;> rfl
      rw [e] at h2
      exact h2
    | evConnected =>
      show Reading s.evConnected
      unfold St.evConnected
      split
      · exact h.resolve (kind := .connect) (.inl (by simp)) (.inr rfl) rfl rfl rfl rfl rfl rfl
      · exact h
    | evData n =>
      show Reading (s.evData n)
      unfold St.evData
      split
      · rename_i hc
        dsimp only
        have hno : ∀ a ∈ s.sl.answers, a.kind = .read → a.ec ≠ .eof :=
          fun a ha hk he => absurd (h.eof a ha hk he).2.1 hc.2.2
        split
        · rename_i hs
          refine take _ ?_ (h.wait (by intro e; rw [e] at hs; cases hs)).1 hno
          intro e
          have e : s.ibuf ++ s.kin.take (max 1 n) = [] := e
          rcases List.take_eq_nil_iff.1 (List.append_eq_nil_iff.1 e).2 with e | e
          · omega
          · exact hc.2.2 e
        · rename_i hs
          exact ⟨fun a ha hk he => absurd he (hno a ha hk), fun hs' => absurd (isNone_of hs) hs'⟩
      · exact h
    | evEof =>
      show Reading s.evEof
      unfold St.evEof
      split
      · rename_i hc
        refine ⟨?_, ?_⟩
        · intro a ha hk he
          rcases resolve_answers ha with ha | ⟨hs, ha⟩
          · rcases resolve_answers ha with ha | ⟨hs, ha⟩
            · exact h.eof a ha hk he
            · rw [ha] at hk; cases hk
          · obtain ⟨hs, _⟩ := resolve_slot_le hs
            exact ⟨hc.2.2.2, hc.2.2.1, (h.wait (by rw [hs]; simp)).2.1⟩
        · intro hs
          rw [resolve_slot, if_pos rfl] at hs
          exact absurd rfl hs
      · exact h
    | evError r =>
      have h1 : Reading ({ s with sl := s.sl.resolve .connect .aborted [] } : St) :=
        h.resolve (kind := .connect) (.inl (by simp)) (.inr rfl) rfl rfl rfl rfl rfl rfl
      show Reading (s.evError r)
      unfold St.evError
      split
      · split
        · exact h1.resolve (kind := .read) (ec := .aborted) (.inr (by simp)) (.inl rfl) rfl rfl rfl rfl rfl rfl
        · exact h
      · split
        · exact h1.resolve (kind := .read) (ec := .aborted) (.inr (by simp)) (.inl rfl) rfl rfl rfl rfl rfl rfl
        · exact h
    | evDrain n =>
      show Reading (s.evDrain n)
      unfold St.evDrain
      split
      · dsimp only
        split
        · have h1 : Reading ({ s with sl := s.sl.resolve .connect .ok [] } : St) :=
            h.resolve (kind := .connect) (.inl (by simp)) (.inr rfl) rfl rfl rfl rfl rfl rfl
          exact h1.resolve (kind := .write) (.inl (by simp)) (.inr rfl) rfl rfl rfl rfl rfl rfl
        · exact ⟨h.eof, h.wait⟩
      · exact h
    | peer l =>
      dsimp only
      split
      · exact h
      · rename_i hk
        exact ⟨fun a ha hr he => absurd (h.eof a ha hr he).1 hk, h.wait⟩
    | peerEof => exact ⟨fun a ha hk he => ⟨rfl, (h.eof a ha hk he).2⟩, h.wait⟩

/-- **C107** (libevent, reading).  In every history the bytes given to the reads are the first
bytes that the peer sent; a read that is told OK was given at least one byte and no more than its
buffer holds; and when a read is told that the stream has ended, the peer has closed and everything
it sent has been read.  Reads are given buffers that are not empty. -/
theorem C107_libevent_read (ops : List Op) :
    delivered (run ops).sl.answers <+: (run ops).peer ∧
    (∀ a ∈ (run ops).sl.answers, a.kind = .read → a.ec = .ok →
      ∃ n, (asks ops)[a.op]? = some (.read n) ∧ a.data ≠ [] ∧ a.data.length ≤ n) ∧
    (Buffers ops → ∀ a ∈ (run ops).sl.answers, a.kind = .read → a.ec = .eof →
      (run ops).keof = true ∧ delivered (run ops).sl.answers = (run ops).peer) := by
  have h := bytes ops
  refine ⟨⟨_, h.data⟩, h.readOk, fun hb a ha hk he => ?_⟩
  obtain ⟨e1, e2, e3⟩ := (reading ops hb).eof a ha hk he
  refine ⟨e1, ?_⟩
  have := h.data
  rw [e2, e3, List.append_nil, List.append_nil] at this
  exact this

/-- **C107** (libevent, writing).  In every history a write that is told OK has had all its bytes
handed to the system, in order, and none of them is sent again; a pending write the first of them;
and the bytes of a later write never come before those of an earlier one. -/
theorem C107_libevent_write (ops : List Op) :
    (∀ a ∈ (run ops).sl.answers, a.kind = .write → a.ec = .ok →
      ∃ d, (asks ops)[a.op]? = some (.write d true) ∧ sentOf a.op (run ops).out = d) ∧
    (∀ k, (run ops).sl.slot .write = some k →
      ∃ d, (asks ops)[k]? = some (.write d true) ∧ sentOf k (run ops).out <+: d) ∧
    ((run ops).out.map (·.1)).Pairwise (· ≤ ·) := by
  have h := bytes ops
  refine ⟨fun a ha hk he => ?_, fun k hk => ?_, ?_⟩
  · obtain ⟨d, e1, e2, _⟩ := h.writeOk a ha hk he
    exact ⟨d, e1, e2⟩
  · obtain ⟨d, e1, e2⟩ := h.write k hk
    rw [sentOf_append] at e2
    exact ⟨d, e1, ⟨_, e2⟩⟩
  · have := h.sorted
    rw [List.map_append, List.pairwise_append] at this
    exact this.1

/-- **C107** (libevent, progress).  A read that is pending waits for the network only: the input
buffer is empty and reading is enabled, so that bytes that come are given to it at once, and so is
the end of the stream.  A read asked for when bytes are in the buffer is told at once.  When the
system takes all that is left, the pending write is told. -/
theorem C107_libevent_prompt (ops : List Op) (hb : Buffers ops) (hg : (run ops).gone = false)
    (hc : (run ops).phase = .connected) (k : Nat) :
    ((run ops).sl.slot .read = some k → (run ops).kin ≠ [] → ∀ n, ∃ d, d ≠ [] ∧
      ⟨k, .read, .ok, d⟩ ∈ (run (ops ++ [.evData n])).sl.answers) ∧
    ((run ops).sl.slot .read = some k → (run ops).kin = [] → (run ops).keof = true →
      ⟨k, .read, .eof, []⟩ ∈ (run (ops ++ [.evEof])).sl.answers) ∧
    ((run ops).sl.slot .read = none → (run ops).ibuf ≠ [] → ∀ n, n ≠ 0 → ∃ d, d ≠ [] ∧
      ⟨(run ops).sl.asked, .read, .ok, d⟩ ∈ (run (ops ++ [.read n])).sl.answers) ∧
    ((run ops).sl.slot .write = some k → (run ops).wrOn = true → (run ops).obuf ≠ [] →
      ∀ n, (run ops).obuf.length ≤ n →
      ⟨k, .write, .ok, []⟩ ∈ (run (ops ++ [.evDrain n])).sl.answers) := by
  have hr := reading ops hb
  have full : ∀ (sl : Slots) kind ec d j, sl.slot kind = some j →
      (⟨j, kind, ec, d⟩ : Ans) ∈ (sl.resolve kind ec d).answers := by
    intro sl kind ec d j e
    unfold Slots.resolve
    rw [e]
    simp
  refine ⟨fun hk hne n => ?_, fun hk hkin hke => ?_, fun hk hi n hn => ?_, fun hk hw ho n hn => ?_⟩
  · obtain ⟨e1, e2, e3⟩ := hr.wait (by rw [hk]; simp)
    rw [run_snoc, step_eq hg]
    generalize run ops = s at *
    show ∃ d, d ≠ [] ∧ _ ∈ (s.evData n).sl.answers
    unfold St.evData
    rw [if_pos ⟨e3 hg, hc, hne⟩]
    dsimp only
    rw [if_pos (by rw [hk]; rfl)]
    unfold St.take
    have : ¬ (s.ibuf ++ s.kin.take (max 1 n)).take s.rsize = [] := by
      intro e
      rcases List.take_eq_nil_iff.1 e with e | e
      · exact e1 e
      · rcases List.take_eq_nil_iff.1 (List.append_eq_nil_iff.1 e).2 with e | e
        · omega
        · exact hne e
    rw [if_neg this]
    exact ⟨_, this, full _ _ _ _ _ hk⟩
  · obtain ⟨e1, e2, e3⟩ := hr.wait (by rw [hk]; simp)
    rw [run_snoc, step_eq hg]
    generalize run ops = s at *
    show _ ∈ s.evEof.sl.answers
    unfold St.evEof
    rw [if_pos ⟨e3 hg, hc, hkin, hke⟩]
    exact full _ _ _ _ _ (by rw [resolve_slot]; simp [hk])
  · rw [run_snoc, step_eq hg]
    generalize run ops = s at *
    show ∃ d, d ≠ [] ∧ _ ∈ (s.read n).sl.answers
    unfold St.read
    rw [hk]
    have : ¬ s.ibuf.take n = [] := by
      intro e
      rcases List.take_eq_nil_iff.1 e with e | e
      · exact hn e
      · exact hi e
    dsimp only
    rw [if_neg this]
    unfold St.take
    dsimp only
    rw [if_neg this]
    exact ⟨_, this, full _ _ _ _ _ (by rw [place_slot, if_pos rfl])⟩
  · rw [run_snoc, step_eq hg]
    generalize run ops = s at *
    show _ ∈ (s.evDrain n).sl.answers
    unfold St.evDrain
    rw [if_pos ⟨hw, hc, ho⟩]
    dsimp only
    rw [if_pos (List.drop_eq_nil_iff.2 hn)]
    exact full _ _ _ _ _ (by rw [resolve_slot]; simp [hk])

/-- Reads in pieces, two writes, and the end of the stream. -/
example : let ops := [.connect true, .evConnected, .write [1, 2, 3] true, .read 2, .peer [7, 8, 9], .evData 9,
      .evDrain 2, .evDrain 5, .write [4] true, .evDrain 1, .read 5, .peerEof, .read 1, .evEof]
    Buffers ops ∧ (run ops).out = [(1, 1), (1, 2), (1, 3), (3, 4)] ∧
    delivered (run ops).sl.answers = [7, 8, 9] ∧
    ⟨5, .read, .eof, []⟩ ∈ (run ops).sl.answers := by
  refine ⟨?_, ?_, ?_, ?_⟩ <;> first | decide | (unfold Buffers; decide)

end Verif.Net.Tcp.Lev
