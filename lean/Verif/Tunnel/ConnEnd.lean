import Verif.Tunnel.ConnStep
import Verif.Tunnel.ConnSpec

/-!
# One connection of a TCP tunnel — it ends after it was aborted
-/

namespace Verif.Tunnel.Conn

def TP.rank : TP → Nat
  | .wroteDone .ok => 3
  | .readDone _ => 2
  | .wroteDone _ => 1
  | .closeDone _ => 1
  | _ => 0

def SP.rank : SP → Nat
  | .wroteDone .ok => 2
  | .readDone .ok => 2
  | .readDone _ => 1
  | .wroteDone _ => 1
  | _ => 0

def Abs.rank : Abs → Nat
  | .connDone _ => 5
  | .both t u => t.rank + u.rank
  | _ => 0

/-- What a step of an aborted connection leads to. -/
def Less (s : St) (n : Nat) : Prop := ∃ a d, s = conc a d ∧ d.aborted = true ∧ a.rank ≤ n

theorem isEnded_less_t (u : SP) (d : Data) (n : Nat) (ha : d.aborted = true) (h : u.rank ≤ n) :
    Less (conc (.both .ended u) d).isEnded n := by
  cases u with
  | ended => exact ⟨.gone true true, { abD d with listed := false }, theEnd_ended d, rfl, Nat.zero_le _⟩
  | reading => exact ⟨.both .ended .reading, d, rfl, ha, by simpa [Abs.rank, TP.rank] using h⟩
  | readDone e => exact ⟨.both .ended (.readDone e), d, rfl, ha, by simpa [Abs.rank, TP.rank] using h⟩
  | writing w => exact ⟨.both .ended (.writing w), d, rfl, ha, by simpa [Abs.rank, TP.rank] using h⟩
  | wroteDone e => exact ⟨.both .ended (.wroteDone e), d, rfl, ha, by simpa [Abs.rank, TP.rank] using h⟩
  | idle => exact ⟨.both .ended .idle, d, rfl, ha, by simpa [Abs.rank, TP.rank] using h⟩

theorem isEnded_less_s (t : TP) (d : Data) (n : Nat) (ha : d.aborted = true) (h : t.rank ≤ n) :
    Less (conc (.both t .ended) d).isEnded n := by
  cases t with
  | ended => exact ⟨.gone true true, { abD d with listed := false }, theEnd_ended d, rfl, Nat.zero_le _⟩
  | reading => exact ⟨.both .reading .ended, d, rfl, ha, by simpa [Abs.rank, SP.rank] using h⟩
  | readDone e => exact ⟨.both (.readDone e) .ended, d, rfl, ha, by simpa [Abs.rank, SP.rank] using h⟩
  | writing w => exact ⟨.both (.writing w) .ended, d, rfl, ha, by simpa [Abs.rank, SP.rank] using h⟩
  | wroteDone e => exact ⟨.both (.wroteDone e) .ended, d, rfl, ha, by simpa [Abs.rank, SP.rank] using h⟩
  | closing => exact ⟨.both .closing .ended, d, rfl, ha, by simpa [Abs.rank, SP.rank] using h⟩
  | closeDone e => exact ⟨.both (.closeDone e) .ended, d, rfl, ha, by simpa [Abs.rank, SP.rank] using h⟩
  | idle => exact ⟨.both .idle .ended, d, rfl, ha, by simpa [Abs.rank, SP.rank] using h⟩

theorem abort_aborted (t : TP) (u : SP) (d : Data) (ha : d.aborted = true) (hs : d.stopped = true) :
    (conc (.both t u) d).abort = conc (.both t u) d := by
  rw [St.abort, tcpAbort_both' t u d ha]
  exact streamStop_stopped _ hs

theorem step_less (a : Abs) (d : Data) (h : Ok true a d) (ha : d.aborted = true) (op : Op) :
    ∃ a' d', step true (conc a d) op = conc a' d' ∧ d'.aborted = true ∧
      a'.rank + (if Spec.runs (conc a d) op then 1 else 0) ≤ a.rank := by
  have hs : d.stopped = true := h.1.1 ha
  have same : Spec.runs (conc a d) op = false → step true (conc a d) op = conc a d → ∃ a' d',
      step true (conc a d) op = conc a' d' ∧ d'.aborted = true ∧
      a'.rank + (if Spec.runs (conc a d) op then 1 else 0) ≤ a.rank :=
    fun h1 h2 => ⟨a, d, h2, ha, by rw [h1]; exact Nat.le_refl _⟩
  have less : ∀ n, Less (step true (conc a d) op) n → n + 1 ≤ a.rank → ∃ a' d',
      step true (conc a d) op = conc a' d' ∧ d'.aborted = true ∧
      a'.rank + (if Spec.runs (conc a d) op then 1 else 0) ≤ a.rank := by
    rintro n ⟨a', d', e, h1, h2⟩ h3
    exact ⟨a', d', e, h1, by split <;> omega⟩
  have stopd : ∀ (t : TP) (u : SP), a = .both t u → (∀ w, t ≠ .writing w) ∧ t ≠ .closing ∧ u ≠ .reading ∧
      t ≠ .reading ∧ (∀ w, u ≠ .writing w) := by
    rintro t u rfl
    obtain ⟨-, ht, hu, hq, -⟩ := h
    refine ⟨?_, ?_, ?_, (hq rfl ha).1, (hq rfl ha).2⟩
    · rintro w rfl; exact absurd (hs.symm.trans ht.2.2.2) (by decide)
    · rintro rfl; exact absurd (hs.symm.trans ht.2) (by decide)
    · rintro rfl; exact absurd (hs.symm.trans hu.2.2) (by decide)
  have failT : ∀ (u : SP), Less { (conc (.both .idle u) d).abort with tcpReadEnded := true }.isEnded u.rank := by
    intro u
    rw [abort_aborted _ _ _ ha hs]
    exact isEnded_less_t u d _ ha (Nat.le_refl _)
  have failS : ∀ (t : TP), Less { (conc (.both t .idle) d).abort with streamReadEnded := true }.isEnded t.rank := by
    intro t
    rw [abort_aborted _ _ _ ha hs]
    exact isEnded_less_s t d _ ha (Nat.le_refl _)
  cases op with
  | connectDone e =>
    cases a with
    | connecting => exact absurd (ha.symm.trans h.2.1) (by decide)
    | _ => exact same rfl rfl
  | tcpData w =>
    cases a with
    | both t u =>
      cases t with
      | reading => exact absurd rfl (stopd _ _ rfl).2.2.2.1
      | _ => exact same rfl rfl
    | _ => exact same rfl rfl
  | tcpEnd e =>
    cases a with
    | both t u =>
      cases t with
      | reading => exact absurd rfl (stopd _ _ rfl).2.2.2.1
      | _ => exact same rfl rfl
    | _ => exact same rfl rfl
  | tcpWrote n =>
    cases a with
    | both t u =>
      cases u with
      | writing w => exact absurd rfl ((stopd _ _ rfl).2.2.2.2 w)
      | _ => exact same rfl rfl
    | _ => exact same rfl rfl
  | tcpWriteFail e =>
    cases a with
    | both t u =>
      cases u with
      | writing w => exact absurd rfl ((stopd _ _ rfl).2.2.2.2 w)
      | _ => exact same rfl rfl
    | _ => exact same rfl rfl
  | streamData w =>
    cases a with
    | both t u =>
      cases u with
      | reading => exact absurd rfl (stopd _ _ rfl).2.2.1
      | _ => exact same rfl rfl
    | _ => exact same rfl rfl
  | streamEnd e =>
    cases a with
    | both t u =>
      cases u with
      | reading => exact absurd rfl (stopd _ _ rfl).2.2.1
      | _ => exact same rfl rfl
    | _ => exact same rfl rfl
  | streamWrote n =>
    cases a with
    | both t u =>
      cases t with
      | writing w => exact absurd rfl ((stopd _ _ rfl).1 w)
      | _ => exact same rfl rfl
    | _ => exact same rfl rfl
  | streamWriteFail e =>
    cases a with
    | both t u =>
      cases t with
      | writing w => exact absurd rfl ((stopd _ _ rfl).1 w)
      | _ => exact same rfl rfl
    | _ => exact same rfl rfl
  | streamClosed e =>
    cases a with
    | both t u =>
      cases t with
      | closing => exact absurd rfl (stopd _ _ rfl).2.1
      | _ => exact same rfl rfl
    | _ => exact same rfl rfl
  | streamStop =>
    have : (conc a d).stopped = true := by cases a <;> exact hs
    exact same rfl (streamStop_stopped _ this)
  | managerStop =>
    cases hl : d.listed with
    | false =>
      have : ¬ (conc a d).listed = true := by
        have : (conc a d).listed = d.listed := by cases a <;> rfl
        rw [this, hl]; decide
      exact same rfl (by rw [step, if_neg this])
    | true =>
      have hd : { d with listed := false }.aborted = true := ha
      refine ⟨a, { d with listed := false }, ?_, ha, by show a.rank + 0 ≤ a.rank; exact Nat.le_refl _⟩
      have : (conc a d).listed = true := by cases a <;> exact hl
      rw [step, if_pos this]
      obtain ⟨ab, f, st, c, tb, sb, l, g1, g2, g3, g4, e1, e2⟩ := d
      cases ha; cases hs; cases hl
      cases a with
      | gone x y => exact absurd h.2.2.2.2.2.2.2 (fun c => nomatch c)
      | _ => rfl
  | runConn =>
    cases a with
    | connDone e =>
      refine less 4 ?_ (Nat.le_refl _)
      show Less ((conc (.both .idle .idle) d).onConn true e) 4
      rw [St.onConn]
      split
      · exact ⟨_, _, theEnd_idle d, rfl, Nat.zero_le _⟩
      · rw [tcpRead_idle, streamRead_idle, if_pos hs, ha]
        exact ⟨_, _, rfl, ha, by decide⟩
    | _ => exact same rfl rfl
  | runTRead =>
    cases a with
    | both t u =>
      cases t with
      | readDone e =>
        refine less (1 + u.rank) ?_ (by show 1 + u.rank + 1 ≤ 2 + u.rank; omega)
        show Less ((conc (.both .idle u) d).onTRead e) _
        rw [St.onTRead]
        split
        · rw [streamClose_idle, if_pos hs]
          exact ⟨_, _, rfl, ha, Nat.le_refl _⟩
        · split
          · rename_i he
            subst he
            rw [streamWrite_idle _ _ _ h.2.1.2.2.2, if_pos hs]
            exact ⟨_, _, rfl, ha, Nat.le_refl _⟩
          · obtain ⟨a', d', h1, h2, h3⟩ := failT u
            exact ⟨a', d', h1, h2, by omega⟩
      | _ => exact same rfl rfl
    | _ => exact same rfl rfl
  | runTWrite =>
    cases a with
    | both t u =>
      cases u with
      | wroteDone e =>
        by_cases he : e = .ok
        · subst he
          refine less (t.rank + 1) ?_ (by show t.rank + 1 + 1 ≤ t.rank + 2; omega)
          show Less ((conc (.both t .idle) d).onTWrite .ok) _
          rw [St.onTWrite, if_neg (by decide), streamRead_idle, if_pos hs]
          exact ⟨_, _, rfl, ha, Nat.le_refl _⟩
        · refine less t.rank ?_ ?_
          · show Less ((conc (.both t .idle) d).onTWrite e) _
            rw [St.onTWrite, if_pos he]
            exact failS t
          · show t.rank + 1 ≤ t.rank + (SP.wroteDone e).rank
            cases e <;> first | exact absurd rfl he | exact Nat.le_refl _
      | _ => exact same rfl rfl
    | _ => exact same rfl rfl
  | runSRead =>
    cases a with
    | both t u =>
      cases u with
      | readDone e =>
        have h0 : (conc (.both t .idle) d).sBuf = d.sBuf := rfl
        by_cases hx : d.sBuf.length = 0 ∨ e = .eof
        · refine less t.rank ?_ ?_
          · show Less ((conc (.both t .idle) d).onSRead true e) _
            rw [St.onSRead, h0, if_pos hx]
            exact isEnded_less_s t { d with fin := true } _ ha (Nat.le_refl _)
          · show t.rank + 1 ≤ t.rank + (SP.readDone e).rank
            cases e <;> simp [SP.rank]
        · by_cases he : e = .ok
          · subst he
            refine less (t.rank + 1) ?_ (by show t.rank + 1 + 1 ≤ t.rank + 2; omega)
            show Less ((conc (.both t .idle) d).onSRead true .ok) _
            rw [St.onSRead, h0, if_neg hx, if_neg (by decide), tcpWrite_idle, ha]
            exact ⟨_, _, rfl, ha, Nat.le_refl _⟩
          · refine less t.rank ?_ ?_
            · show Less ((conc (.both t .idle) d).onSRead true e) _
              rw [St.onSRead, h0, if_neg hx, if_pos he]
              exact failS t
            · show t.rank + 1 ≤ t.rank + (SP.readDone e).rank
              cases e <;> simp [SP.rank]
      | _ => exact same rfl rfl
    | _ => exact same rfl rfl
  | runSWrite =>
    cases a with
    | both t u =>
      cases t with
      | wroteDone e =>
        by_cases he : e = .ok
        · subst he
          refine less (2 + u.rank) ?_ (by show 2 + u.rank + 1 ≤ 3 + u.rank; omega)
          show Less ((conc (.both .idle u) d).onSWrite true .ok) _
          rw [St.onSWrite, if_neg (by decide), tcpRead_idle, ha]
          exact ⟨_, _, rfl, ha, Nat.le_refl _⟩
        · refine less u.rank ?_ ?_
          · show Less ((conc (.both .idle u) d).onSWrite true e) _
            rw [St.onSWrite, if_pos he]
            exact failT u
          · show u.rank + 1 ≤ (TP.wroteDone e).rank + u.rank
            cases e <;> first | exact absurd rfl he | (simp only [TP.rank]; omega)
      | _ => exact same rfl rfl
    | _ => exact same rfl rfl
  | runSClose =>
    cases a with
    | both t u =>
      cases t with
      | closeDone e =>
        refine less u.rank ?_ (by show u.rank + 1 ≤ 1 + u.rank; omega)
        exact isEnded_less_t u d _ ha (Nat.le_refl _)
      | _ => exact same rfl rfl
    | _ => exact same rfl rfl

/-- An aborted connection which is not freed has an event in the queue. -/
theorem rank_pos (a : Abs) (d : Data) (h : Ok true a d) (ha : d.aborted = true) (hf : (conc a d).freed = false) :
    0 < a.rank ∧ Spec.Waits (conc a d) := by
  have hs : d.stopped = true := h.1.1 ha
  cases a with
  | connecting => exact absurd (ha.symm.trans h.2.1) (by decide)
  | connDone e => exact ⟨Nat.zero_lt_succ _, Or.inl (fun c => nomatch c)⟩
  | gone x y => cases hf
  | both t u =>
    obtain ⟨hd, ht, hu, hq, hn⟩ := h
    obtain ⟨q1, q2⟩ := hq rfl ha
    cases t with
    | reading => exact absurd rfl q1
    | writing w => exact absurd (hs.symm.trans ht.2.2.2) (by decide)
    | closing => exact absurd (hs.symm.trans ht.2) (by decide)
    | idle => exact ht.elim
    | readDone e => exact ⟨by show 0 < 2 + u.rank; omega, Or.inr (Or.inl (fun c => nomatch c))⟩
    | wroteDone e =>
      refine ⟨?_, Or.inr (Or.inr (Or.inr (Or.inr (Or.inl (fun c => nomatch c)))))⟩
      show 0 < (TP.wroteDone e).rank + u.rank
      cases e <;> (simp only [TP.rank]; omega)
    | closeDone e => exact ⟨by show 0 < 1 + u.rank; omega, Or.inr (Or.inr (Or.inr (Or.inr (Or.inr (fun c => nomatch c)))))⟩
    | ended =>
      cases u with
      | reading => exact absurd (hs.symm.trans hu.2.2) (by decide)
      | writing w => exact absurd rfl (q2 w)
      | idle => exact hu.elim
      | ended => exact absurd ⟨rfl, rfl⟩ hn
      | readDone e =>
        refine ⟨?_, Or.inr (Or.inr (Or.inr (Or.inl (fun c => nomatch c))))⟩
        cases e <;> decide
      | wroteDone e =>
        refine ⟨?_, Or.inr (Or.inr (Or.inl (fun c => nomatch c)))⟩
        cases e <;> decide

theorem rank_le (a : Abs) : a.rank ≤ 5 := by
  cases a with
  | both t u =>
    have h1 : t.rank ≤ 3 := by unfold TP.rank; split <;> decide
    have h2 : u.rank ≤ 2 := by unfold SP.rank; split <;> decide
    show t.rank + u.rank ≤ 5
    omega
  | connDone e => exact Nat.le_refl _
  | _ => exact Nat.zero_le _

/-! ### The description of a state is unique -/

def dataOf (s : St) : Data :=
  ⟨s.aborted, s.fin, s.stopped, s.closed, s.tBuf, s.sBuf, s.listed, s.gotTcp, s.putStream, s.gotStream, s.putTcp, s.tEof,
    s.sEof⟩

theorem dataOf_conc (a : Abs) (d : Data) : dataOf (conc a d) = d := by cases a <;> rfl

def absOf (s : St) : Abs :=
  if s.freed then .gone s.tcpReadEnded s.streamReadEnded
  else if s.tConn then .connecting
  else match s.eConn with
    | some e => .connDone e
    | none =>
      .both
        (if s.tRead then .reading else match s.eTRead with
          | some e => .readDone e
          | none => match s.sWrite with
            | some w => .writing w
            | none => match s.eSWrite with
              | some e => .wroteDone e
              | none => if s.sClose then .closing else match s.eSClose with
                | some e => .closeDone e
                | none => if s.tcpReadEnded then .ended else .idle)
        (if s.sRead then .reading else match s.eSRead with
          | some e => .readDone e
          | none => match s.tWrite with
            | some w => .writing w
            | none => match s.eTWrite with
              | some e => .wroteDone e
              | none => if s.streamReadEnded then .ended else .idle)

theorem absOf_conc (a : Abs) (d : Data) : absOf (conc a d) = a := by
  cases a with
  | both t u => cases t <;> cases u <;> rfl
  | _ => rfl

/-- After as many events as the rank of the state, the connection is freed. -/
theorem ran_freed (ops : List Op) (a : Abs) (d : Data) (h : Ok true a d) (ha : d.aborted = true)
    (hr : a.rank ≤ Spec.ran true (conc a d) ops) : (ops.foldl (step true) (conc a d)).freed = true := by
  induction ops generalizing a d with
  | nil =>
    cases hf : (conc a d).freed with
    | true => exact hf
    | false =>
      have := (rank_pos a d h ha hf).1
      have : a.rank ≤ 0 := hr
      omega
  | cons op ops ih =>
    obtain ⟨a1, d1, e1, h1⟩ := step_ok true a d h op
    obtain ⟨a', d', e', h2, h3⟩ := step_less a d h ha op
    have hr' : a.rank ≤ (if Spec.runs (conc a d) op then 1 else 0) + Spec.ran true (step true (conc a d) op) ops := hr
    show (ops.foldl (step true) (step true (conc a d) op)).freed = true
    rw [e'] at hr' e1 ⊢
    have ea : a' = a1 := by rw [← absOf_conc a' d', ← absOf_conc a1 d1, e1]
    have ed : d' = d1 := by rw [← dataOf_conc a' d', ← dataOf_conc a1 d1, e1]
    subst ea; subst ed
    exact ih a' d' h1 h2 (by omega)

theorem foldl_fixed (checks : Bool) (s : St) (more : List Op) (h : ∀ op ∈ more, step checks s op = s) :
    more.foldl (step checks) s = s := by
  induction more with
  | nil => rfl
  | cons op more ih =>
    rw [List.foldl_cons, h op (List.mem_cons_self ..)]
    exact ih fun o ho => h o (List.mem_cons_of_mem _ ho)

/-! ### The last callback -/

theorem isEnded_t_freed (u : SP) (d : Data) (h : (conc (.both .ended u) d).isEnded.freed = true) : u = .ended := by
  cases u <;> first | rfl | cases h

theorem isEnded_s_freed (t : TP) (d : Data) (h : (conc (.both t .ended) d).isEnded.freed = true) : t = .ended := by
  cases t <;> first | rfl | cases h

theorem failT_freed (u : SP) (d : Data) (hd : DOk d)
    (h : { (conc (.both .idle u) d).abort with tcpReadEnded := true }.isEnded.freed = true) : u = .ended := by
  have e1 : { (conc (.both .idle u) d).abort with tcpReadEnded := true }
      = conc (.both .ended (u.abt d)) (abD d) := by
    rw [abort_both _ _ _ hd]
    have : TP.idle.abt d = .idle := by
      unfold TP.abt
      cases d.aborted <;> cases d.stopped <;> rfl
    rw [this]; rfl
  rw [e1] at h
  exact (abt_s_ended u d).1 (isEnded_t_freed _ _ h)

theorem failS_freed (t : TP) (d : Data) (hd : DOk d)
    (h : { (conc (.both t .idle) d).abort with streamReadEnded := true }.isEnded.freed = true) : t = .ended := by
  have e1 : { (conc (.both t .idle) d).abort with streamReadEnded := true }
      = conc (.both (t.abt d) .ended) (abD d) := by
    rw [abort_both _ _ _ hd]
    have : SP.idle.abt d = .idle := by
      unfold SP.abt
      cases d.aborted <;> cases d.stopped <;> rfl
    rw [this]; rfl
  rw [e1] at h
  exact (abt_t_ended t d).1 (isEnded_s_freed _ _ h)

/-- The step which frees a connection runs the only event it waits for. -/
theorem freed_last (checks : Bool) (a : Abs) (d : Data) (hok : Ok checks a d) (op : Op)
    (h0 : (conc a d).freed = false) (h : (step checks (conc a d) op).freed = true) :
    Spec.runs (conc a d) op = true ∧
    ((∃ e, a = .connDone e ∧ op = .runConn) ∨
     ∃ t u, a = .both t u ∧
      ((∃ e, t = .readDone e ∧ u = .ended ∧ op = .runTRead) ∨ (∃ e, t = .wroteDone e ∧ u = .ended ∧ op = .runSWrite) ∨
       (∃ e, t = .closeDone e ∧ u = .ended ∧ op = .runSClose) ∨ (∃ e, t = .ended ∧ u = .readDone e ∧ op = .runSRead) ∨
       (∃ e, t = .ended ∧ u = .wroteDone e ∧ op = .runTWrite))) := by
  have no : ∀ {p : Prop}, step checks (conc a d) op = conc a d → p := by
    intro p e
    rw [e] at h
    exact absurd (h0.symm.trans h) (by decide)
  have hd : DOk d := hok.1
  cases op with
  | connectDone e =>
    cases a with
    | connecting => cases h
    | _ => exact no rfl
  | tcpData w =>
    rw [step] at h
    split at h
    · exact absurd (h0.symm.trans h) (by decide)
    · exact absurd (h0.symm.trans h) (by decide)
  | tcpEnd e =>
    rw [step] at h
    split at h
    · exact absurd (h0.symm.trans h) (by decide)
    · exact absurd (h0.symm.trans h) (by decide)
  | tcpWrote n =>
    rw [step] at h
    split at h
    · exact absurd (h0.symm.trans h) (by decide)
    · split at h
      · exact absurd (h0.symm.trans h) (by decide)
      · split at h <;> exact absurd (h0.symm.trans h) (by decide)
  | tcpWriteFail e =>
    rw [step] at h
    split at h <;> exact absurd (h0.symm.trans h) (by decide)
  | streamData w =>
    rw [step] at h
    split at h <;> exact absurd (h0.symm.trans h) (by decide)
  | streamEnd e =>
    rw [step] at h
    split at h <;> exact absurd (h0.symm.trans h) (by decide)
  | streamWrote n =>
    rw [step] at h
    split at h
    · exact absurd (h0.symm.trans h) (by decide)
    · split at h
      · exact absurd (h0.symm.trans h) (by decide)
      · split at h <;> exact absurd (h0.symm.trans h) (by decide)
  | streamWriteFail e =>
    rw [step] at h
    split at h <;> exact absurd (h0.symm.trans h) (by decide)
  | streamClosed e =>
    rw [step] at h
    split at h <;> exact absurd (h0.symm.trans h) (by decide)
  | streamStop =>
    cases hs : d.stopped with
    | true =>
      have : (conc a d).stopped = true := by cases a <;> exact hs
      exact no (streamStop_stopped _ this)
    | false =>
      obtain ⟨ab, f, st, c, tb, sb, l, g1, g2, g3, g4, e1, e2⟩ := d
      cases hs
      cases a with
      | both t u =>
        have h : (conc (.both t u) _).streamStop.freed = true := h
        rw [streamStop_both _ _ _ rfl] at h
        cases h
      | gone x y => cases h0
      | _ => cases h
  | managerStop =>
    rw [step] at h
    split at h
    · cases a with
      | both t u =>
        have h : (conc (.both t u) { d with listed := false }).abort.freed = true := h
        rw [abort_both t u { d with listed := false } hd] at h
        cases h
      | gone x y => cases h0
      | connecting =>
        obtain ⟨ab, f, st, c, tb, sb, l, g1, g2, g3, g4, e1, e2⟩ := d
        cases ab <;> cases st <;> cases h
      | connDone e =>
        obtain ⟨ab, f, st, c, tb, sb, l, g1, g2, g3, g4, e1, e2⟩ := d
        cases ab <;> cases st <;> cases h
    · exact absurd (h0.symm.trans h) (by decide)
  | runConn =>
    cases a with
    | connDone e => exact ⟨rfl, Or.inl ⟨e, rfl, rfl⟩⟩
    | _ => exact no rfl
  | runTRead =>
    cases a with
    | both t u =>
      cases t with
      | readDone e =>
        refine ⟨rfl, Or.inr ⟨_, _, rfl, Or.inl ⟨e, rfl, ?_, rfl⟩⟩⟩
        have h : ((conc (.both .idle u) d).onTRead e).freed = true := h
        rw [St.onTRead] at h
        split at h
        · rw [streamClose_idle] at h
          split at h <;> cases h
        · split at h
          · rw [streamWrite_idle _ _ _ hok.2.1.2.2.2] at h
            cases h
          · exact failT_freed u d hd h
      | _ => exact no rfl
    | _ => exact no rfl
  | runTWrite =>
    cases a with
    | both t u =>
      cases u with
      | wroteDone e =>
        refine ⟨rfl, Or.inr ⟨_, _, rfl, Or.inr (Or.inr (Or.inr (Or.inr ⟨e, ?_, rfl, rfl⟩)))⟩⟩
        have h : ((conc (.both t .idle) d).onTWrite e).freed = true := h
        rw [St.onTWrite] at h
        split at h
        · exact failS_freed t d hd h
        · rw [streamRead_idle] at h
          split at h <;> cases h
      | _ => exact no rfl
    | _ => exact no rfl
  | runSRead =>
    cases a with
    | both t u =>
      cases u with
      | readDone e =>
        refine ⟨rfl, Or.inr ⟨_, _, rfl, Or.inr (Or.inr (Or.inr (Or.inl ⟨e, ?_, rfl, rfl⟩)))⟩⟩
        have h : ((conc (.both t .idle) d).onSRead checks e).freed = true := h
        rw [St.onSRead] at h
        split at h
        · exact isEnded_s_freed t { d with fin := true } h
        · split at h
          · exact failS_freed t d hd h
          · rw [tcpWrite_idle] at h
            cases h
      | _ => exact no rfl
    | _ => exact no rfl
  | runSWrite =>
    cases a with
    | both t u =>
      cases t with
      | wroteDone e =>
        refine ⟨rfl, Or.inr ⟨_, _, rfl, Or.inr (Or.inl ⟨e, rfl, ?_, rfl⟩)⟩⟩
        have h : ((conc (.both .idle u) d).onSWrite checks e).freed = true := h
        rw [St.onSWrite] at h
        split at h
        · exact failT_freed u d hd h
        · rw [tcpRead_idle] at h
          cases h
      | _ => exact no rfl
    | _ => exact no rfl
  | runSClose =>
    cases a with
    | both t u =>
      cases t with
      | closeDone e =>
        exact ⟨rfl, Or.inr ⟨_, _, rfl, Or.inr (Or.inr (Or.inl ⟨e, rfl, isEnded_t_freed u d h, rfl⟩))⟩⟩
      | _ => exact no rfl
    | _ => exact no rfl

end Verif.Tunnel.Conn
