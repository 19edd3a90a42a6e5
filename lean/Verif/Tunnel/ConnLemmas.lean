import Verif.Tunnel.Conn

/-!
# One connection of a TCP tunnel — lemmas

A state is described by what each direction waits for (`TP`, `SP`) and by the data (`Data`). Every reachable state has
such a description (`run_desc`).
-/

namespace Verif.Tunnel.Conn

/-- What the direction from the socket to the stream waits for. -/
inductive TP
  | reading
  | readDone (e : Ec)
  | writing (w : List UInt8)
  | wroteDone (e : Ec)
  | closing
  | closeDone (e : Ec)
  | ended
  /-- in the middle of a callback -/
  | idle

/-- What the direction from the stream to the socket waits for. -/
inductive SP
  | reading
  | readDone (e : Ec)
  | writing (w : List UInt8)
  | wroteDone (e : Ec)
  | ended
  | idle

/-- What the connection waits for. -/
inductive Abs
  | connecting
  | connDone (e : Ec)
  | both (t : TP) (u : SP)
  | gone (a b : Bool)

structure Data where
  aborted : Bool
  fin : Bool
  stopped : Bool
  closed : Bool
  tBuf : List UInt8
  sBuf : List UInt8
  listed : Bool
  gotTcp : List UInt8
  putStream : List UInt8
  gotStream : List UInt8
  putTcp : List UInt8
  tEof : Bool
  sEof : Bool

def conc : Abs → Data → St
  | .connecting, d =>
    { tConn := true, tRead := false, tWrite := none, aborted := d.aborted, fin := d.fin, sRead := false,
      sWrite := none, sClose := false, stopped := d.stopped, closed := d.closed, eConn := none, eTRead := none,
      eTWrite := none, eSRead := none, eSWrite := none, eSClose := none, tBuf := d.tBuf, sBuf := d.sBuf,
      tcpReadEnded := false, streamReadEnded := false, listed := d.listed, freed := false, bad := false,
      gotTcp := d.gotTcp, putStream := d.putStream, gotStream := d.gotStream, putTcp := d.putTcp, tEof := d.tEof,
      sEof := d.sEof }
  | .connDone e, d =>
    { tConn := false, tRead := false, tWrite := none, aborted := d.aborted, fin := d.fin, sRead := false,
      sWrite := none, sClose := false, stopped := d.stopped, closed := d.closed, eConn := some e, eTRead := none,
      eTWrite := none, eSRead := none, eSWrite := none, eSClose := none, tBuf := d.tBuf, sBuf := d.sBuf,
      tcpReadEnded := false, streamReadEnded := false, listed := d.listed, freed := false, bad := false,
      gotTcp := d.gotTcp, putStream := d.putStream, gotStream := d.gotStream, putTcp := d.putTcp, tEof := d.tEof,
      sEof := d.sEof }
  | .both t u, d =>
    { tConn := false
      tRead := match t with | .reading => true | _ => false
      tWrite := match u with | .writing w => some w | _ => none
      aborted := d.aborted, fin := d.fin
      sRead := match u with | .reading => true | _ => false
      sWrite := match t with | .writing w => some w | _ => none
      sClose := match t with | .closing => true | _ => false
      stopped := d.stopped, closed := d.closed, eConn := none
      eTRead := match t with | .readDone e => some e | _ => none
      eTWrite := match u with | .wroteDone e => some e | _ => none
      eSRead := match u with | .readDone e => some e | _ => none
      eSWrite := match t with | .wroteDone e => some e | _ => none
      eSClose := match t with | .closeDone e => some e | _ => none
      tBuf := d.tBuf, sBuf := d.sBuf
      tcpReadEnded := match t with | .ended => true | _ => false
      streamReadEnded := match u with | .ended => true | _ => false
      listed := d.listed, freed := false, bad := false,
      gotTcp := d.gotTcp, putStream := d.putStream, gotStream := d.gotStream, putTcp := d.putTcp, tEof := d.tEof,
      sEof := d.sEof }
  | .gone a b, d =>
    { tConn := false, tRead := false, tWrite := none, aborted := d.aborted, fin := d.fin, sRead := false,
      sWrite := none, sClose := false, stopped := d.stopped, closed := d.closed, eConn := none, eTRead := none,
      eTWrite := none, eSRead := none, eSWrite := none, eSClose := none, tBuf := d.tBuf, sBuf := d.sBuf,
      tcpReadEnded := a, streamReadEnded := b, listed := d.listed, freed := true, bad := false,
      gotTcp := d.gotTcp, putStream := d.putStream, gotStream := d.gotStream, putTcp := d.putTcp, tEof := d.tEof,
      sEof := d.sEof }

/-! ### Invariant -/

/-- The bytes on the way to the stream. -/
def TOk (t : TP) (d : Data) : Prop :=
  match t with
  | .reading => d.gotTcp = d.putStream ∧ d.closed = false
  | .readDone e => (e = .ok → d.gotTcp = d.putStream ++ d.tBuf ∧ d.tBuf ≠ []) ∧ (e ≠ .ok → d.gotTcp = d.putStream) ∧
      (e = .eof → d.tEof = true) ∧ d.closed = false
  | .writing w => d.gotTcp = d.putStream ++ w ∧ w ≠ [] ∧ d.closed = false ∧ d.stopped = false
  | .wroteDone e => (e = .ok → d.gotTcp = d.putStream) ∧ d.putStream <+: d.gotTcp ∧ d.closed = false
  | .closing => d.gotTcp = d.putStream ∧ d.stopped = false
  | .closeDone _ => d.gotTcp = d.putStream
  | .ended => d.putStream <+: d.gotTcp ∧ (d.closed = true → d.gotTcp = d.putStream)
  | .idle => False

/-- The bytes on the way to the socket. -/
def SOk (u : SP) (d : Data) : Prop :=
  match u with
  | .reading => d.gotStream = d.putTcp ∧ d.fin = false ∧ d.stopped = false
  | .readDone e => (e = .ok → d.gotStream = d.putTcp ++ d.sBuf ∧ d.sBuf ≠ []) ∧ (e ≠ .ok → d.gotStream = d.putTcp) ∧
      d.fin = false
  | .writing w => d.gotStream = d.putTcp ++ w ∧ w ≠ [] ∧ d.fin = false
  | .wroteDone e => (e = .ok → d.gotStream = d.putTcp) ∧ d.putTcp <+: d.gotStream ∧ d.fin = false
  | .ended => d.putTcp <+: d.gotStream ∧ (d.fin = true → d.gotStream = d.putTcp)
  | .idle => False

/-- What always holds of the data. -/
def DOk (d : Data) : Prop :=
  (d.aborted = true → d.stopped = true) ∧ (d.tBuf = [] ↔ d.gotTcp = []) ∧
  (d.closed = true → d.tEof = true ∨ d.gotTcp = [])

/-- With an implementation which looks at `aborted`, nothing waits for the network on an aborted socket. -/
def Quiet (checks : Bool) (t : TP) (u : SP) (d : Data) : Prop :=
  checks = true → d.aborted = true → (t ≠ .reading ∧ ∀ w, u ≠ .writing w)

def Ok (checks : Bool) (a : Abs) (d : Data) : Prop :=
  DOk d ∧
  match a with
  | .connecting => d.aborted = false ∧ d.gotTcp = [] ∧ d.putStream = [] ∧ d.gotStream = [] ∧ d.putTcp = [] ∧
      d.closed = false ∧ d.fin = false
  | .connDone _ => d.gotTcp = [] ∧ d.putStream = [] ∧ d.gotStream = [] ∧ d.putTcp = [] ∧
      d.closed = false ∧ d.fin = false
  | .both t u => TOk t d ∧ SOk u d ∧ Quiet checks t u d ∧ ¬(t = .ended ∧ u = .ended)
  | .gone _ _ => d.putStream <+: d.gotTcp ∧ (d.closed = true → d.gotTcp = d.putStream) ∧
      d.putTcp <+: d.gotStream ∧ (d.fin = true → d.gotStream = d.putTcp) ∧ d.aborted = true ∧ d.stopped = true ∧
      d.listed = false

/-! ### Aborting -/

def TP.ab : TP → TP
  | .reading => .readDone .aborted
  | t => t

def SP.ab : SP → SP
  | .writing _ => .wroteDone .aborted
  | u => u

def TP.st : TP → TP
  | .writing _ => .wroteDone .aborted
  | .closing => .closeDone .aborted
  | t => t

def SP.st : SP → SP
  | .reading => .readDone .aborted
  | u => u

theorem tcpAbort_both (t : TP) (u : SP) (d : Data) (h : d.aborted = false) :
    (conc (.both t u) d).tcpAbort = conc (.both t.ab u.ab) { d with aborted := true } := by
  obtain ⟨ab, f, st, c, tb, sb, l, g1, g2, g3, g4, e1, e2⟩ := d
  cases h
  cases t <;> cases u <;> rfl

theorem tcpAbort_both' (t : TP) (u : SP) (d : Data) (h : d.aborted = true) :
    (conc (.both t u) d).tcpAbort = conc (.both t u) d := by
  have : (conc (.both t u) d).aborted = true := h
  rw [St.tcpAbort, if_pos this]

theorem streamStop_both (t : TP) (u : SP) (d : Data) (h : d.stopped = false) :
    (conc (.both t u) d).streamStop = conc (.both t.st u.st) { d with stopped := true } := by
  obtain ⟨ab, f, st, c, tb, sb, l, g1, g2, g3, g4, e1, e2⟩ := d
  cases h
  cases t <;> cases u <;> rfl

theorem streamStop_stopped (s : St) (h : s.stopped = true) : s.streamStop = s := by
  rw [St.streamStop, if_pos h]

/-- The data after `abort_connection`. -/
def abD (d : Data) : Data := { d with aborted := true, stopped := true }

def TP.abt (t : TP) (d : Data) : TP :=
  if d.aborted then t else if d.stopped then t.ab else t.ab.st

def SP.abt (u : SP) (d : Data) : SP :=
  if d.aborted then u else if d.stopped then u.ab else u.ab.st

theorem abort_both (t : TP) (u : SP) (d : Data) (hd : DOk d) :
    (conc (.both t u) d).abort = conc (.both (t.abt d) (u.abt d)) (abD d) := by
  rw [St.abort]
  cases ha : d.aborted with
  | true =>
    have hs := hd.1 ha
    rw [tcpAbort_both' t u d ha, streamStop_stopped _ hs, TP.abt, SP.abt, if_pos ha, if_pos ha]
    congr 1
    obtain ⟨ab, f, st, c, tb, sb, l, g1, g2, g3, g4, e1, e2⟩ := d
    cases ha; cases hs; rfl
  | false =>
    have hn : ¬ d.aborted = true := by rw [ha]; decide
    rw [tcpAbort_both t u d ha, TP.abt, SP.abt, if_neg hn, if_neg hn]
    obtain ⟨ab, f, st, c, tb, sb, l, g1, g2, g3, g4, e1, e2⟩ := d
    cases st with
    | true =>
      rw [streamStop_stopped _ rfl, if_pos rfl, if_pos rfl]
      rfl
    | false =>
      rw [streamStop_both _ _ _ rfl]
      rfl

theorem abD_ok (d : Data) (h : DOk d) : DOk (abD d) := ⟨fun _ => rfl, h.2⟩

theorem abt_tok (t : TP) (d : Data) (hd : DOk d) (h : TOk t d) : TOk (t.abt d) (abD d) := by
  cases ha : d.aborted with
  | true =>
    have hs := hd.1 ha
    rw [TP.abt, if_pos ha]
    cases t with
    | writing w => exact absurd (hs.symm.trans h.2.2.2) (by decide)
    | closing => exact absurd (hs.symm.trans h.2) (by decide)
    | _ => exact h
  | false =>
    have hn : ¬ d.aborted = true := by rw [ha]; decide
    rw [TP.abt, if_neg hn]
    cases hs : d.stopped with
    | true =>
      rw [if_pos rfl]
      cases t with
      | reading => exact ⟨(fun c => nomatch c), fun _ => h.1, (fun c => nomatch c), h.2⟩
      | writing w => exact absurd (hs.symm.trans h.2.2.2) (by decide)
      | closing => exact absurd (hs.symm.trans h.2) (by decide)
      | _ => exact h
    | false =>
      rw [if_neg (by decide)]
      cases t with
      | reading => exact ⟨(fun c => nomatch c), fun _ => h.1, (fun c => nomatch c), h.2⟩
      | writing w => exact ⟨(fun c => nomatch c), ⟨w, h.1.symm⟩, h.2.2.1⟩
      | closing => exact h.1
      | _ => exact h

theorem abt_sok (u : SP) (d : Data) (hd : DOk d) (h : SOk u d) : SOk (u.abt d) (abD d) := by
  cases ha : d.aborted with
  | true =>
    have hs := hd.1 ha
    rw [SP.abt, if_pos ha]
    cases u with
    | reading => exact absurd (hs.symm.trans h.2.2) (by decide)
    | _ => exact h
  | false =>
    have hn : ¬ d.aborted = true := by rw [ha]; decide
    rw [SP.abt, if_neg hn]
    cases hs : d.stopped with
    | true =>
      rw [if_pos rfl]
      cases u with
      | reading => exact absurd (hs.symm.trans h.2.2) (by decide)
      | writing w => exact ⟨(fun c => nomatch c), ⟨w, h.1.symm⟩, h.2.2⟩
      | _ => exact h
    | false =>
      rw [if_neg (by decide)]
      cases u with
      | reading => exact ⟨(fun c => nomatch c), fun _ => h.1, h.2.1⟩
      | writing w => exact ⟨(fun c => nomatch c), ⟨w, h.1.symm⟩, h.2.2⟩
      | _ => exact h

theorem st_tok (t : TP) (d : Data) (h : TOk t d) : TOk t.st { d with stopped := true } := by
  cases t with
  | writing w => exact ⟨(fun c => nomatch c), ⟨w, h.1.symm⟩, h.2.2.1⟩
  | closing => exact h.1
  | _ => exact h

theorem st_sok (u : SP) (d : Data) (h : SOk u d) : SOk u.st { d with stopped := true } := by
  cases u with
  | reading => exact ⟨(fun c => nomatch c), fun _ => h.1, h.2.1⟩
  | _ => exact h

theorem abt_t_ended (t : TP) (d : Data) : t.abt d = .ended ↔ t = .ended := by
  unfold TP.abt
  cases t <;> (repeat' split) <;> simp [TP.ab, TP.st]

theorem abt_s_ended (u : SP) (d : Data) : u.abt d = .ended ↔ u = .ended := by
  unfold SP.abt
  cases u <;> (repeat' split) <;> simp [SP.ab, SP.st]

theorem abt_t_reading (t : TP) (d : Data) (h : t.abt d = .reading) : t = .reading ∧ d.aborted = true := by
  unfold TP.abt at h
  cases ha : d.aborted with
  | true => rw [ha, if_pos rfl] at h; exact ⟨h, rfl⟩
  | false =>
    rw [ha, if_neg (by decide)] at h
    exfalso
    cases hs : d.stopped <;> rw [hs] at h <;> cases t <;> simp [TP.ab, TP.st] at h

theorem abt_s_writing (u : SP) (d : Data) (w : List UInt8) (h : u.abt d = .writing w) :
    u = .writing w ∧ d.aborted = true := by
  unfold SP.abt at h
  cases ha : d.aborted with
  | true => rw [ha, if_pos rfl] at h; exact ⟨h, rfl⟩
  | false =>
    rw [ha, if_neg (by decide)] at h
    exfalso
    cases hs : d.stopped <;> rw [hs] at h <;> cases u <;> simp [SP.ab, SP.st] at h

/-! ### The end -/

theorem theEnd_both (t : TP) (u : SP) (d : Data) :
    (conc (.both t u) d).theEnd.freed = true := by
  obtain ⟨ab, f, st, c, tb, sb, l, g1, g2, g3, g4, e1, e2⟩ := d
  cases ab <;> cases st <;> cases t <;> cases u <;> rfl

theorem theEnd_ended (d : Data) :
    (conc (.both .ended .ended) d).theEnd = conc (.gone true true) { abD d with listed := false } := by
  obtain ⟨ab, f, st, c, tb, sb, l, g1, g2, g3, g4, e1, e2⟩ := d
  cases ab <;> cases st <;> rfl

theorem theEnd_idle (d : Data) :
    (conc (.both .idle .idle) d).theEnd = conc (.gone false false) { abD d with listed := false } := by
  obtain ⟨ab, f, st, c, tb, sb, l, g1, g2, g3, g4, e1, e2⟩ := d
  cases ab <;> cases st <;> rfl

/-- One direction has ended: the connection goes on or is freed. -/
theorem isEnded_t (checks : Bool) (u : SP) (d : Data) (hd : DOk d) (ht : TOk .ended d) (hu : SOk u d)
    (hq : Quiet checks .ended u d) :
    ∃ a' d', (conc (.both .ended u) d).isEnded = conc a' d' ∧ Ok checks a' d' := by
  cases u with
  | ended =>
    refine ⟨.gone true true, { abD d with listed := false }, ?_, abD_ok d hd, ht.1, ht.2, hu.1, hu.2, rfl, rfl, rfl⟩
    rw [← theEnd_ended]; rfl
  | reading => exact ⟨.both .ended .reading, d, rfl, hd, ht, hu, hq, fun c => nomatch c.2⟩
  | readDone e => exact ⟨.both .ended (.readDone e), d, rfl, hd, ht, hu, hq, fun c => nomatch c.2⟩
  | writing w => exact ⟨.both .ended (.writing w), d, rfl, hd, ht, hu, hq, fun c => nomatch c.2⟩
  | wroteDone e => exact ⟨.both .ended (.wroteDone e), d, rfl, hd, ht, hu, hq, fun c => nomatch c.2⟩
  | idle => exact hu.elim

theorem isEnded_s (checks : Bool) (t : TP) (d : Data) (hd : DOk d) (ht : TOk t d) (hu : SOk .ended d)
    (hq : Quiet checks t .ended d) :
    ∃ a' d', (conc (.both t .ended) d).isEnded = conc a' d' ∧ Ok checks a' d' := by
  cases t with
  | ended =>
    refine ⟨.gone true true, { abD d with listed := false }, ?_, abD_ok d hd, ht.1, ht.2, hu.1, hu.2, rfl, rfl, rfl⟩
    rw [← theEnd_ended]; rfl
  | reading => exact ⟨.both .reading .ended, d, rfl, hd, ht, hu, hq, fun c => nomatch c.1⟩
  | readDone e => exact ⟨.both (.readDone e) .ended, d, rfl, hd, ht, hu, hq, fun c => nomatch c.1⟩
  | writing w => exact ⟨.both (.writing w) .ended, d, rfl, hd, ht, hu, hq, fun c => nomatch c.1⟩
  | wroteDone e => exact ⟨.both (.wroteDone e) .ended, d, rfl, hd, ht, hu, hq, fun c => nomatch c.1⟩
  | closing => exact ⟨.both .closing .ended, d, rfl, hd, ht, hu, hq, fun c => nomatch c.1⟩
  | closeDone e => exact ⟨.both (.closeDone e) .ended, d, rfl, hd, ht, hu, hq, fun c => nomatch c.1⟩
  | idle => exact ht.elim

end Verif.Tunnel.Conn
